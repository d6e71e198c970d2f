import Verif.Lemmas.JsonParser
/-
Lemmas for C46: induction over the grammar.
-/
set_option linter.unusedSimpArgs false
namespace Zserio.Json
open Tokenizer
variable {t : PyText} {σ : Type}

theorem Sim.congr {w w' v v' : PyStr} {x : M (Tokenizer × σ) Unit} {o : M σ Unit} (h : Sim t w w' x o) (hw : v = w) (hw' : v' = w') :
    Sim t v v' x o := by subst hw hw'; exact h

/-- an element is a value only if something follows it -/
def Followed (d : Doc) (tail : PyStr) : Prop := tail = [] → ∀ v, d ≠ .value v

/-- What the parser does with a part of a document. -/
def Parsed (t : PyText) (ob : Observer σ) : Part → PyStr → Prop
  | .element d, s => ∀ n ws tail, s.length ≤ n → Blank ws → Tokenizes t tail → Ends tail → Followed d tail →
      Sim t (ws ++ s ++ tail) tail (Parser.parseElement t ob n) (ob.tellAll d.events)
  | .elements ds, s => ∀ n k ws ws' w c tok, s.length ≤ n → s.length ≤ k → Blank ws → Blank ws' → punctuation c = some tok →
      (c = 93 ∨ c = 125) →
      Sim t (ws ++ s ++ (ws' ++ c :: w)) (ws' ++ c :: w) (Parser.parseItems t (Parser.parseElement t ob n) k)
        (ob.tellAll (Doc.elementEvents ds))
  | .members ms, s => ∀ n k ws ws' w c tok, s.length ≤ n → s.length ≤ k → Blank ws → Blank ws' → punctuation c = some tok →
      (c = 93 ∨ c = 125) →
      Sim t (ws ++ s ++ (ws' ++ c :: w)) (ws' ++ c :: w) (Parser.parseItems t (Parser.parseMember t ob (Parser.parseElement t ob n)) k)
        (ob.tellAll (Doc.memberEvents ms))

/-- the loop ends at a closing bracket -/
theorem Sim.more_end {item : M (Tokenizer × σ) Unit} {k : Nat} {ws w : PyStr} {c : Nat} {tok : Token} (hk : 0 < k)
    (hb : Blank ws) (hp : punctuation c = some tok) (hc : c = 93 ∨ c = 125) :
    Sim t (ws ++ c :: w) (ws ++ c :: w) (Parser.parseMore t item k) (pure ()) := by
  obtain ⟨k, rfl⟩ := Nat.exists_eq_succ_of_ne_zero (Nat.pos_iff_ne_zero.1 hk)
  rw [Parser.parseMore]
  refine Sim.token (P := fun x => x = tok) (fun tk hl => (hl.punct hb hp).1) ?_
  intro tok' htok'
  subst htok'
  have : tok' ≠ .itemSeparator := by
    intro h
    subst h
    rcases hc with rfl | rfl <;> simp [punctuation] at hp
  rw [if_neg this]
  exact Sim.pure_unit _

/-- the loop continues after a separator -/
theorem Sim.more_sep {item : M (Tokenizer × σ) Unit} {o : M σ Unit} {k : Nat} {ws w w' : PyStr} (hb : Blank ws)
    (hw : Tokenizes t w) (h : Sim t w w' (Parser.parseItems t item k) o) :
    Sim t (ws ++ 44 :: w) w' (Parser.parseMore t item (k + 1)) o := by
  rw [Parser.parseMore]
  have hp : punctuation 44 = some .itemSeparator := rfl
  refine Sim.token (P := fun x => x = .itemSeparator) (fun tk hl => (hl.punct hb hp).1) ?_
  rintro _ rfl
  rw [if_pos rfl]
  exact Sim.next (P := fun _ => True) (fun tk hl => (hl.punct hb hp).2) hw (fun _ _ => trivial) fun _ _ => h

/-- one member -/
theorem Sim.member (ht : t.Lawful) {ob : Observer σ} {element : M (Tokenizer × σ) Unit} {o : M σ Unit} {k s ws₀ ws w w' : PyStr}
    (hk : ValueText t (.str k) s) (hb₀ : Blank ws₀) (hb : Blank ws) (hw : Tokenizes t w) (h : Sim t w w' element o) :
    Sim t (ws₀ ++ s ++ (ws ++ 58 :: w)) w' (Parser.parseMember t ob element) (do ob.tell (.key k); o) := by
  have he : Ends (ws ++ 58 :: w) := ends_blank_punct hb (by simp)
  have hne : ws ++ 58 :: w ≠ [] := by simp
  unfold Parser.parseMember Parser.checkToken
  rw [M.bind_assoc']
  refine Sim.token (P := fun x => x = .value) (fun tk hl => (hl.value ht hb₀ hk he hne).1) ?_
  rintro _ rfl
  simp only [ne_eq, not_true_eq_false, if_false, M.pure_bind']
  refine Sim.value (v := .str k) (fun tk hl => (hl.value ht hb₀ hk he hne).2.1) ?_
  simp only
  refine Sim.bind (Sim.observe _ _) ?_
  refine Sim.next (P := fun _ => True) (fun tk hl => (hl.value ht hb₀ hk he hne).2.2) (tokenizes_punct hb rfl) (fun _ _ => trivial)
    fun _ _ => ?_
  have := Sim.bind (Sim.consume (σ := σ) (c := 58) (tok := .keySeparator) hb rfl hw) h
  simpa using this

theorem tokenizes_elements (ht : t.Lawful) {ds : List Doc} {ws s tail : PyStr} (h : JsonText t (.elements ds) s) (hb : Blank ws)
    (he : Ends tail) (hne : tail ≠ []) :
    Tokenizes t (ws ++ s ++ tail) ∧ ∀ tk, Loaded t (ws ++ s ++ tail) tk → tk.token ∈ Parser.elementTokens := by
  cases h with
  | lastElement h => exact ⟨tokenizes_element ht h hb he hne, fun tk hl => hl.element ht h hb he hne⟩
  | @moreElements d s1 ws1 ws2 ds s2 h hb1 hb2 _ =>
    have he' : Ends (ws1 ++ 44 :: (ws2 ++ s2 ++ tail)) := ends_blank_punct hb1 (by simp)
    have hne' : ws1 ++ 44 :: (ws2 ++ s2 ++ tail) ≠ [] := by simp
    rw [show ws ++ (s1 ++ ws1 ++ 44 :: (ws2 ++ s2)) ++ tail = ws ++ s1 ++ (ws1 ++ 44 :: (ws2 ++ s2 ++ tail)) by simp]
    exact ⟨tokenizes_element ht h hb he' hne', fun tk hl => hl.element ht h hb he' hne'⟩

theorem tokenizes_members (ht : t.Lawful) {ms : List (PyStr × Doc)} {ws s tail : PyStr} (h : JsonText t (.members ms) s)
    (hb : Blank ws) :
    Tokenizes t (ws ++ s ++ tail) ∧ ∀ tk, Loaded t (ws ++ s ++ tail) tk → tk.token = .value := by
  cases h with
  | @lastMember k s1 ws1 ws2 d s2 hk hb1 hb2 _ =>
    have he' : Ends (ws1 ++ 58 :: (ws2 ++ s2 ++ tail)) := ends_blank_punct hb1 (by simp)
    have hne' : ws1 ++ 58 :: (ws2 ++ s2 ++ tail) ≠ [] := by simp
    rw [show ws ++ (s1 ++ ws1 ++ 58 :: (ws2 ++ s2)) ++ tail = ws ++ s1 ++ (ws1 ++ 58 :: (ws2 ++ s2 ++ tail)) by simp]
    exact ⟨tokenizes_value ht hb hk he' hne', fun tk hl => (hl.value ht hb hk he' hne').1⟩
  | @moreMembers k s1 ws1 ws2 d s2 ws3 ws4 ms s3 hk hb1 hb2 _ hb3 hb4 _ =>
    have he' : Ends (ws1 ++ 58 :: (ws2 ++ s2 ++ ws3 ++ 44 :: (ws4 ++ s3) ++ tail)) := ends_blank_punct hb1 (by simp)
    have hne' : ws1 ++ 58 :: (ws2 ++ s2 ++ ws3 ++ 44 :: (ws4 ++ s3) ++ tail) ≠ [] := by simp
    rw [show ws ++ (s1 ++ ws1 ++ 58 :: (ws2 ++ s2 ++ ws3 ++ 44 :: (ws4 ++ s3))) ++ tail =
      ws ++ s1 ++ (ws1 ++ 58 :: (ws2 ++ s2 ++ ws3 ++ 44 :: (ws4 ++ s3) ++ tail)) by simp]
    exact ⟨tokenizes_value ht hb hk he' hne', fun tk hl => (hl.value ht hb hk he' hne').1⟩

/-- the body of an array -/
theorem Sim.array {ob : Observer σ} {element : M (Tokenizer × σ) Unit} {n : Nat} {ws w tail : PyStr} {es : List JsonEvent}
    (hb : Blank ws) (hw : Tokenizes t w) (htail : Tokenizes t tail) {ws' : PyStr} (hb' : Blank ws')
    (h : (w = ws' ++ 93 :: tail ∧ es = []) ∨
      ((∀ tk, Loaded t w tk → tk.token ∈ Parser.elementTokens) ∧
        Sim t w (ws' ++ 93 :: tail) (Parser.parseItems t element n) (ob.tellAll es))) :
    Sim t (ws ++ 91 :: w) tail (Parser.parseArray t ob element n) (ob.tellAll (.beginArray :: (es ++ [.endArray]))) := by
  unfold Parser.parseArray
  simp only [Observer.tellAll, Observer.tellAll_append, bind_pure_unit]
  refine Sim.bind (Sim.observe _ _) ?_
  have hclose : Sim t (ws' ++ 93 :: tail) tail (do Parser.consumeToken t .endArray; Parser.observe ob.endArray)
      (ob.tell .endArray) := by
    have := Sim.bind (Sim.consume (σ := σ) (c := 93) (tok := .endArray) hb' rfl htail) (Sim.observe tail ob.endArray)
    simpa [Observer.tell] using this
  rcases h with ⟨rfl, rfl⟩ | ⟨h1, h2⟩
  · refine Sim.next (P := fun x => x = .endArray) (fun tk hl => (hl.punct (tok := .beginArray) hb rfl).2) hw
      (fun tk hl => (hl.punct (tok := .endArray) hb' rfl).1) ?_
    rintro _ rfl
    rw [if_neg (by decide)]
    simpa [Observer.tellAll] using hclose
  · refine Sim.next (P := fun x => x ∈ Parser.elementTokens) (fun tk hl => (hl.punct (tok := .beginArray) hb rfl).2) hw
      (fun tk hl => h1 tk hl) ?_
    intro tok htok
    rw [if_pos htok]
    exact Sim.bind h2 hclose

/-- the body of an object -/
theorem Sim.object {ob : Observer σ} {element : M (Tokenizer × σ) Unit} {n : Nat} {ws w tail : PyStr} {es : List JsonEvent}
    (hb : Blank ws) (hw : Tokenizes t w) (htail : Tokenizes t tail) {ws' : PyStr} (hb' : Blank ws')
    (h : (w = ws' ++ 125 :: tail ∧ es = []) ∨
      ((∀ tk, Loaded t w tk → tk.token = .value) ∧
        Sim t w (ws' ++ 125 :: tail) (Parser.parseItems t (Parser.parseMember t ob element) n) (ob.tellAll es))) :
    Sim t (ws ++ 123 :: w) tail (Parser.parseObject t ob element n) (ob.tellAll (.beginObject :: (es ++ [.endObject]))) := by
  unfold Parser.parseObject
  simp only [Observer.tellAll, Observer.tellAll_append, bind_pure_unit]
  refine Sim.bind (Sim.observe _ _) ?_
  have hclose : Sim t (ws' ++ 125 :: tail) tail (do Parser.consumeToken t .endObject; Parser.observe ob.endObject)
      (ob.tell .endObject) := by
    have := Sim.bind (Sim.consume (σ := σ) (c := 125) (tok := .endObject) hb' rfl htail) (Sim.observe tail ob.endObject)
    simpa [Observer.tell] using this
  rcases h with ⟨rfl, rfl⟩ | ⟨h1, h2⟩
  · refine Sim.next (P := fun x => x = .endObject) (fun tk hl => (hl.punct (tok := .beginObject) hb rfl).2) hw
      (fun tk hl => (hl.punct (tok := .endObject) hb' rfl).1) ?_
    rintro _ rfl
    rw [if_neg (by decide)]
    simpa [Observer.tellAll] using hclose
  · refine Sim.next (P := fun x => x = .value) (fun tk hl => (hl.punct (tok := .beginObject) hb rfl).2) hw
      (fun tk hl => h1 tk hl) ?_
    intro tok htok
    rw [if_pos htok]
    exact Sim.bind h2 hclose

theorem Sim.dispatch_array {ob : Observer σ} {n : Nat} {ws w w' : PyStr} {o : M σ Unit} (hb : Blank ws)
    (h : Sim t (ws ++ 91 :: w) w' (Parser.parseArray t ob (Parser.parseElement t ob n) n) o) :
    Sim t (ws ++ 91 :: w) w' (Parser.parseElement t ob (n + 1)) o := by
  rw [Parser.parseElement]
  refine Sim.token (P := fun x => x = .beginArray) (fun tk hl => (hl.punct hb rfl).1) ?_
  rintro _ rfl
  exact h

theorem Sim.dispatch_object {ob : Observer σ} {n : Nat} {ws w w' : PyStr} {o : M σ Unit} (hb : Blank ws)
    (h : Sim t (ws ++ 123 :: w) w' (Parser.parseObject t ob (Parser.parseElement t ob n) n) o) :
    Sim t (ws ++ 123 :: w) w' (Parser.parseElement t ob (n + 1)) o := by
  rw [Parser.parseElement]
  refine Sim.token (P := fun x => x = .beginObject) (fun tk hl => (hl.punct hb rfl).1) ?_
  rintro _ rfl
  exact h

theorem blank_nil : Blank [] := by intro c hc; simp at hc

/-- Every text of the grammar is parsed. -/
theorem parsed (ht : t.Lawful) (ob : Observer σ) {p : Part} {s : PyStr} (h : JsonText t p s) : Parsed t ob p s := by
  induction h with
  | @value v s hv =>
    intro n ws tail hn hb htok he hf
    have hne : tail ≠ [] := fun h => hf h v rfl
    obtain ⟨n, rfl⟩ : ∃ m, n = m + 1 := ⟨n - 1, by have := List.length_pos_iff.2 hv.1; omega⟩
    rw [Parser.parseElement]
    refine Sim.token (P := fun x => x = .value) (fun tk hl => (hl.value ht hb hv he hne).1) ?_
    rintro _ rfl
    simp only [Doc.events, Observer.tellAll_one]
    exact Sim.value_text ht ob hb hv he hne htok
  | @emptyArray ws1 hb1 =>
    intro n ws tail hn hb htok he hf
    simp only [List.length_cons, List.length_append] at hn
    obtain ⟨n, rfl⟩ : ∃ m, n = m + 1 := ⟨n - 1, by omega⟩
    refine Sim.congr (Sim.dispatch_array hb (w := ws1 ++ 93 :: tail) ?_) (by simp) rfl
    exact Sim.array hb (tokenizes_punct hb1 rfl) htok hb1 (.inl ⟨rfl, rfl⟩)
  | @array ds ws1 s ws2 hb1 hs hb2 ih =>
    intro n ws tail hn hb htok he hf
    simp only [List.length_cons, List.length_append] at hn
    obtain ⟨n, rfl⟩ : ∃ m, n = m + 1 := ⟨n - 1, by omega⟩
    refine Sim.congr (Sim.dispatch_array hb (w := ws1 ++ s ++ (ws2 ++ 93 :: tail)) ?_) (by simp) rfl
    have hte := tokenizes_elements ht hs hb1 (tail := ws2 ++ 93 :: tail) (ends_blank_punct hb2 (by simp)) (by simp)
    refine Sim.array hb hte.1 htok hb2 (.inr ⟨hte.2, ?_⟩)
    exact ih n n ws1 ws2 tail 93 .endArray (by omega) (by omega) hb1 hb2 rfl (by simp)
  | @emptyObject ws1 hb1 =>
    intro n ws tail hn hb htok he hf
    simp only [List.length_cons, List.length_append] at hn
    obtain ⟨n, rfl⟩ : ∃ m, n = m + 1 := ⟨n - 1, by omega⟩
    refine Sim.congr (Sim.dispatch_object hb (w := ws1 ++ 125 :: tail) ?_) (by simp) rfl
    exact Sim.object hb (tokenizes_punct hb1 rfl) htok hb1 (.inl ⟨rfl, rfl⟩)
  | @object ms ws1 s ws2 hb1 hs hb2 ih =>
    intro n ws tail hn hb htok he hf
    simp only [List.length_cons, List.length_append] at hn
    obtain ⟨n, rfl⟩ : ∃ m, n = m + 1 := ⟨n - 1, by omega⟩
    refine Sim.congr (Sim.dispatch_object hb (w := ws1 ++ s ++ (ws2 ++ 125 :: tail)) ?_) (by simp) rfl
    have hte := tokenizes_members ht hs hb1 (tail := ws2 ++ 125 :: tail)
    refine Sim.object hb hte.1 htok hb2 (.inr ⟨hte.2, ?_⟩)
    exact ih n n ws1 ws2 tail 125 .endObject (by omega) (by omega) hb1 hb2 rfl (by simp)
  | @lastElement d s hs ih =>
    intro n k ws ws' w c tok hn hk hb hb' hp hc
    have hpos := List.length_pos_iff.2 hs.ne_nil
    unfold Parser.parseItems
    rw [show ob.tellAll (Doc.elementEvents [d]) = (do ob.tellAll d.events; pure ()) by
      simp [Doc.elementEvents, bind_pure_unit]]
    refine Sim.bind (ih n ws (ws' ++ c :: w) hn hb (tokenizes_punct hb' hp) (ends_blank_punct hb' (by omega))
      (fun h => by simp at h)) ?_
    exact Sim.more_end (by omega) hb' hp hc
  | @moreElements d s ws1 ws2 ds s' hs hb1 hb2 hs' ih ih' =>
    intro n k ws ws' w c tok hn hk hb hb' hp hc
    simp only [List.length_cons, List.length_append] at hn hk
    unfold Parser.parseItems
    simp only [Doc.elementEvents, Observer.tellAll_append]
    have htail : Tokenizes t (ws1 ++ 44 :: (ws2 ++ s' ++ (ws' ++ c :: w))) := tokenizes_punct hb1 rfl
    refine Sim.congr (Sim.bind (ih n ws (ws1 ++ 44 :: (ws2 ++ s' ++ (ws' ++ c :: w))) (by omega) hb htail
      (ends_blank_punct hb1 (by simp)) (fun h => by simp at h)) ?_) (by simp) rfl
    obtain ⟨k, rfl⟩ : ∃ m, k = m + 1 := ⟨k - 1, by omega⟩
    exact Sim.more_sep hb1 (tokenizes_elements ht hs' hb2 (ends_blank_punct hb' (by omega)) (by simp)).1
      (ih' n k ws2 ws' w c tok (by omega) (by omega) hb2 hb' hp hc)
  | @lastMember k₀ s ws1 ws2 d s' hk₀ hb1 hb2 hs' ih =>
    intro n k ws ws' w c tok hn hk hb hb' hp hc
    simp only [List.length_cons, List.length_append] at hn hk
    unfold Parser.parseItems
    rw [show ob.tellAll (Doc.memberEvents [(k₀, d)]) = (do (do ob.tell (.key k₀); ob.tellAll d.events); pure ()) by
      simp [Doc.memberEvents, bind_pure_unit, Observer.tellAll]]
    have htail : Tokenizes t (ws' ++ c :: w) := tokenizes_punct hb' hp
    have hend : Ends (ws' ++ c :: w) := ends_blank_punct hb' (by omega)
    refine Sim.bind ?_ (Sim.more_end (by omega) hb' hp hc)
    refine Sim.congr (Sim.member ht hk₀ hb hb1 (tokenizes_element ht hs' hb2 hend (by simp))
      (ih n ws2 (ws' ++ c :: w) (by omega) hb2 htail hend (fun h => by simp at h))) (by simp) rfl
  | @moreMembers k₀ s ws1 ws2 d s' ws3 ws4 ms s'' hk₀ hb1 hb2 hs' hb3 hb4 hs'' ih ih' =>
    intro n k ws ws' w c tok hn hk hb hb' hp hc
    simp only [List.length_cons, List.length_append] at hn hk
    unfold Parser.parseItems
    rw [show ob.tellAll (Doc.memberEvents ((k₀, d) :: ms)) =
        (do (do ob.tell (.key k₀); ob.tellAll d.events); ob.tellAll (Doc.memberEvents ms)) by
      simp [Doc.memberEvents, Observer.tellAll, Observer.tellAll_append, M.bind_assoc']]
    have htail : Tokenizes t (ws3 ++ 44 :: (ws4 ++ s'' ++ (ws' ++ c :: w))) := tokenizes_punct hb3 rfl
    have hend : Ends (ws3 ++ 44 :: (ws4 ++ s'' ++ (ws' ++ c :: w))) := ends_blank_punct hb3 (by simp)
    refine Sim.congr (Sim.bind (w' := ws3 ++ 44 :: (ws4 ++ s'' ++ (ws' ++ c :: w)))
      (Sim.member ht hk₀ hb hb1 (tokenizes_element ht hs' hb2 hend (by simp))
      (ih n ws2 _ (by omega) hb2 htail hend (fun h => by simp at h))) ?_) (by simp) rfl
    obtain ⟨k, rfl⟩ : ∃ m, k = m + 1 := ⟨k - 1, by omega⟩
    exact Sim.more_sep hb3 (tokenizes_members ht hs'' hb4).1
      (ih' n k ws4 ws' w c tok (by omega) (by omega) hb4 hb' hp hc)

/-- An element at any place of a stream: the bound of `parse` suffices. -/
theorem sim_element (ht : t.Lawful) (ob : Observer σ) {d : Doc} {ws s tail : PyStr} (h : JsonText t (.element d) s)
    (hb : Blank ws) (htok : Tokenizes t tail) (he : (∃ v, d = .value v) → Ends tail ∧ tail ≠ []) {tk : Tokenizer}
    (hl : Loaded t (ws ++ s ++ tail) tk) (st : σ) :
    Yields t tail (Parser.parseElement t ob (Parser.remaining tk + 1) (tk, st)) (ob.tellAll d.events st) := by
  cases h with
  | value hv =>
    obtain ⟨he, hne⟩ := he ⟨_, rfl⟩
    refine (show Sim t (ws ++ s ++ tail) tail (Parser.parseElement t ob (Parser.remaining tk + 1)) _ from ?_) tk st hl
    rw [Parser.parseElement]
    refine Sim.token (P := fun x => x = .value) (fun tk hl => (hl.value ht hb hv he hne).1) ?_
    rintro _ rfl
    simp only [Doc.events, Observer.tellAll_one]
    exact Sim.value_text ht ob hb hv he hne htok
  | @emptyArray ws1 hb1 =>
    have hn : Parser.remaining tk = (ws1 ++ [93] ++ tail).length := by
      rw [← ((show Loaded t (ws ++ 91 :: (ws1 ++ [93] ++ tail)) tk by simpa using hl).punct hb (tok := .beginArray) rfl).2.1]; rfl
    refine Sim.congr (Sim.dispatch_array hb (w := ws1 ++ 93 :: tail) ?_) (by simp) rfl tk st hl
    exact Sim.array hb (tokenizes_punct hb1 rfl) htok hb1 (.inl ⟨rfl, rfl⟩)
  | @array ds ws1 s ws2 hb1 hs hb2 =>
    have hn : Parser.remaining tk = (ws1 ++ s ++ ws2 ++ [93] ++ tail).length := by
      rw [← ((show Loaded t (ws ++ 91 :: (ws1 ++ s ++ ws2 ++ [93] ++ tail)) tk by simpa using hl).punct hb (tok := .beginArray) rfl).2.1]; rfl
    simp only [List.length_append, List.length_cons, List.length_nil] at hn
    refine Sim.congr (Sim.dispatch_array hb (w := ws1 ++ s ++ (ws2 ++ 93 :: tail)) ?_) (by simp) rfl tk st hl
    have hte := tokenizes_elements ht hs hb1 (tail := ws2 ++ 93 :: tail) (ends_blank_punct hb2 (by simp)) (by simp)
    refine Sim.array hb hte.1 htok hb2 (.inr ⟨hte.2, ?_⟩)
    exact parsed ht ob hs _ _ ws1 ws2 tail 93 .endArray (by omega) (by omega) hb1 hb2 rfl (by simp)
  | @emptyObject ws1 hb1 =>
    refine Sim.congr (Sim.dispatch_object hb (w := ws1 ++ 125 :: tail) ?_) (by simp) rfl tk st hl
    exact Sim.object hb (tokenizes_punct hb1 rfl) htok hb1 (.inl ⟨rfl, rfl⟩)
  | @object ms ws1 s ws2 hb1 hs hb2 =>
    have hn : Parser.remaining tk = (ws1 ++ s ++ ws2 ++ [125] ++ tail).length := by
      rw [← ((show Loaded t (ws ++ 123 :: (ws1 ++ s ++ ws2 ++ [125] ++ tail)) tk by simpa using hl).punct hb (tok := .beginObject) rfl).2.1]; rfl
    simp only [List.length_append, List.length_cons, List.length_nil] at hn
    refine Sim.congr (Sim.dispatch_object hb (w := ws1 ++ s ++ (ws2 ++ 125 :: tail)) ?_) (by simp) rfl tk st hl
    have hte := tokenizes_members ht hs hb1 (tail := ws2 ++ 125 :: tail)
    refine Sim.object hb hte.1 htok hb2 (.inr ⟨hte.2, ?_⟩)
    exact parsed ht ob hs _ _ ws1 ws2 tail 125 .endObject (by omega) (by omega) hb1 hb2 rfl (by simp)

theorem rem_new {text : PyStr} {chunks : List PyStr} (h : Chunks text chunks) : Rem (Tokenizer.new chunks) text := by
  cases chunks with
  | nil => exact ⟨by rw [← h.flatten]; rfl, by simp [Tokenizer.new, Tokenizer.ioRead]⟩
  | cons c cs =>
    exact ⟨by rw [← h.flatten]; rfl, fun d hd => h.nonempty d (List.mem_cons_of_mem _ hd)⟩

theorem token_new {text : PyStr} {chunks : List PyStr} (h : Chunks text chunks) (hne : text ≠ []) :
    (Tokenizer.new chunks).token = .beginOfFile := by
  cases chunks with
  | nil => exact absurd h.flatten.symm (by simpa using hne)
  | cons c cs => simp [Tokenizer.new, Tokenizer.ioRead, h.nonempty c List.mem_cons_self]

/-- `parse` on a stream which begins with an element. -/
theorem parse_stream (ht : t.Lawful) (ob : Observer σ) {d : Doc} {ws s tail : PyStr} (h : JsonText t (.element d) s)
    (hb : Blank ws) (htok : Tokenizes t tail) (he : (∃ v, d = .value v) → Ends tail ∧ tail ≠ []) {tk : Tokenizer}
    (hl : (tk.token = .beginOfFile ∧ Rem tk (ws ++ s ++ tail)) ∨ Loaded t (ws ++ s ++ tail) tk)
    (st : σ) :
    ∃ tk', Parser.parse t ob (tk, st) =
        ((ob.tellAll d.events st).1.map fun _ => decide (tk'.token = .endOfFile), tk', (ob.tellAll d.events st).2) ∧
      ((ob.tellAll d.events st).1 = .ok () → Loaded t tail tk') := by
  have hfirst : Tokenizes t (ws ++ s ++ tail) ∧ ∀ tk, Loaded t (ws ++ s ++ tail) tk → tk.token ∈ Parser.elementTokens := by
    cases h with
    | value hv => exact ⟨tokenizes_value ht hb hv (he ⟨_, rfl⟩).1 (he ⟨_, rfl⟩).2, fun tk hl => by
        simp [Parser.elementTokens, (hl.value ht hb hv (he ⟨_, rfl⟩).1 (he ⟨_, rfl⟩).2).1]⟩
    | emptyArray => exact ⟨by simpa using (tokenizes_punct (t := t) hb (c := 91) (tok := .beginArray) rfl), fun tk hl => by
        simp [Parser.elementTokens, ((show Loaded t (ws ++ 91 :: _) tk by simpa using hl).punct hb (tok := .beginArray) rfl).1]⟩
    | array => exact ⟨by simpa using (tokenizes_punct (t := t) hb (c := 91) (tok := .beginArray) rfl), fun tk hl => by
        simp [Parser.elementTokens, ((show Loaded t (ws ++ 91 :: _) tk by simpa using hl).punct hb (tok := .beginArray) rfl).1]⟩
    | emptyObject => exact ⟨by simpa using (tokenizes_punct (t := t) hb (c := 123) (tok := .beginObject) rfl), fun tk hl => by
        simp [Parser.elementTokens, ((show Loaded t (ws ++ 123 :: _) tk by simpa using hl).punct hb (tok := .beginObject) rfl).1]⟩
    | object => exact ⟨by simpa using (tokenizes_punct (t := t) hb (c := 123) (tok := .beginObject) rfl), fun tk hl => by
        simp [Parser.elementTokens, ((show Loaded t (ws ++ 123 :: _) tk by simpa using hl).punct hb (tok := .beginObject) rfl).1]⟩
  -- the state before the element
  have key : ∀ tk1, Loaded t (ws ++ s ++ tail) tk1 →
      ∃ tk', (do
          if (← Parser.token) = .endOfFile then return true
          let (tk, _) ← M.get
          Parser.parseElement t ob (Parser.remaining tk + 1)
          return (← Parser.token) = .endOfFile : M (Tokenizer × σ) Bool) (tk1, st) =
        ((ob.tellAll d.events st).1.map fun _ => decide (tk'.token = .endOfFile), tk', (ob.tellAll d.events st).2) ∧
      ((ob.tellAll d.events st).1 = .ok () → Loaded t tail tk') := by
    intro tk1 hl1
    have hne : tk1.token ≠ .endOfFile := by
      have := hfirst.2 tk1 hl1
      simp only [Parser.elementTokens, List.mem_cons, List.not_mem_nil, or_false] at this
      rcases this with h | h | h <;> simp [h]
    have hy := sim_element ht ob h hb htok he hl1 st
    rw [M.bind_ok (show Parser.token (tk1, st) = (.ok tk1.token, (tk1, st)) from rfl)]
    simp only [if_neg hne]
    rw [M.bind_ok (M.get_apply _)]
    simp only
    rw [M.bind_apply]
    rcases hx : Parser.parseElement t ob (Parser.remaining tk1 + 1) (tk1, st) with ⟨r, tk2, st2⟩
    rw [hx] at hy
    obtain ⟨h1, h2, h3⟩ := hy
    simp only at h1 h2 h3
    rcases ho : ob.tellAll d.events st with ⟨q, st3⟩
    rw [ho] at h1 h2 h3
    simp only at h1 h2 h3
    subst h1 h2
    cases r with
    | error e => exact ⟨tk2, rfl, by simp⟩
    | ok u => exact ⟨tk2, rfl, h3⟩
  unfold Parser.parse
  rw [M.bind_ok (show Parser.token (tk, st) = (.ok tk.token, (tk, st)) from rfl)]
  rcases hl with ⟨hbof, hr⟩ | hl
  · obtain ⟨tk1, hn, hl1⟩ := hfirst.1.loaded hr
    rw [if_pos hbof]
    obtain ⟨tk', hk⟩ := key tk1 hl1
    refine ⟨tk', ?_⟩
    rw [M.bind_ok (show Parser.next t (tk, st) = (.ok tk1.token, (tk1, st)) by simp [Parser.next, hn])]
    exact hk
  · have hnb : tk.token ≠ .beginOfFile := by
      have := hfirst.2 tk hl
      simp only [Parser.elementTokens, List.mem_cons, List.not_mem_nil, or_false] at this
      rcases this with h | h | h <;> simp [h]
    rw [if_neg hnb]
    exact key tk hl

end Zserio.Json
