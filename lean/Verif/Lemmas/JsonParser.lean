import Verif.Spec.JsonDoc
import Verif.Lemmas.JsonTokenizer
/-
Lemmas for C46: the parser on the texts of the grammar.
-/
set_option linter.unusedSimpArgs false
namespace Zserio.Json
open Tokenizer
variable {t : PyText} {σ : Type}

/-! ### White space -/

theorem Blank.cons {c : Nat} {ws : PyStr} (h : Blank (c :: ws)) :
    (c = 32 ∨ c = 9 ∨ c = 10 ∨ c = 13) ∧ Blank ws := by
  refine ⟨?_, fun d hd => h d (List.mem_cons_of_mem _ hd)⟩
  have := h c List.mem_cons_self
  simpa using this

theorem skipLoop_blank : ∀ (k : Nat) (ws : PyStr), ws.length ≤ k → Blank ws → ∀ (x : Nat) (w : PyStr),
    (x ≠ 32 ∧ x ≠ 9 ∧ x ≠ 10 ∧ x ≠ 13) → ∀ line col,
    ∃ l c, skipLoop (ws ++ x :: w) line col = (true, x :: w, l, c) := by
  intro k
  induction k with
  | zero =>
    intro ws hk _ x w hx line col
    obtain rfl : ws = [] := List.length_eq_zero_iff.1 (by omega)
    rw [List.nil_append, skipLoop.eq_def]
    simp [hx]
  | succ k ih =>
    intro ws hk hb x w hx line col
    match ws with
    | [] =>
      rw [List.nil_append, skipLoop.eq_def]
      simp [hx]
    | c :: ws =>
      simp only [List.length_cons] at hk
      obtain ⟨hc, hb⟩ := hb.cons
      rw [List.cons_append, skipLoop.eq_def]
      simp only
      split
      · exact ih ws (by omega) hb x w hx _ _
      split
      · exact ih ws (by omega) hb x w hx _ _
      rw [if_pos (by omega)]
      match ws with
      | [] =>
        simp only [List.nil_append]
        rw [if_neg (by omega)]
        exact ih [] (by simp) hb x w hx _ _
      | d :: ws =>
        simp only [List.cons_append]
        split
        · simp only [List.length_cons] at hk
          exact ih ws (by omega) hb.cons.2 x w hx _ _
        · have := ih (d :: ws) (by omega) hb x w hx (line + 1) 1
          simpa using this

theorem skipLoop_all_blank : ∀ (k : Nat) (ws : PyStr), ws.length ≤ k → Blank ws → ∀ line col,
    (skipLoop ws line col).1 = false := by
  intro k
  induction k with
  | zero =>
    intro ws hk _ line col
    obtain rfl : ws = [] := List.length_eq_zero_iff.1 (by omega)
    rfl
  | succ k ih =>
    intro ws hk hb line col
    match ws with
    | [] => rfl
    | c :: ws =>
      simp only [List.length_cons] at hk
      obtain ⟨hc, hb⟩ := hb.cons
      rw [skipLoop.eq_def]
      simp only
      split
      · exact ih ws (by omega) hb _ _
      split
      · exact ih ws (by omega) hb _ _
      rw [if_pos (by omega)]
      match ws with
      | [] => rfl
      | d :: ws =>
        simp only
        split
        · simp only [List.length_cons] at hk
          exact ih ws (by omega) hb.cons.2 _ _
        · exact ih (d :: ws) (by omega) hb _ _

/-! ### One token -/

/-- The text which remains to be read. -/
def Rem (tk : Tokenizer) (w : PyStr) : Prop := tk.rest ++ tk.chunks.flatten = w ∧ ∀ c ∈ tk.chunks, c ≠ []

/-- The tokenizer has just read the first token of the text. -/
def Loaded (t : PyText) (w : PyStr) (tk : Tokenizer) : Prop :=
  ∃ tk0, Rem tk0 w ∧ tk0.next t = (.ok tk.token, tk)

/-- The first token of the text can be read. -/
def Tokenizes (t : PyText) (w : PyStr) : Prop := ∀ tk, Rem tk w → ∃ tk', tk.next t = (.ok tk'.token, tk')

theorem Tokenizes.loaded {w : PyStr} (h : Tokenizes t w) {tk : Tokenizer} (hr : Rem tk w) :
    ∃ tk', tk.next t = (.ok tk'.token, tk') ∧ Loaded t w tk' := by
  obtain ⟨tk', h'⟩ := h tk hr
  exact ⟨tk', h', tk, hr, h'⟩

theorem next_outcome {w rest : PyStr} {tok : Token} {v : Val} (hne : ¬ AtEnd t w)
    (ho : ∀ l c, (outcome t w l c).seen.result = .ok (tok, v) ∧ (outcome t w l c).rest = rest) {tk : Tokenizer} (hr : Rem tk w) :
    ∃ tk', tk.next t = (.ok tok, tk') ∧ tk'.token = tok ∧ tk'.value = v ∧ Rem tk' rest := by
  obtain ⟨hw, hc⟩ := hr
  have ha := (nextLoop_after t tk.chunks tk hc (by rw [hw]; exact hne)).1
  rw [hw] at ha
  obtain ⟨h1, h2⟩ := ho tk.line tk.column
  have hres := ha.result
  rw [h1] at hres
  rcases hx : nextLoop t tk.chunks tk with ⟨r, tk'⟩
  rw [hx] at ha hres
  cases r with
  | error e => simp [Except.map] at hres
  | ok a =>
    simp only [Except.map, Except.ok.injEq, Prod.mk.injEq] at hres
    obtain ⟨rfl, rfl⟩ := hres
    exact ⟨tk', by unfold Tokenizer.next; rw [hx], ha.token _ rfl, rfl, by rw [← h2]; exact ha.rest, ha.nonempty⟩

theorem Loaded.of_outcome {w rest : PyStr} {tok : Token} {v : Val} (hne : ¬ AtEnd t w)
    (ho : ∀ l c, (outcome t w l c).seen.result = .ok (tok, v) ∧ (outcome t w l c).rest = rest) {tk : Tokenizer}
    (h : Loaded t w tk) : tk.token = tok ∧ tk.value = v ∧ Rem tk rest := by
  obtain ⟨tk0, hr, h0⟩ := h
  obtain ⟨tk', h1, h2, h3, h4⟩ := next_outcome hne ho hr
  rw [h0] at h1
  simp only [Prod.mk.injEq] at h1
  obtain ⟨_, rfl⟩ := h1
  exact ⟨h2, h3, h4⟩

theorem Tokenizes.of_outcome {w rest : PyStr} {tok : Token} {v : Val} (hne : ¬ AtEnd t w)
    (ho : ∀ l c, (outcome t w l c).seen.result = .ok (tok, v) ∧ (outcome t w l c).rest = rest) : Tokenizes t w := by
  intro tk hr
  obtain ⟨tk', h1, h2, _⟩ := next_outcome hne ho hr
  exact ⟨tk', by rw [h1, h2]⟩

theorem punctuation_not_blank {c : Nat} {tok : Token} (h : punctuation c = some tok) : c ≠ 32 ∧ c ≠ 9 ∧ c ≠ 10 ∧ c ≠ 13 := by
  unfold punctuation at h
  refine ⟨?_, ?_, ?_, ?_⟩ <;> (rintro rfl; simp at h)

theorem punct_outcome {ws w : PyStr} {c : Nat} {tok : Token} (hb : Blank ws) (hp : punctuation c = some tok) :
    ¬ AtEnd t (ws ++ c :: w) ∧ ∀ l k, (outcome t (ws ++ c :: w) l k).seen.result = .ok (tok, .str [c]) ∧
      (outcome t (ws ++ c :: w) l k).rest = w := by
  have hsk := skipLoop_blank _ ws (Nat.le_refl _) hb c w (punctuation_not_blank hp)
  constructor
  · rintro ⟨x, r, h1, h2, h3, _⟩
    obtain ⟨l, k, h⟩ := hsk 1 1
    rw [h] at h2
    simp only [List.cons.injEq] at h2
    rw [← h2.1, hp] at h3
    simp at h3
  · intro l k
    obtain ⟨l', k', h⟩ := hsk l k
    unfold outcome
    rw [h]
    simp [hp]

theorem value_head (ht : t.Lawful) {x : Nat} {r : PyStr} {v : Val} (h : (decodeValue t (x :: r)).value = some v) :
    punctuation x = none ∧ x ≠ 32 ∧ x ≠ 9 ∧ x ≠ 10 ∧ x ≠ 13 := by
  have key : ¬ (x = 123 ∨ x = 125 ∨ x = 91 ∨ x = 93 ∨ x = 58 ∨ x = 44 ∨ x = 32 ∨ x = 9 ∨ x = 10 ∨ x = 13) := by
    intro hx
    have hd : t.isDigit x = false := by
      cases hd : t.isDigit x with
      | false => rfl
      | true =>
        have := (ht.isDigit x (by omega)).1 hd
        unfold IsDecimal at this
        omega
    have h1 : extractLoop t (x :: r) false false false = (0, false) := by
      rw [extractLoop]
      have : (x == 101) = false ∧ (x == 69) = false ∧ (x == 46) = false := by
        simp only [beq_eq_false_iff_ne]; omega
      simp [hd, this]
    have h2 : extractNumber t (x :: r) = ([], false) := by
      simp only [extractNumber]
      rw [if_neg (by omega), h1]
      rfl
    have h3 : decodeValue t (x :: r) = Json.failure 1 := by
      simp only [decodeValue]
      rw [if_neg (by omega), if_neg (by omega), if_neg (by omega), if_neg (by omega), if_neg (by omega), if_neg (by omega),
        if_neg (by omega), decodeNumber, h2]
      rfl
    rw [h3] at h
    simp [Json.failure] at h
  refine ⟨?_, by omega⟩
  unfold punctuation
  repeat rw [if_neg (by omega)]

theorem value_outcome (ht : t.Lawful) {ws s tail : PyStr} {v : Val} (hb : Blank ws) (hv : ValueText t v s) (he : Ends tail)
    (hne : tail ≠ []) :
    ¬ AtEnd t (ws ++ s ++ tail) ∧ ∀ l k, (outcome t (ws ++ s ++ tail) l k).seen.result = .ok (.value, v) ∧
      (outcome t (ws ++ s ++ tail) l k).rest = tail := by
  obtain ⟨hs, hd⟩ := hv
  have hd := hd tail he
  match s with
  | [] => exact absurd rfl hs
  | x :: s =>
    obtain ⟨hp, hx⟩ := value_head ht (v := v) (show (decodeValue t (x :: (s ++ tail))).value = some v by
      rw [← List.cons_append, hd]; rfl)
    have hsk := skipLoop_blank _ ws (Nat.le_refl _) hb x (s ++ tail) hx
    rw [show ws ++ x :: s ++ tail = ws ++ x :: (s ++ tail) by simp]
    have hl : 0 < tail.length := List.length_pos_iff.2 hne
    constructor
    · rintro ⟨x', r, h1, h2, h3, h4⟩
      obtain ⟨l, k, h⟩ := hsk 1 1
      rw [h] at h2
      simp only at h2
      rw [← h2, ← List.cons_append, hd] at h4
      simp only [success, List.length_cons, List.length_append] at h4
      omega
    · intro l k
      obtain ⟨l', k', h⟩ := hsk l k
      unfold outcome
      rw [h]
      rw [List.cons_append] at hd
      simp only [hp, hd]
      simp [success]

theorem blank_outcome {ws : PyStr} (hb : Blank ws) :
    ¬ AtEnd t ws ∧ ∀ l k, (outcome t ws l k).seen.result = .ok (.endOfFile, .none) := by
  have h := skipLoop_all_blank _ ws (Nat.le_refl _) hb
  refine ⟨not_atEnd_of_not_found (h 1 1), fun l k => ?_⟩
  unfold outcome
  have := h l k
  rcases hx : skipLoop ws l k with ⟨f, r, l', k'⟩
  rw [hx] at this
  simp only at this
  subst this
  rfl

theorem next_blank {ws : PyStr} (hb : Blank ws) {tk : Tokenizer} (hr : Rem tk ws) :
    ∃ tk', tk.next t = (.ok .endOfFile, tk') ∧ tk'.token = .endOfFile := by
  obtain ⟨hw, hc⟩ := hr
  obtain ⟨hne, ho⟩ := blank_outcome (t := t) hb
  have ha := (nextLoop_after t tk.chunks tk hc (by rw [hw]; exact hne)).1
  rw [hw] at ha
  have hres := ha.result
  rw [ho] at hres
  rcases hx : nextLoop t tk.chunks tk with ⟨r, tk'⟩
  rw [hx] at ha hres
  cases r with
  | error e => simp [Except.map] at hres
  | ok a =>
    simp only [Except.map, Except.ok.injEq, Prod.mk.injEq] at hres
    obtain ⟨rfl, _⟩ := hres
    exact ⟨tk', by unfold Tokenizer.next; rw [hx], ha.token _ rfl⟩

theorem tokenizes_punct {ws w : PyStr} {c : Nat} {tok : Token} (hb : Blank ws) (hp : punctuation c = some tok) :
    Tokenizes t (ws ++ c :: w) :=
  let ⟨h1, h2⟩ := punct_outcome (t := t) (w := w) hb hp
  .of_outcome h1 h2

theorem tokenizes_blank {ws : PyStr} (hb : Blank ws) : Tokenizes t ws := by
  intro tk hr
  obtain ⟨tk', h1, h2⟩ := next_blank (t := t) hb hr
  exact ⟨tk', by rw [h1, h2]⟩

theorem Loaded.punct {ws w : PyStr} {c : Nat} {tok : Token} (hb : Blank ws) (hp : punctuation c = some tok) {tk : Tokenizer}
    (h : Loaded t (ws ++ c :: w) tk) : tk.token = tok ∧ Rem tk w :=
  let ⟨h1, h2⟩ := punct_outcome (t := t) (w := w) hb hp
  let ⟨h3, _, h4⟩ := Loaded.of_outcome h1 h2 h
  ⟨h3, h4⟩

theorem Loaded.value (ht : t.Lawful) {ws s tail : PyStr} {v : Val} (hb : Blank ws) (hv : ValueText t v s) (he : Ends tail)
    (hne : tail ≠ []) {tk : Tokenizer} (h : Loaded t (ws ++ s ++ tail) tk) : tk.token = .value ∧ tk.value = v ∧ Rem tk tail :=
  let ⟨h1, h2⟩ := value_outcome ht hb hv he hne
  Loaded.of_outcome h1 h2 h

theorem Loaded.blank {ws : PyStr} (hb : Blank ws) {tk : Tokenizer} (h : Loaded t ws tk) : tk.token = .endOfFile := by
  obtain ⟨tk0, hr, h0⟩ := h
  obtain ⟨tk', h1, h2⟩ := next_blank (t := t) hb hr
  rw [h0] at h1
  simp only [Prod.mk.injEq] at h1
  obtain ⟨_, rfl⟩ := h1
  exact h2

theorem ends_blank_punct {ws w : PyStr} {c : Nat} (hb : Blank ws) (hc : c = 44 ∨ c = 58 ∨ c = 93 ∨ c = 125) :
    Ends (ws ++ c :: w) := by
  intro d hd
  match ws with
  | [] =>
    simp only [List.nil_append, List.head?_cons, Option.some.injEq] at hd
    subst hd
    simp
    omega
  | x :: ws =>
    simp only [List.cons_append, List.head?_cons, Option.some.injEq] at hd
    subst hd
    have := hb.cons.1
    simp
    omega

theorem ends_blank {ws : PyStr} (hb : Blank ws) : Ends ws := by
  intro d hd
  match ws with
  | [] => simp at hd
  | x :: ws =>
    simp only [List.head?_cons, Option.some.injEq] at hd
    subst hd
    have := hb.cons.1
    simp
    omega

theorem tokenizes_value (ht : t.Lawful) {ws s tail : PyStr} {v : Val} (hb : Blank ws) (hv : ValueText t v s) (he : Ends tail)
    (hne : tail ≠ []) : Tokenizes t (ws ++ s ++ tail) :=
  let ⟨h1, h2⟩ := value_outcome ht hb hv he hne
  .of_outcome h1 h2

/-! ### Simulation -/

theorem Observer.tellAll_append (ob : Observer σ) (es fs : List JsonEvent) :
    ob.tellAll (es ++ fs) = (do ob.tellAll es; ob.tellAll fs) := by
  induction es with
  | nil => rfl
  | cons e es ih =>
    simp only [List.cons_append, Observer.tellAll, ih]
    rw [M.bind_assoc']

theorem Observer.tellAll_one (ob : Observer σ) (e : JsonEvent) : ob.tellAll [e] = ob.tell e := by
  funext s
  simp only [Observer.tellAll, M.bind_apply]
  rcases ob.tell e s with ⟨_ | _, _⟩ <;> rfl

/-- The outcome of a step of the parser is that of the observer, with the given text before the tokenizer. -/
structure Yields (t : PyText) (w : PyStr) (r : Except Err Unit × Tokenizer × σ) (q : Except Err Unit × σ) : Prop where
  result : r.1 = q.1
  state : r.2.2 = q.2
  loaded : q.1 = .ok () → Loaded t w r.2.1

/-- A step of the parser does what the observer does, and moves from one text to the other. -/
def Sim (t : PyText) (w w' : PyStr) (x : M (Tokenizer × σ) Unit) (o : M σ Unit) : Prop :=
  ∀ tk s, Loaded t w tk → Yields t w' (x (tk, s)) (o s)

theorem Sim.bind {w w' w'' : PyStr} {x y : M (Tokenizer × σ) Unit} {o p : M σ Unit} (h : Sim t w w' x o) (h' : Sim t w' w'' y p) :
    Sim t w w'' (do x; y) (do o; p) := by
  intro tk s hl
  have h1 := h tk s hl
  simp only [M.bind_apply]
  rcases hx : x (tk, s) with ⟨r, tk', s'⟩
  rcases ho : o s with ⟨q, s''⟩
  rw [hx, ho] at h1
  obtain ⟨rfl, rfl, h4⟩ := h1
  cases r with
  | error e => exact ⟨rfl, rfl, by simp⟩
  | ok u => exact h' tk' _ (h4 rfl)

theorem Sim.observe (w : PyStr) (m : M σ Unit) : Sim t w w (Parser.observe m) m := by
  intro tk s hl
  unfold Parser.observe
  rcases hm : m s with ⟨r, s'⟩
  simp only [hm]
  exact ⟨rfl, rfl, fun _ => hl⟩

/-- The parser moves on without telling the observer anything. -/
theorem Sim.step {w w' : PyStr} {α : Type} {x : M (Tokenizer × σ) α} {y : α → M (Tokenizer × σ) Unit} {o : M σ Unit} {w'' : PyStr}
    (h : ∀ tk s, Loaded t w tk → ∃ tk' a, x (tk, s) = (.ok a, (tk', s)) ∧ Loaded t w' tk' ∧ Sim t w' w'' (y a) o) :
    Sim t w w'' (x >>= y) o := by
  intro tk s hl
  obtain ⟨tk', a, h1, h2, h3⟩ := h tk s hl
  rw [M.bind_ok h1]
  exact h3 tk' s h2

theorem Sim.next {w w' w'' : PyStr} {y : Token → M (Tokenizer × σ) Unit} {o : M σ Unit} {P : Token → Prop}
    (hr : ∀ tk, Loaded t w tk → Rem tk w') (ht : Tokenizes t w') (hp : ∀ tk, Loaded t w' tk → P tk.token)
    (h : ∀ tok, P tok → Sim t w' w'' (y tok) o) : Sim t w w'' (Parser.next t >>= y) o := by
  apply Sim.step
  intro tk s hl
  obtain ⟨tk', h1, h2⟩ := ht.loaded (hr tk hl)
  exact ⟨tk', tk'.token, by simp [Parser.next, h1], h2, h _ (hp _ h2)⟩

theorem Sim.pure_unit (w : PyStr) : Sim (σ := σ) t w w (pure ()) (pure ()) := fun _ _ hl => ⟨rfl, rfl, fun _ => hl⟩

theorem bind_pure_unit (x : M σ Unit) : (do x; pure ()) = x := by
  funext s
  simp only [M.bind_apply]
  rcases x s with ⟨_ | _, _⟩ <;> rfl

theorem Sim.token {w w'' : PyStr} {y : Token → M (Tokenizer × σ) Unit} {o : M σ Unit} {P : Token → Prop}
    (hp : ∀ tk, Loaded t w tk → P tk.token) (h : ∀ tok, P tok → Sim t w w'' (y tok) o) : Sim t w w'' (Parser.token >>= y) o :=
  Sim.step fun tk _ hl => ⟨tk, tk.token, rfl, hl, h _ (hp tk hl)⟩

theorem Sim.value {w w'' : PyStr} {y : Val → M (Tokenizer × σ) Unit} {o : M σ Unit} {v : Val}
    (hp : ∀ tk, Loaded t w tk → tk.value = v) (h : Sim t w w'' (y v) o) : Sim t w w'' (Parser.value >>= y) o :=
  Sim.step fun tk _ hl => ⟨tk, tk.value, rfl, hl, by rw [hp tk hl]; exact h⟩

/-- a punctuation character is consumed -/
theorem Sim.consume {ws w : PyStr} {c : Nat} {tok : Token} (hb : Blank ws) (hp : punctuation c = some tok)
    (hw : Tokenizes t w) : Sim (σ := σ) t (ws ++ c :: w) w (Parser.consumeToken t tok) (pure ()) := by
  unfold Parser.consumeToken Parser.checkToken
  rw [M.bind_assoc']
  refine Sim.token (P := fun x => x = tok) (fun tk hl => (hl.punct hb hp).1) ?_
  rintro _ rfl
  simp only [ne_eq, not_true_eq_false, if_false, M.pure_bind']
  exact Sim.next (P := fun _ => True) (fun tk hl => (hl.punct hb hp).2) hw (fun _ _ => trivial) fun _ _ => Sim.pure_unit w

theorem JsonText.ne_nil {p : Part} {s : PyStr} (h : JsonText t p s) : s ≠ [] := by
  induction h <;> first
    | (rename_i hv; exact hv.1)
    | assumption
    | simp

theorem Sim.value_text (ht : t.Lawful) (ob : Observer σ) {ws s tail : PyStr} {v : Val} (hb : Blank ws) (hv : ValueText t v s)
    (he : Ends tail) (hne : tail ≠ []) (htok : Tokenizes t tail) :
    Sim t (ws ++ s ++ tail) tail (Parser.parseValue t ob) (ob.tell (.value v)) := by
  unfold Parser.parseValue
  refine Sim.value (v := v) (fun tk hl => (hl.value ht hb hv he hne).2.1) ?_
  rw [← bind_pure_unit (ob.tell (.value v))]
  refine Sim.bind (Sim.observe _ _) ?_
  exact Sim.next (P := fun _ => True) (fun tk hl => (hl.value ht hb hv he hne).2.2) htok (fun _ _ => trivial)
    fun _ _ => Sim.pure_unit _

/-- The first token of an element. -/
theorem Loaded.element (ht : t.Lawful) {d : Doc} {ws s tail : PyStr} (h : JsonText t (.element d) s) (hb : Blank ws)
    (he : Ends tail) (hne : tail ≠ []) {tk : Tokenizer} (hl : Loaded t (ws ++ s ++ tail) tk) :
    tk.token ∈ Parser.elementTokens := by
  cases h with
  | value hv => simp [Parser.elementTokens, (hl.value ht hb hv he hne).1]
  | emptyArray => simp [Parser.elementTokens, ((show Loaded t (ws ++ 91 :: _) tk by simpa using hl).punct hb (tok := .beginArray) rfl).1]
  | array => simp [Parser.elementTokens, ((show Loaded t (ws ++ 91 :: _) tk by simpa using hl).punct hb (tok := .beginArray) rfl).1]
  | emptyObject => simp [Parser.elementTokens, ((show Loaded t (ws ++ 123 :: _) tk by simpa using hl).punct hb (tok := .beginObject) rfl).1]
  | object => simp [Parser.elementTokens, ((show Loaded t (ws ++ 123 :: _) tk by simpa using hl).punct hb (tok := .beginObject) rfl).1]

theorem tokenizes_element (ht : t.Lawful) {d : Doc} {ws s tail : PyStr} (h : JsonText t (.element d) s) (hb : Blank ws)
    (he : Ends tail) (hne : tail ≠ []) : Tokenizes t (ws ++ s ++ tail) := by
  cases h with
  | value hv => exact tokenizes_value ht hb hv he hne
  | emptyArray => simpa using (tokenizes_punct (t := t) hb (c := 91) (tok := .beginArray) rfl)
  | array => simpa using (tokenizes_punct (t := t) hb (c := 91) (tok := .beginArray) rfl)
  | emptyObject => simpa using (tokenizes_punct (t := t) hb (c := 123) (tok := .beginObject) rfl)
  | object => simpa using (tokenizes_punct (t := t) hb (c := 123) (tok := .beginObject) rfl)

end Zserio.Json
