import Verif.Lemmas.JsonAccept
import Verif.Props.JsonDoc
/-
C55: what `JsonParser` accepts, and what it tells its observer then.
-/
set_option linter.unusedSimpArgs false
namespace Zserio
open Json

private theorem parse_inv {t : PyText} (ht : t.Lawful) {σ : Type} {ob : Observer σ} {single : Prop} {text : PyStr} {chunks : List PyStr}
    (hc : Chunks text chunks) (hs : single → chunks.length ≤ 1) {st st' : σ} {b : Bool} {tk : Tokenizer}
    (h : Parser.parse t ob (Tokenizer.new chunks, st) = (.ok b, (tk, st'))) :
    (st' = st ∧ b = true ∧ (Blank text ∨ (¬ single ∧ Tokenizer.AtEnd t text))) ∨
      ∃ before d s after, text = before ++ s ++ after ∧ Blank before ∧ JsonText t (.element d) s ∧
        ob.tellAll d.events st = (.ok (), st') ∧ (b = true → Blank after ∨ (¬ single ∧ Tokenizer.AtEnd t after)) ∧
        (b = false → ¬ Blank after) := by
  -- what follows once the first token has been read
  have key : ∀ tk1, Json.Next t single text tk1 →
      (do
          if (← Parser.token) = .endOfFile then return true
          let (tk, _) ← M.get
          Parser.parseElement t ob (Parser.remaining tk + 1)
          return (← Parser.token) = .endOfFile : M (Tokenizer × σ) Bool) (tk1, st) = (.ok b, (tk, st')) →
      (st' = st ∧ b = true ∧ (Blank text ∨ (¬ single ∧ Tokenizer.AtEnd t text))) ∨
        ∃ before d s after, text = before ++ s ++ after ∧ Blank before ∧ JsonText t (.element d) s ∧
          ob.tellAll d.events st = (.ok (), st') ∧ (b = true → Blank after ∨ (¬ single ∧ Tokenizer.AtEnd t after)) ∧
          (b = false → ¬ Blank after) := by
    intro tk1 hn h
    rw [M.bind_ok (show Parser.token (tk1, st) = (.ok tk1.token, (tk1, st)) from rfl)] at h
    by_cases he : tk1.token = .endOfFile
    · rw [if_pos he] at h
      simp only [M.pure_apply, Prod.mk.injEq, Except.ok.injEq] at h
      obtain ⟨rfl, rfl, rfl⟩ := h
      rcases hn with ⟨_, hn⟩ | ⟨hn, _⟩
      · exact .inl ⟨rfl, rfl, hn⟩
      · exact absurd he hn
    · right
      rw [if_neg he, M.bind_ok (M.get_apply _)] at h
      simp only at h
      obtain ⟨u, ⟨tk2, s2⟩, h1, h2⟩ := M.bind_inv h
      rw [M.bind_ok (show Parser.token (tk2, s2) = (.ok tk2.token, (tk2, s2)) from rfl)] at h2
      simp only [M.pure_apply, Prod.mk.injEq, Except.ok.injEq] at h2
      obtain ⟨hb, rfl, rfl⟩ := h2
      obtain ⟨before, s, after, hbl, htext, ⟨d, hd, htold⟩, hn2⟩ := element_sound ht ob _ _ _ _ _ _ _ hn h1
      refine ⟨before, d, s, after, htext, hbl, hd, htold, fun hb' => ?_, fun hb' => ?_⟩
      · rw [hb'] at hb
        rcases hn2 with ⟨_, hn2⟩ | ⟨hn2, _⟩
        · exact hn2
        · exact absurd (of_decide_eq_true hb) hn2
      · rw [hb'] at hb
        have hne := of_decide_eq_false hb
        rcases hn2 with ⟨hn2, _⟩ | ⟨_, _, _, ws, z, hws, hw, hz⟩
        · exact absurd hn2 hne
        · intro hbl'
          have hz0 : z ≠ [] := by
            rcases hz with ⟨c, rfl, _⟩ | ⟨_, hz⟩
            · simp
            · exact hz.1
          obtain ⟨c, z', rfl⟩ := List.exists_cons_of_ne_nil hz0
          have hmem := hbl' c (by rw [hw]; simp)
          simp only [List.mem_cons, List.not_mem_nil, or_false] at hmem
          rcases hz with ⟨c', hc', hp⟩ | ⟨_, hz⟩
          · simp only [List.cons.injEq] at hc'
            obtain ⟨rfl, rfl⟩ := hc'
            have := punctuation_not_blank hp
            omega
          · have := (value_head ht (v := tk2.value) (x := c) (r := z') (by
              have := hz.2 [] (by intro c hc; simp at hc)
              rw [List.append_nil] at this
              rw [this]; rfl)).2
            omega
  unfold Parser.parse at h
  rw [M.bind_ok (show Parser.token (Tokenizer.new chunks, st) = (.ok (Tokenizer.new chunks).token, (Tokenizer.new chunks, st)) from rfl)] at h
  by_cases htext : text = []
  · have hch : chunks = [] := by
      cases chunks with
      | nil => rfl
      | cons c cs =>
        have := hc.flatten
        rw [htext] at this
        simp only [List.flatten_cons, List.append_eq_nil_iff] at this
        exact absurd this.1 (hc.nonempty c List.mem_cons_self)
    subst hch
    rw [if_neg (by simp [Tokenizer.new, Tokenizer.ioRead])] at h
    refine key _ ?_ h
    exact .inl ⟨by simp [Tokenizer.new, Tokenizer.ioRead], .inl (by rw [htext]; exact blank_nil)⟩
  · have hbof := token_new hc htext
    rw [if_pos hbof] at h
    obtain ⟨tok, ⟨tk1, s1⟩, h1, h2⟩ := M.bind_inv h
    have hx : (Tokenizer.new chunks).next t = (.ok tok, tk1) ∧ s1 = st := by
      rcases hx : (Tokenizer.new chunks).next t with ⟨r, tk'⟩
      rw [show Parser.next t (Tokenizer.new chunks, st) = (r, (tk', st)) by simp [Parser.next, hx]] at h1
      simp only [Prod.mk.injEq] at h1
      obtain ⟨rfl, rfl, rfl⟩ := h1
      exact ⟨rfl, rfl⟩
    obtain ⟨hx, rfl⟩ := hx
    obtain ⟨hr1, hr2⟩ := rem_new hc
    have hch : single → (Tokenizer.new chunks).chunks = [] := by
      intro hsg
      match chunks, hs hsg with
      | [], _ => rfl
      | [c], _ => rfl
    have := next_sound ht hr2 hch (by rw [hbof]; decide) hx
    rw [show left (Tokenizer.new chunks) = text from hr1] at this
    exact key tk1 this.2 h2

/-- Whatever text the parser does not reject, however it is read: it begins with a JSON document, which is what the observer was told;
the result says whether something follows.  Otherwise there was nothing to tell.  (The only exception to "nothing follows" is
the one of `C45_deviation`: a value at the very end of a text which is read in several pieces may be taken for the end.) -/
theorem C55_accepted (t : PyText) (ht : t.Lawful) {σ : Type} (ob : Observer σ) (text : PyStr) (chunks : List PyStr)
    (hc : Chunks text chunks) (st st' : σ) (b : Bool) (tk : Tokenizer)
    (h : Parser.parse t ob (Tokenizer.new chunks, st) = (.ok b, (tk, st'))) :
    (st' = st ∧ b = true ∧ (Blank text ∨ Tokenizer.AtEnd t text)) ∨
      ∃ before d s after, text = before ++ s ++ after ∧ Blank before ∧ JsonText t (.element d) s ∧
        ob.tellAll d.events st = (.ok (), st') ∧ (b = true → Blank after ∨ Tokenizer.AtEnd t after) ∧
        (b = false → ¬ Blank after) := by
  rcases parse_inv ht (single := False) hc (fun h => h.elim) h with ⟨h1, h2, h3⟩ | ⟨before, d, s, after, h1, h2, h3, h4, h5, h6⟩
  · exact .inl ⟨h1, h2, h3.imp_right (·.2)⟩
  · exact .inr ⟨before, d, s, after, h1, h2, h3, h4, fun hb => (h5 hb).imp_right (·.2), h6⟩

/-- one value, up to the end of a text which is read at once -/
private theorem parse_last {t : PyText} (ht : t.Lawful) {σ : Type} (ob : Observer σ) (st st' : σ) {v : Val} {before text : PyStr}
    {chunks : List PyStr} (h : ValueText t v text) (hb : Blank before) (hc : Chunks (before ++ text) chunks) (hs : chunks.length ≤ 1)
    (htold : ob.visitValue v st = (.ok (), st')) :
    ∃ tk, Parser.parse t ob (Tokenizer.new chunks, st) = (.ok true, (tk, st')) := by
  have hne : before ++ text ≠ [] := by simp [h.1]
  have hbof := token_new hc hne
  obtain ⟨hr1, hr2⟩ := rem_new hc
  have hch : (Tokenizer.new chunks).chunks = [] := by
    match chunks, hs with
    | [], _ => rfl
    | [c], _ => rfl
  rw [hch, List.flatten_nil, List.append_nil] at hr1
  obtain ⟨ha, hch1, _⟩ := Tokenizer.Same.batch (t := t) hch (by rw [hbof]; simp)
  rw [hr1] at ha
  -- the token
  have ho : ∀ l k, (Tokenizer.outcome t (before ++ text) l k).seen.result = .ok (.value, v) ∧
      (Tokenizer.outcome t (before ++ text) l k).rest = [] := by
    obtain ⟨h0, hd⟩ := h
    have hd := hd [] (by intro c hc; simp at hc)
    obtain ⟨x, s, rfl⟩ := List.exists_cons_of_ne_nil h0
    rw [List.append_nil] at hd
    obtain ⟨hp, hx⟩ := value_head ht (v := v) (show (decodeValue t (x :: s)).value = some v by rw [hd]; rfl)
    intro l k
    obtain ⟨l', k', hsk⟩ := skipLoop_blank _ before (Nat.le_refl _) hb x s hx l k
    unfold Tokenizer.outcome
    rw [hsk]
    simp only [hp, hd]
    simp [success]
  rcases hx : (Tokenizer.new chunks).next t with ⟨r, tk1⟩
  rw [hx] at ha hch1
  have hres := ha.result
  have hrest := ha.rest
  rw [(ho _ _).1] at hres
  rw [(ho _ _).2] at hrest
  cases r with
  | error e => simp [Except.map] at hres
  | ok tok =>
    simp only [Except.map, Except.ok.injEq, Prod.mk.injEq] at hres hrest
    obtain ⟨rfl, rfl⟩ := hres
    have htok := ha.token _ rfl
    simp only at htok hch1
    obtain ⟨tk2, hn2, htok2⟩ := next_blank (t := t) blank_nil (tk := tk1) ⟨hrest, by rw [hch1]; simp⟩
    refine ⟨tk2, ?_⟩
    unfold Parser.parse
    rw [M.bind_ok (show Parser.token (Tokenizer.new chunks, st) = (.ok (Tokenizer.new chunks).token, (Tokenizer.new chunks, st)) from rfl),
      if_pos hbof, M.bind_ok (show Parser.next t (Tokenizer.new chunks, st) = (.ok .value, (tk1, st)) by simp [Parser.next, hx])]
    show (do
          if (← Parser.token) = .endOfFile then return true
          let (tk, _) ← M.get
          Parser.parseElement t ob (Parser.remaining tk + 1)
          return (← Parser.token) = .endOfFile : M (Tokenizer × σ) Bool) (tk1, st) = _
    rw [M.bind_ok (show Parser.token (tk1, st) = (.ok tk1.token, (tk1, st)) from rfl), if_neg (by rw [htok]; decide),
      M.bind_ok (M.get_apply _)]
    simp only
    have hel : Parser.parseElement t ob (Parser.remaining tk1 + 1) (tk1, st) = (.ok (), (tk2, st')) := by
      rw [Parser.parseElement, M.bind_ok (show Parser.token (tk1, st) = (.ok tk1.token, (tk1, st)) from rfl), htok]
      simp only [Parser.parseValue]
      rw [M.bind_ok (show Parser.value (tk1, st) = (.ok tk1.value, (tk1, st)) from rfl),
        M.bind_ok (show Parser.observe (ob.visitValue tk1.value) (tk1, st) = (.ok (), (tk1, st')) by simp [Parser.observe, htold]),
        M.bind_ok (show Parser.next t (tk1, st') = (.ok .endOfFile, (tk2, st')) by simp [Parser.next, hn2])]
      rfl
    rw [M.bind_ok hel, M.bind_ok (show Parser.token (tk2, st') = (.ok tk2.token, (tk2, st')) from rfl), htok2]
    rfl

/-- A text which is read at once is accepted as a whole, without an exception of the observer, exactly if it is a JSON document with
white space around it (then the observer is told the document) or white space only. -/
theorem C55_language (t : PyText) (ht : t.Lawful) {σ : Type} (ob : Observer σ) (text : PyStr) (chunks : List PyStr)
    (hc : Chunks text chunks) (hs : chunks.length ≤ 1) (st st' : σ) :
    (∃ tk, Parser.parse t ob (Tokenizer.new chunks, st) = (.ok true, (tk, st'))) ↔
      (Blank text ∧ st' = st) ∨
      ∃ before d s after, text = before ++ s ++ after ∧ Blank before ∧ Blank after ∧ JsonText t (.element d) s ∧
        ob.tellAll d.events st = (.ok (), st') := by
  constructor
  · rintro ⟨tk, h⟩
    rcases parse_inv ht (single := True) hc (fun _ => hs) h with ⟨h1, _, h3⟩ | ⟨before, d, s, after, h1, h2, h3, h4, h5, _⟩
    · exact .inl ⟨h3.resolve_right (by simp), h1⟩
    · exact .inr ⟨before, d, s, after, h1, h2, (h5 rfl).resolve_right (by simp), h3, h4⟩
  · have hfin : ∀ {r : Except Err Bool} {x : Tokenizer × σ}, r = .ok true → x.2 = st' →
        (∃ tk, (r, x) = (Except.ok true, (tk, st'))) := by
      rintro r ⟨tk, s⟩ rfl rfl
      exact ⟨tk, rfl⟩
    rintro (⟨hb, rfl⟩ | ⟨before, d, s, after, rfl, hb, ha, hd, htold⟩)
    · unfold Parser.parse
      rw [M.bind_ok (show Parser.token (Tokenizer.new chunks, st') = (.ok (Tokenizer.new chunks).token, (Tokenizer.new chunks, st')) from rfl)]
      have hend : ∀ tk1 : Tokenizer, tk1.token = .endOfFile → (do
          if (← Parser.token) = .endOfFile then return true
          let (tk, _) ← M.get
          Parser.parseElement t ob (Parser.remaining tk + 1)
          return (← Parser.token) = .endOfFile : M (Tokenizer × σ) Bool) (tk1, st') = (.ok true, (tk1, st')) := by
        intro tk1 he
        rw [M.bind_ok (show Parser.token (tk1, st') = (.ok tk1.token, (tk1, st')) from rfl), if_pos he]
        rfl
      by_cases htext : text = []
      · have hch : chunks = [] := by
          cases chunks with
          | nil => rfl
          | cons c cs =>
            have := hc.flatten
            rw [htext] at this
            simp only [List.flatten_cons, List.append_eq_nil_iff] at this
            exact absurd this.1 (hc.nonempty c List.mem_cons_self)
        subst hch
        rw [if_neg (by simp [Tokenizer.new, Tokenizer.ioRead])]
        exact ⟨_, hend _ (by simp [Tokenizer.new, Tokenizer.ioRead])⟩
      · have hbof := token_new hc htext
        obtain ⟨tk1, h1, h2⟩ := next_blank (t := t) hb (rem_new hc)
        rw [if_pos hbof, M.bind_ok (show Parser.next t (Tokenizer.new chunks, st') = (.ok .endOfFile, (tk1, st')) by
          simp [Parser.next, h1])]
        exact ⟨tk1, hend tk1 h2⟩
    · cases d with
      | value v =>
        have hv : ValueText t v s := by cases hd; assumption
        simp only [Doc.events, Observer.tellAll_one, Observer.tell] at htold
        by_cases hne : after = []
        · subst hne
          rw [List.append_nil] at hc
          exact parse_last ht ob st st' hv hb hc hs htold
        · obtain ⟨h1, h2⟩ := C46_parse_value t ht ob st v before s after hv hb ha hne chunks hc
          rw [htold] at h1 h2
          exact hfin h1 h2
      | array items =>
        obtain ⟨h1, h2⟩ := C46_parse t ht ob st _ (by simp) before s after hd hb ha chunks hc
        rw [htold] at h1 h2
        exact hfin h1 h2
      | object members =>
        obtain ⟨h1, h2⟩ := C46_parse t ht ob st _ (by simp) before s after hd hb ha chunks hc
        rw [htold] at h1 h2
        exact hfin h1 h2

/-- the hypotheses are met by a text with two documents -/
example : (Parser.parse PyText.simple recorder (Tokenizer.new [py! "[1] ", py! "{}"], [])).1 = .ok false := by decide +kernel
example : Chunks (py! "[1] {}") [py! "[1] ", py! "{}"] := ⟨rfl, by decide⟩
/-- what remains of the deviation: a value is taken for the end of the text -/
example : (Parser.parse PyText.simple recorder (Tokenizer.new [py! "[] ", py! "2"], [])).1 = .ok true := by decide +kernel

end Zserio
