import Verif.Lemmas.JsonSound
/-
Lemmas for C55: the parser read backwards.
-/
set_option linter.unusedSimpArgs false
namespace Zserio.Json
open Tokenizer
variable {t : PyText} {σ : Type}

/-! ### One token -/

theorem skipLoop_split : ∀ (k : Nat) (w : PyStr), w.length ≤ k → ∀ (line col : Nat),
    ∃ ws, w = ws ++ (skipLoop w line col).2.1 ∧ Blank ws ∧ ((skipLoop w line col).1 = false → Blank (skipLoop w line col).2.1) := by
  have hcons : ∀ {c : Nat} {ws : PyStr}, (c = 32 ∨ c = 9 ∨ c = 10 ∨ c = 13) → Blank ws → Blank (c :: ws) := by
    intro c ws hc hb d hd
    rcases List.mem_cons.1 hd with rfl | hd
    · simpa using hc
    · exact hb d hd
  intro k
  induction k with
  | zero =>
    intro w h line col
    obtain rfl : w = [] := List.length_eq_zero_iff.1 (by omega)
    exact ⟨[], by simp [skipLoop], blank_nil, fun _ => by simpa [skipLoop] using blank_nil⟩
  | succ k ih =>
    intro w h line col
    match w with
    | [] => exact ⟨[], by simp [skipLoop], blank_nil, fun _ => by simpa [skipLoop] using blank_nil⟩
    | c :: w =>
      simp only [List.length_cons] at h
      rw [skipLoop.eq_def]
      simp only
      split
      · rename_i hc
        obtain ⟨ws, h1, h2, h3⟩ := ih w (by omega) line (col + 1)
        exact ⟨c :: ws, by rw [List.cons_append, ← h1], hcons (by omega) h2, h3⟩
      split
      · rename_i hc
        obtain ⟨ws, h1, h2, h3⟩ := ih w (by omega) (line + 1) 1
        exact ⟨c :: ws, by rw [List.cons_append, ← h1], hcons (by omega) h2, h3⟩
      split
      · rename_i hc
        match w with
        | [] => exact ⟨[], by simp, blank_nil, fun _ => hcons (by omega) blank_nil⟩
        | d :: w =>
          simp only
          split
          · rename_i hd
            simp only [List.length_cons] at h
            obtain ⟨ws, h1, h2, h3⟩ := ih w (by omega) (line + 1) 1
            exact ⟨c :: d :: ws, by rw [List.cons_append, List.cons_append, ← h1], hcons (by omega) (hcons (by omega) h2), h3⟩
          · obtain ⟨ws, h1, h2, h3⟩ := ih (d :: w) (by omega) (line + 1) 1
            exact ⟨c :: ws, by rw [List.cons_append, ← h1], hcons (by omega) h2, h3⟩
      · exact ⟨[], by simp, blank_nil, by simp⟩

theorem nextLoop_token : ∀ (chunks : List PyStr) (s : Tokenizer) (tok : Token), (nextLoop t chunks s).1 = .ok tok →
    (nextLoop t chunks s).2.token = tok := by
  have hfin : ∀ (s : Tokenizer) tok, (finish s).1 = .ok tok → (finish s).2.token = tok := by
    intro s tok h
    unfold finish at h ⊢
    split at h
    · rename_i he
      rw [if_pos he]
      simp only [Except.ok.injEq] at h
      rw [← h]; exact he
    · rename_i he
      rw [if_neg he]
      rcases hs : s.setTokenValue with ⟨e | u, s'⟩
      · rw [hs] at h; simp at h
      · rw [hs] at h; simpa using h
  intro chunks
  induction chunks with
  | nil =>
    intro s tok h
    rw [nextLoop] at h ⊢
    rcases hd : s.decodeNext t with ⟨e | b, s'⟩
    · rw [hd] at h; simp at h
    · cases b with
      | true => rw [hd] at h; simpa using h
      | false => rw [hd] at h; exact hfin _ _ h
  | cons c cs ih =>
    intro s tok h
    rw [nextLoop] at h ⊢
    rcases hd : s.decodeNext t with ⟨e | b, s'⟩
    · rw [hd] at h; simp at h
    · cases b with
      | true => rw [hd] at h; simpa using h
      | false =>
        rw [hd] at h
        simp only at h ⊢
        split at h
        · rename_i he; rw [if_pos he]; exact hfin _ _ h
        · rename_i he; rw [if_neg he]; exact ih _ _ h

/-- the text which has not been read -/
def left (tk : Tokenizer) : PyStr := tk.rest ++ tk.chunks.flatten

/-- The current token of the tokenizer is the first one of the text `w`.  If the whole text was available at once (`single`),
the end of the file means that there is nothing but white space. -/
def Next (t : PyText) (single : Prop) (w : PyStr) (tk : Tokenizer) : Prop :=
  (tk.token = .endOfFile ∧ (Blank w ∨ (¬ single ∧ AtEnd t w))) ∨
  (tk.token ≠ .endOfFile ∧ (∀ c ∈ tk.chunks, c ≠ []) ∧ (single → tk.chunks = []) ∧
    ∃ ws z, Blank ws ∧ w = ws ++ z ++ left tk ∧
      ((∃ c, z = [c] ∧ punctuation c = some tk.token) ∨ (tk.token = .value ∧ ValueText t tk.value z)))

theorem punctuation_kind {c : Nat} {tok : Token} (h : punctuation c = some tok) : tok ≠ .endOfFile ∧ tok ≠ .value ∧ tok ≠ .beginOfFile := by
  unfold punctuation at h
  repeat (split at h; · (simp only [Option.some.injEq] at h; subst h; decide))
  simp at h

theorem punctuation_char {c : Nat} {tok : Token} (h : punctuation c = some tok) :
    c = (match tok with
      | .beginObject => 123
      | .endObject => 125
      | .beginArray => 91
      | .endArray => 93
      | .keySeparator => 58
      | _ => 44) := by
  unfold punctuation at h
  repeat (split at h; · (simp only [Option.some.injEq] at h; subst h; assumption))
  simp at h

/-- what the outcome of a token means for the text -/
theorem next_of_after (ht : t.Lawful) {single : Prop} {w : PyStr} {l c : Nat} {tok : Token} {s' : Tokenizer} (hs : single → s'.chunks = [])
    (h : After (.ok tok, s') (outcome t w l c)) : Next t single w s' := by
  have htok := h.token tok rfl
  have hres := h.result
  have hrest := h.rest
  have hne := h.nonempty
  simp only [Except.map] at hres hrest hne
  obtain ⟨ws, h1, h2, h3⟩ := skipLoop_split _ w (Nat.le_refl _) l c
  unfold outcome at hres hrest
  rcases hsk : skipLoop w l c with ⟨f, r, l', c'⟩
  rw [hsk] at hres hrest h1 h3
  cases f with
  | false =>
    simp only [Except.ok.injEq, Prod.mk.injEq] at hres
    refine .inl ⟨by rw [htok]; exact hres.1, .inl ?_⟩
    rw [h1]
    intro d hd
    rcases List.mem_append.1 hd with hd | hd
    · exact h2 d hd
    · exact h3 rfl d hd
  | true =>
    simp only at hres hrest h1
    cases r with
    | nil => simp at hres
    | cons x r =>
      simp only at hres hrest
      cases hp : punctuation x with
      | some tok' =>
        simp only [hp, Except.ok.injEq, Prod.mk.injEq] at hres hrest
        have : tok' = s'.token := by rw [htok, hres.1]
        subst this
        refine .inr ⟨(punctuation_kind hp).1, hne, hs, ws, [x], h2, ?_, .inl ⟨x, rfl, hp⟩⟩
        unfold left
        rw [hrest, h1]
        simp
      | none =>
        simp only [hp] at hres hrest
        cases hv : (decodeValue t (x :: r)).value with
        | none => simp [hv] at hres
        | some v =>
          simp only [hv, Except.ok.injEq, Prod.mk.injEq] at hres hrest
          obtain ⟨b1, b2⟩ := decodeValue_bounds (t := t) (x :: r) (by simp)
          refine .inr ⟨by rw [htok, hres.1]; simp, hne, hs, ws, (x :: r).take (decodeValue t (x :: r)).numRead, h2, ?_,
            .inr ⟨by rw [htok]; exact hres.1, ?_⟩⟩
          · unfold left
            rw [hrest, List.append_assoc, List.take_append_drop]
            exact h1
          · rw [hres.2]
            have hl : ((x :: r).take (decodeValue t (x :: r)).numRead).length = (decodeValue t (x :: r)).numRead := by
              rw [List.length_take]; omega
            refine valueText_of_decode (r := (x :: r).drop (decodeValue t (x :: r)).numRead) ht ?_ ?_
            · intro h0
              rw [h0] at hl
              simp at hl
              omega
            · rw [List.take_append_drop, hl]
              rcases hd : decodeValue t (x :: r) with ⟨a, b⟩
              rw [hd] at hv
              simp only at hv
              rw [hv]; rfl

theorem next_sound (ht : t.Lawful) {single : Prop} {tk tk' : Tokenizer} {tok : Token} (hne : ∀ c ∈ tk.chunks, c ≠ [])
    (hs : single → tk.chunks = []) (he : tk.token ≠ .endOfFile) (h : tk.next t = (.ok tok, tk')) :
    tk'.token = tok ∧ Next t single (left tk) tk' := by
  have htok : tk'.token = tok := by
    have := nextLoop_token (t := t) tk.chunks tk tok (by unfold Tokenizer.next at h; rw [h])
    unfold Tokenizer.next at h
    rw [h] at this
    exact this
  refine ⟨htok, ?_⟩
  by_cases hsg : single
  · have hch := hs hsg
    obtain ⟨h1, h2, _⟩ := Same.batch (t := t) hch fun h => absurd h he
    rw [h] at h1 h2
    have : left tk = tk.rest := by simp [left, hch]
    rw [this]
    exact next_of_after ht (fun _ => h2) h1
  · by_cases ha : AtEnd t (tk.rest ++ tk.chunks.flatten)
    · rcases next_cases t tk hne with h1 | h1
      · rw [h] at h1
        exact next_of_after ht (fun h => absurd h hsg) h1
      · rw [h] at h1
        simp only [Except.ok.injEq] at h1
        exact .inl ⟨by rw [htok, h1], .inr ⟨hsg, ha⟩⟩
    · have h1 := (nextLoop_after t tk.chunks tk hne ha).1
      unfold Tokenizer.next at h
      rw [h] at h1
      exact next_of_after ht (fun h => absurd h hsg) h1

/-! ### The functions of the parser -/

variable {single : Prop}

theorem Next.next (ht : t.Lawful) {w : PyStr} {tk tk' : Tokenizer} {s s' : σ} {tok : Token} (hn : Next t single w tk)
    (he : tk.token ≠ .endOfFile) (h : Parser.next t (tk, s) = (.ok tok, (tk', s'))) :
    s' = s ∧ tk'.token = tok ∧ Next t single (left tk) tk' := by
  rcases hn with ⟨h1, _⟩ | ⟨_, h2, h3, _⟩
  · exact absurd h1 he
  · rcases hx : tk.next t with ⟨r, tk1⟩
    rw [show Parser.next t (tk, s) = (r, (tk1, s)) by simp [Parser.next, hx]] at h
    simp only [Prod.mk.injEq] at h
    obtain ⟨rfl, rfl, rfl⟩ := h
    obtain ⟨h4, h5⟩ := next_sound ht h2 h3 he hx
    exact ⟨rfl, h4, h5⟩

/-- a token of one character -/
theorem Next.punct {w : PyStr} {tk : Tokenizer} (hn : Next t single w tk) (he : tk.token ≠ .endOfFile) (hv : tk.token ≠ .value) :
    ∃ ws c, Blank ws ∧ punctuation c = some tk.token ∧ w = ws ++ c :: left tk := by
  rcases hn with ⟨h1, _⟩ | ⟨_, _, _, ws, z, hb, hw, ⟨c, rfl, hc⟩ | ⟨h1, _⟩⟩
  · exact absurd h1 he
  · exact ⟨ws, c, hb, hc, by rw [hw]; simp⟩
  · exact absurd h1 hv

theorem Next.value {w : PyStr} {tk : Tokenizer} (hn : Next t single w tk) (hv : tk.token = .value) :
    ∃ ws z, Blank ws ∧ w = ws ++ z ++ left tk ∧ ValueText t tk.value z := by
  rcases hn with ⟨h1, _⟩ | ⟨_, _, _, ws, z, hb, hw, ⟨c, rfl, hc⟩ | ⟨_, h2⟩⟩
  · rw [hv] at h1; exact absurd h1 (by decide)
  · exact absurd hv (punctuation_kind hc).2.1
  · exact ⟨ws, z, hb, hw, h2⟩

theorem observe_inv {m : M σ Unit} {tk tk' : Tokenizer} {s s' : σ} {u : Unit} (h : Parser.observe m (tk, s) = (.ok u, (tk', s'))) :
    tk' = tk ∧ m s = (.ok (), s') := by
  rcases hx : m s with ⟨r, s1⟩
  rw [show Parser.observe m (tk, s) = (r, (tk, s1)) by simp [Parser.observe, hx]] at h
  simp only [Prod.mk.injEq] at h
  obtain ⟨h1, rfl, rfl⟩ := h
  exact ⟨rfl, by rw [h1]⟩

theorem checkToken_inv {expected : Token} {tk : Tokenizer} {s : σ} {st : Tokenizer × σ} {u : Unit}
    (h : Parser.checkToken expected (tk, s) = (.ok u, st)) : tk.token = expected ∧ st = (tk, s) := by
  unfold Parser.checkToken at h
  rw [M.bind_ok (show Parser.token (tk, s) = (.ok tk.token, (tk, s)) from rfl)] at h
  by_cases he : tk.token = expected
  · rw [if_neg (by simpa using he)] at h
    simp only [M.pure_apply, Prod.mk.injEq] at h
    exact ⟨he, h.2.symm⟩
  · rw [if_pos he] at h
    simp [M.throw] at h

theorem consume_inv (ht : t.Lawful) {expected : Token} {w : PyStr} {tk tk' : Tokenizer} {s s' : σ} {u : Unit} (hn : Next t single w tk)
    (he : expected ≠ .endOfFile) (hv : expected ≠ .value) (h : Parser.consumeToken t expected (tk, s) = (.ok u, (tk', s'))) :
    ∃ ws c w', Blank ws ∧ punctuation c = some expected ∧ w = ws ++ c :: w' ∧ Next t single w' tk' ∧ s' = s := by
  unfold Parser.consumeToken at h
  obtain ⟨_, st1, h1, h2⟩ := M.bind_inv h
  obtain ⟨h3, rfl⟩ := checkToken_inv h1
  obtain ⟨tok, ⟨tk2, s2⟩, h4, h5⟩ := M.bind_inv h2
  simp only [M.pure_apply, Prod.mk.injEq] at h5
  obtain ⟨_, rfl, rfl⟩ := h5
  obtain ⟨ws, c, hb, hc, hw⟩ := hn.punct (by rw [h3]; exact he) (by rw [h3]; exact hv)
  obtain ⟨h6, _, h7⟩ := hn.next ht (by rw [h3]; exact he) h4
  exact ⟨ws, c, left tk, hb, by rw [← h3]; exact hc, hw, h7, h6⟩

/-- An item parser which succeeds has read a text satisfying `Q`. -/
def Sound (t : PyText) (single : Prop) (item : M (Tokenizer × σ) Unit) (Q : PyStr → σ → σ → Prop) : Prop :=
  ∀ w tk s tk' s' u, Next t single w tk → item (tk, s) = (.ok u, (tk', s')) →
    ∃ ws y w', Blank ws ∧ w = ws ++ y ++ w' ∧ Q y s s' ∧ Next t single w' tk'

/-- One or more items with separators. -/
inductive Many (Q : PyStr → σ → σ → Prop) : PyStr → σ → σ → Prop
  | one {x s s'} : Q x s s' → Many Q x s s'
  | more {x s s₁ ws ws' x' s'} : Q x s s₁ → Blank ws → Blank ws' → Many Q x' s₁ s' → Many Q (x ++ ws ++ 44 :: (ws' ++ x')) s s'

theorem items_sound (ht : t.Lawful) {item : M (Tokenizer × σ) Unit} {Q : PyStr → σ → σ → Prop} (hi : Sound t single item Q) :
    ∀ n, Sound t single (Parser.parseItems t item n) (Many Q) := by
  intro n
  induction n with
  | zero =>
    intro w tk s tk' s' u hn h
    unfold Parser.parseItems at h
    obtain ⟨_, _, _, h2⟩ := M.bind_inv h
    simp [Parser.parseMore, M.throw] at h2
  | succ n ih =>
    intro w tk s tk' s' u hn h
    unfold Parser.parseItems at h
    obtain ⟨_, ⟨tk1, s1⟩, h1, h2⟩ := M.bind_inv h
    obtain ⟨ws, y, w', hb, hw, hq, hn'⟩ := hi _ _ _ _ _ _ hn h1
    rw [Parser.parseMore, M.bind_ok (show Parser.token (tk1, s1) = (.ok tk1.token, (tk1, s1)) from rfl)] at h2
    by_cases hsep : tk1.token = .itemSeparator
    · rw [if_pos hsep] at h2
      obtain ⟨_, ⟨tk2, s2⟩, h3, h4⟩ := M.bind_inv h2
      have he : tk1.token ≠ .endOfFile := by rw [hsep]; decide
      obtain ⟨rfl, _, hn2⟩ := hn'.next ht he h3
      obtain ⟨ws1, c, hb1, hc, hw1⟩ := hn'.punct he (by rw [hsep]; decide)
      rw [hsep] at hc
      obtain rfl : c = 44 := punctuation_char hc
      obtain ⟨ws2, y2, w2, hb2, hw2, hq2, hn3⟩ := ih _ _ _ _ _ _ hn2 h4
      refine ⟨ws, y ++ ws1 ++ 44 :: (ws2 ++ y2), w2, hb, ?_, .more hq hb1 hb2 hq2, hn3⟩
      rw [hw, hw1, hw2]
      simp
    · rw [if_neg hsep] at h2
      simp only [M.pure_apply, Prod.mk.injEq] at h2
      obtain ⟨_, rfl, rfl⟩ := h2
      exact ⟨ws, y, w', hb, hw, .one hq, hn'⟩

/-- The text of an element, and what the observer was told. -/
def IsElement (t : PyText) (ob : Observer σ) (x : PyStr) (s s' : σ) : Prop :=
  ∃ d, JsonText t (.element d) x ∧ ob.tellAll d.events s = (.ok (), s')

/-- The text of a member, and what the observer was told. -/
def IsMember (t : PyText) (ob : Observer σ) (x : PyStr) (s s' : σ) : Prop :=
  ∃ k z ws ws' d y, ValueText t (.str k) z ∧ Blank ws ∧ Blank ws' ∧ JsonText t (.element d) y ∧ x = z ++ ws ++ 58 :: (ws' ++ y) ∧
    ob.tellAll (.key k :: d.events) s = (.ok (), s')

theorem tellAll_trans {ob : Observer σ} {a b : List JsonEvent} {s s₁ s' : σ} (h1 : ob.tellAll a s = (.ok (), s₁))
    (h2 : ob.tellAll b s₁ = (.ok (), s')) : ob.tellAll (a ++ b) s = (.ok (), s') := by
  rw [Observer.tellAll_append, M.bind_ok h1]; exact h2

theorem many_elements {ob : Observer σ} {x : PyStr} {s s' : σ} (h : Many (IsElement t ob) x s s') :
    ∃ ds, JsonText t (.elements ds) x ∧ ob.tellAll (Doc.elementEvents ds) s = (.ok (), s') := by
  induction h with
  | one h =>
    obtain ⟨d, h1, h2⟩ := h
    exact ⟨[d], .lastElement h1, by simpa [Doc.elementEvents] using h2⟩
  | more h hb hb' _ ih =>
    obtain ⟨d, h1, h2⟩ := h
    obtain ⟨ds, h3, h4⟩ := ih
    exact ⟨d :: ds, .moreElements h1 hb hb' h3, by rw [Doc.elementEvents]; exact tellAll_trans h2 h4⟩

theorem many_members {ob : Observer σ} {x : PyStr} {s s' : σ} (h : Many (IsMember t ob) x s s') :
    ∃ ms, JsonText t (.members ms) x ∧ ob.tellAll (Doc.memberEvents ms) s = (.ok (), s') := by
  induction h with
  | one h =>
    obtain ⟨k, z, ws, ws', d, y, h1, h2, h3, h4, rfl, h5⟩ := h
    exact ⟨[(k, d)], .lastMember h1 h2 h3 h4, by simpa [Doc.memberEvents] using h5⟩
  | more h hb hb' _ ih =>
    obtain ⟨k, z, ws, ws', d, y, h1, h2, h3, h4, rfl, h5⟩ := h
    obtain ⟨ms, h6, h7⟩ := ih
    refine ⟨(k, d) :: ms, ?_, by rw [Doc.memberEvents]; exact tellAll_trans h5 h7⟩
    have := JsonText.moreMembers h1 h2 h3 h4 hb hb' h6
    simpa using this

theorem member_sound (ht : t.Lawful) {ob : Observer σ} {element : M (Tokenizer × σ) Unit} (he : Sound t single element (IsElement t ob)) :
    Sound t single (Parser.parseMember t ob element) (IsMember t ob) := by
  intro w tk s tk' s' u hn h
  unfold Parser.parseMember at h
  obtain ⟨_, st, h1, h2⟩ := M.bind_inv h
  obtain ⟨hv, rfl⟩ := checkToken_inv h1
  rw [M.bind_ok (show Parser.value (tk, s) = (.ok tk.value, (tk, s)) from rfl)] at h2
  obtain ⟨ws, z, hb, hw, hz⟩ := hn.value hv
  have hne : tk.token ≠ .endOfFile := by rw [hv]; decide
  cases hval : tk.value with
  | str k =>
    rw [hval] at h2 hz
    simp only at h2
    obtain ⟨_, ⟨tk1, s1⟩, h3, h4⟩ := M.bind_inv h2
    obtain ⟨rfl, h5⟩ := observe_inv h3
    obtain ⟨_, ⟨tk2, s2⟩, h6, h7⟩ := M.bind_inv h4
    obtain ⟨rfl, _, hn2⟩ := hn.next ht hne h6
    obtain ⟨_, ⟨tk3, s3⟩, h8, h9⟩ := M.bind_inv h7
    obtain ⟨ws1, c, w1, hb1, hc, hw1, hn3, rfl⟩ := consume_inv ht hn2 (by decide) (by decide) h8
    obtain rfl : c = 58 := punctuation_char hc
    obtain ⟨ws2, y, w2, hb2, hw2, ⟨d, hd, htold⟩, hn4⟩ := he _ _ _ _ _ _ hn3 h9
    refine ⟨ws, z ++ ws1 ++ 58 :: (ws2 ++ y), w2, hb, ?_, ⟨k, z, ws1, ws2, d, y, hz, hb1, hb2, hd, rfl, ?_⟩, hn4⟩
    · rw [hw, hw1, hw2]; simp
    · rw [Observer.tellAll, M.bind_ok (show ob.tell (.key k) s = (.ok (), _) from h5)]
      exact htold
  | none | unset | int | bool | float | bytes | bitBuffer | arr | obj =>
    rw [hval] at h2
    simp [M.throw] at h2

theorem tellAll_bracket {ob : Observer σ} {b e : JsonEvent} {es : List JsonEvent} {s s₁ s₂ s' : σ} (h1 : ob.tell b s = (.ok (), s₁))
    (h2 : ob.tellAll es s₁ = (.ok (), s₂)) (h3 : ob.tell e s₂ = (.ok (), s')) :
    ob.tellAll (b :: (es ++ [e])) s = (.ok (), s') := by
  rw [Observer.tellAll, M.bind_ok h1]
  refine tellAll_trans h2 ?_
  rw [Observer.tellAll, M.bind_ok h3]; rfl

theorem element_sound (ht : t.Lawful) (ob : Observer σ) : ∀ n, Sound t single (Parser.parseElement t ob n) (IsElement t ob) := by
  intro n
  induction n with
  | zero =>
    intro w tk s tk' s' u hn h
    simp [Parser.parseElement, M.throw] at h
  | succ n ih =>
    intro w tk s tk' s' u hn h
    rw [Parser.parseElement, M.bind_ok (show Parser.token (tk, s) = (.ok tk.token, (tk, s)) from rfl)] at h
    cases htok : tk.token with
    | beginArray =>
      rw [htok] at h
      simp only at h
      unfold Parser.parseArray at h
      have hne : tk.token ≠ .endOfFile := by rw [htok]; decide
      obtain ⟨ws, c, hb, hc, hw⟩ := hn.punct hne (by rw [htok]; decide)
      rw [htok] at hc
      obtain rfl : c = 91 := punctuation_char hc
      obtain ⟨_, ⟨tk1, s1⟩, h1, h2⟩ := M.bind_inv h
      obtain ⟨rfl, htold1⟩ := observe_inv h1
      obtain ⟨tok, ⟨tk2, s2⟩, h3, h4⟩ := M.bind_inv h2
      obtain ⟨rfl, rfl, hn2⟩ := hn.next ht hne h3
      have close : ∀ {tk3 : Tokenizer} {s3 : σ} {w3 : PyStr}, Next t single w3 tk3 →
          (do Parser.consumeToken t .endArray; Parser.observe ob.endArray : M (Tokenizer × σ) Unit) (tk3, s3) = (.ok u, (tk', s')) →
          ∃ ws3 w', Blank ws3 ∧ w3 = ws3 ++ 93 :: w' ∧ Next t single w' tk' ∧ ob.tell .endArray s3 = (.ok (), s') := by
        intro tk3 s3 w3 hn3 h5
        obtain ⟨_, ⟨tk4, s4⟩, h6, h7⟩ := M.bind_inv h5
        obtain ⟨ws3, c, w', hb3, hc, hw3, hn4, rfl⟩ := consume_inv ht hn3 (by decide) (by decide) h6
        obtain rfl : c = 93 := punctuation_char hc
        obtain ⟨rfl, htold2⟩ := observe_inv h7
        exact ⟨ws3, w', hb3, hw3, hn4, htold2⟩
      by_cases hel : tk2.token ∈ Parser.elementTokens
      · rw [if_pos hel] at h4
        obtain ⟨_, ⟨tk3, s3⟩, h5, h6⟩ := M.bind_inv h4
        obtain ⟨ws2, y, w2, hb2, hw2, hmany, hn3⟩ := items_sound ht ih n _ _ _ _ _ _ hn2 h5
        obtain ⟨ws3, w', hb3, hw3, hn4, htold2⟩ := close hn3 h6
        obtain ⟨ds, hds, htold⟩ := many_elements hmany
        refine ⟨ws, 91 :: (ws2 ++ y ++ ws3 ++ [93]), w', hb, ?_, ⟨.array ds, .array hb2 hds hb3, ?_⟩, hn4⟩
        · rw [hw, hw2, hw3]; simp
        · rw [Doc.events]
          exact tellAll_bracket htold1 htold htold2
      · rw [if_neg hel] at h4
        obtain ⟨ws3, w', hb3, hw3, hn4, htold2⟩ := close hn2 h4
        refine ⟨ws, 91 :: (ws3 ++ [93]), w', hb, ?_, ⟨.array [], .emptyArray hb3, ?_⟩, hn4⟩
        · rw [hw, hw3]; simp
        · rw [Doc.events]
          exact tellAll_bracket htold1 (by rw [Doc.elementEvents, Observer.tellAll]; rfl) htold2
    | beginObject =>
      rw [htok] at h
      simp only at h
      unfold Parser.parseObject at h
      have hne : tk.token ≠ .endOfFile := by rw [htok]; decide
      obtain ⟨ws, c, hb, hc, hw⟩ := hn.punct hne (by rw [htok]; decide)
      rw [htok] at hc
      obtain rfl : c = 123 := punctuation_char hc
      obtain ⟨_, ⟨tk1, s1⟩, h1, h2⟩ := M.bind_inv h
      obtain ⟨rfl, htold1⟩ := observe_inv h1
      obtain ⟨tok, ⟨tk2, s2⟩, h3, h4⟩ := M.bind_inv h2
      obtain ⟨rfl, rfl, hn2⟩ := hn.next ht hne h3
      have close : ∀ {tk3 : Tokenizer} {s3 : σ} {w3 : PyStr}, Next t single w3 tk3 →
          (do Parser.consumeToken t .endObject; Parser.observe ob.endObject : M (Tokenizer × σ) Unit) (tk3, s3) = (.ok u, (tk', s')) →
          ∃ ws3 w', Blank ws3 ∧ w3 = ws3 ++ 125 :: w' ∧ Next t single w' tk' ∧ ob.tell .endObject s3 = (.ok (), s') := by
        intro tk3 s3 w3 hn3 h5
        obtain ⟨_, ⟨tk4, s4⟩, h6, h7⟩ := M.bind_inv h5
        obtain ⟨ws3, c, w', hb3, hc, hw3, hn4, rfl⟩ := consume_inv ht hn3 (by decide) (by decide) h6
        obtain rfl : c = 125 := punctuation_char hc
        obtain ⟨rfl, htold2⟩ := observe_inv h7
        exact ⟨ws3, w', hb3, hw3, hn4, htold2⟩
      by_cases hel : tk2.token = .value
      · rw [if_pos hel] at h4
        obtain ⟨_, ⟨tk3, s3⟩, h5, h6⟩ := M.bind_inv h4
        obtain ⟨ws2, y, w2, hb2, hw2, hmany, hn3⟩ := items_sound ht (member_sound ht ih) n _ _ _ _ _ _ hn2 h5
        obtain ⟨ws3, w', hb3, hw3, hn4, htold2⟩ := close hn3 h6
        obtain ⟨ms, hms, htold⟩ := many_members hmany
        refine ⟨ws, 123 :: (ws2 ++ y ++ ws3 ++ [125]), w', hb, ?_, ⟨.object ms, .object hb2 hms hb3, ?_⟩, hn4⟩
        · rw [hw, hw2, hw3]; simp
        · rw [Doc.events]
          exact tellAll_bracket htold1 htold htold2
      · rw [if_neg hel] at h4
        obtain ⟨ws3, w', hb3, hw3, hn4, htold2⟩ := close hn2 h4
        refine ⟨ws, 123 :: (ws3 ++ [125]), w', hb, ?_, ⟨.object [], .emptyObject hb3, ?_⟩, hn4⟩
        · rw [hw, hw3]; simp
        · rw [Doc.events]
          exact tellAll_bracket htold1 (by rw [Doc.memberEvents, Observer.tellAll]; rfl) htold2
    | value =>
      rw [htok] at h
      simp only at h
      unfold Parser.parseValue at h
      have hne : tk.token ≠ .endOfFile := by rw [htok]; decide
      obtain ⟨ws, z, hb, hw, hz⟩ := hn.value htok
      rw [M.bind_ok (show Parser.value (tk, s) = (.ok tk.value, (tk, s)) from rfl)] at h
      obtain ⟨_, ⟨tk1, s1⟩, h1, h2⟩ := M.bind_inv h
      obtain ⟨rfl, htold⟩ := observe_inv h1
      obtain ⟨tok, ⟨tk2, s2⟩, h3, h4⟩ := M.bind_inv h2
      obtain ⟨rfl, rfl, hn2⟩ := hn.next ht hne h3
      simp only [M.pure_apply, Prod.mk.injEq] at h4
      obtain ⟨_, rfl, rfl⟩ := h4
      exact ⟨ws, z, _, hb, hw, ⟨.value tk1.value, .value hz, by rw [Doc.events, Observer.tellAll_one]; exact htold⟩, hn2⟩
    | beginOfFile | endOfFile | endObject | endArray | keySeparator | itemSeparator =>
      rw [htok] at h
      simp [M.throw] at h

end Zserio.Json
