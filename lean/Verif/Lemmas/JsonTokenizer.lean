import Verif.Spec.JsonTokenizer
import Verif.Lemmas.JsonPrefix
/-
The tokenizer as a function of the remaining text.
-/
set_option linter.unusedSimpArgs false
namespace Zserio.Json
namespace Tokenizer

/-! ### White space -/

theorem skipLoop_append : ∀ (k : Nat) (a b : PyStr), a.length ≤ k → ∀ (line col : Nat),
    ((skipLoop a line col).1 = true →
      skipLoop (a ++ b) line col = (true, (skipLoop a line col).2.1 ++ b, (skipLoop a line col).2.2.1, (skipLoop a line col).2.2.2)) ∧
    ((skipLoop a line col).1 = false →
      skipLoop (a ++ b) line col = skipLoop ((skipLoop a line col).2.1 ++ b) (skipLoop a line col).2.2.1 (skipLoop a line col).2.2.2) := by
  intro k
  induction k with
  | zero =>
    intro a b h line col
    obtain rfl : a = [] := List.length_eq_zero_iff.1 (by omega)
    simp [skipLoop]
  | succ k ih =>
    intro a b h line col
    match a with
    | [] => simp [skipLoop]
    | c :: a =>
      simp only [List.length_cons] at h
      rw [List.cons_append, skipLoop.eq_def (c :: a)]
      conv => enter [1, 2, 1]; rw [skipLoop.eq_def]
      conv => enter [2, 2, 1]; rw [skipLoop.eq_def]
      simp only
      split
      · exact ih a b (by omega) _ _
      split
      · exact ih a b (by omega) _ _
      split
      · match a with
        | [] =>
          rename_i hc
          subst hc
          simp only [List.nil_append, Bool.false_eq_true, false_implies, true_and, forall_const, List.cons_append]
          conv_rhs => rw [skipLoop.eq_def]
          simp
        | d :: a =>
          simp only [List.cons_append]
          split
          · exact ih a b (by simp at h; omega) _ _
          · rw [← List.cons_append]
            exact ih (d :: a) b (by simp at h ⊢; omega) _ _
      · simp

theorem skipLoop_found : ∀ (k : Nat) (a : PyStr), a.length ≤ k → ∀ (line col : Nat), (skipLoop a line col).1 = true →
    ∃ x r, (skipLoop a line col).2.1 = x :: r ∧ ∀ l c, skipLoop (x :: r) l c = (true, x :: r, l, c) := by
  intro k
  induction k with
  | zero =>
    intro a h line col hf
    obtain rfl : a = [] := List.length_eq_zero_iff.1 (by omega)
    simp [skipLoop] at hf
  | succ k ih =>
    intro a h line col hf
    match a with
    | [] => simp [skipLoop] at hf
    | c :: a =>
      simp only [List.length_cons] at h
      rw [skipLoop.eq_def] at hf ⊢
      simp only at hf ⊢
      split
      · rename_i h1; simp only [if_pos h1] at hf; exact ih a (by omega) _ _ hf
      rename_i h1; simp only [if_neg h1] at hf
      split
      · rename_i h2; simp only [if_pos h2] at hf; exact ih a (by omega) _ _ hf
      rename_i h2; simp only [if_neg h2] at hf
      split
      · rename_i h3; simp only [if_pos h3] at hf
        match a with
        | [] => simp at hf
        | d :: a =>
          simp only at hf ⊢
          split
          · rename_i h4; simp only [if_pos h4] at hf; exact ih a (by simp at h; omega) _ _ hf
          · rename_i h4; simp only [if_neg h4] at hf; exact ih (d :: a) (by simp at h ⊢; omega) _ _ hf
      · rename_i h3
        refine ⟨c, a, rfl, ?_⟩
        intro l c'
        rw [skipLoop.eq_def]
        simp [h1, h2, h3]

theorem skipLoop_not_found : ∀ (k : Nat) (a : PyStr), a.length ≤ k → ∀ (line col : Nat), (skipLoop a line col).1 = false →
    ∀ l c, skipLoop (skipLoop a line col).2.1 l c = (false, (skipLoop a line col).2.1, l, c) := by
  intro k
  induction k with
  | zero =>
    intro a h line col hf
    obtain rfl : a = [] := List.length_eq_zero_iff.1 (by omega)
    simp [skipLoop]
  | succ k ih =>
    intro a h line col hf
    match a with
    | [] => simp [skipLoop]
    | c :: a =>
      simp only [List.length_cons] at h
      rw [skipLoop.eq_def] at hf
      conv => enter [l, c', 1]; rw [skipLoop.eq_def (c :: a)]
      conv => enter [l, c', 2]; rw [skipLoop.eq_def (c :: a)]
      simp only at hf ⊢
      split
      · rename_i h1; simp only [if_pos h1] at hf; exact ih a (by omega) _ _ hf
      rename_i h1; simp only [if_neg h1] at hf
      split
      · rename_i h2; simp only [if_pos h2] at hf; exact ih a (by omega) _ _ hf
      rename_i h2; simp only [if_neg h2] at hf
      split
      · rename_i h3; simp only [if_pos h3] at hf
        match a with
        | [] => subst h3; intro l c'; rw [skipLoop.eq_def]; simp
        | d :: a =>
          simp only at hf ⊢
          split
          · rename_i h4; simp only [if_pos h4] at hf; exact ih a (by simp at h; omega) _ _ hf
          · rename_i h4; simp only [if_neg h4] at hf; exact ih (d :: a) (by simp at h ⊢; omega) _ _ hf
      · rename_i h3; simp only [if_neg h3] at hf; simp at hf

/-! ### One token as a function of the remaining text -/

/-- What a call of `next()` does: what is seen, and the remaining text with its position. -/
structure Outcome where
  seen : Seen
  rest : PyStr
  column : Nat

/-- The next token of a text. -/
def outcome (t : PyText) (w : PyStr) (line col : Nat) : Outcome :=
  match skipLoop w line col with
  | (false, r, l, c) => ⟨⟨.ok (.endOfFile, .none), l, c⟩, r, c⟩
  | (true, r, l, c) =>
    match r with
    | [] => ⟨⟨.error .index, l, c⟩, r, c⟩
    | x :: r' =>
      match punctuation x with
      | some tok => ⟨⟨.ok (tok, .str [x]), l, c⟩, r', c + 1⟩
      | none =>
        match (decodeValue t (x :: r')).value with
        | some v => ⟨⟨.ok (.value, v), l, c⟩, (x :: r').drop (decodeValue t (x :: r')).numRead,
            c + (decodeValue t (x :: r')).numRead⟩
        | none => ⟨⟨.error .json, l, c⟩, x :: r', c⟩

/-- The state after a call agrees with the outcome. -/
structure After (r : Except Err Token × Tokenizer) (o : Outcome) : Prop where
  result : r.1.map (fun token => (token, r.2.value)) = o.seen.result
  line : r.2.line = o.seen.line
  tokenColumn : r.2.tokenColumn = o.seen.column
  column : r.2.column = o.column
  rest : r.2.rest ++ r.2.chunks.flatten = o.rest
  nonempty : ∀ c ∈ r.2.chunks, c ≠ []
  token : ∀ tok, r.1 = .ok tok → r.2.token = tok

theorem skipLoop_indep : ∀ (k : Nat) (a : PyStr), a.length ≤ k → ∀ (line col line' col' : Nat),
    (skipLoop a line col).1 = (skipLoop a line' col').1 ∧ (skipLoop a line col).2.1 = (skipLoop a line' col').2.1 := by
  intro k
  induction k with
  | zero =>
    intro a h line col line' col'
    obtain rfl : a = [] := List.length_eq_zero_iff.1 (by omega)
    simp [skipLoop]
  | succ k ih =>
    intro a h line col line' col'
    match a with
    | [] => simp [skipLoop]
    | c :: a =>
      simp only [List.length_cons] at h
      rw [skipLoop.eq_def _ line, skipLoop.eq_def _ line']
      simp only
      split
      · exact ih a (by omega) _ _ _ _
      split
      · exact ih a (by omega) _ _ _ _
      split
      · match a with
        | [] => simp
        | d :: a =>
          simp only
          split
          · exact ih a (by simp at h; omega) _ _ _ _
          · exact ih (d :: a) (by simp at h ⊢; omega) _ _ _ _
      · simp

theorem atEnd_iff {t : PyText} {w : PyStr} {line col : Nat} {x : Nat} {r : PyStr} {l c : Nat}
    (h : skipLoop w line col = (true, x :: r, l, c)) :
    AtEnd t w ↔ punctuation x = none ∧ (x :: r).length ≤ (decodeValue t (x :: r)).numRead := by
  have hi := skipLoop_indep _ w (Nat.le_refl _) line col 1 1
  rw [h] at hi
  simp only at hi
  constructor
  · rintro ⟨x', r', h1, h2, hp, hl⟩
    rw [h2] at hi
    simp only [List.cons.injEq] at hi
    obtain ⟨_, rfl, rfl⟩ := hi
    exact ⟨hp, hl⟩
  · rintro ⟨hp, hl⟩
    exact ⟨x, r, hi.1.symm, hi.2.symm, hp, hl⟩

theorem atEnd_congr {t : PyText} {w w' : PyStr} {line col line' col' : Nat} (h : skipLoop w line col = skipLoop w' line' col') :
    AtEnd t w ↔ AtEnd t w' := by
  have h1 := skipLoop_indep _ w (Nat.le_refl _) line col 1 1
  have h2 := skipLoop_indep _ w' (Nat.le_refl _) line' col' 1 1
  unfold AtEnd
  rw [← h1.1, ← h1.2, ← h2.1, ← h2.2, h]

theorem not_atEnd_of_not_found {t : PyText} {w : PyStr} {line col : Nat} (h : (skipLoop w line col).1 = false) : ¬ AtEnd t w := by
  rintro ⟨x', r', h', _, _, _⟩
  have hi := skipLoop_indep _ w (Nat.le_refl _) line col 1 1
  rw [h, h'] at hi
  simp at hi

/-- The loop of `next`, except when the token is a value at the end of the text. -/
theorem nextLoop_after (t : PyText) : ∀ (chunks : List PyStr) (s : Tokenizer), (∀ c ∈ chunks, c ≠ []) →
    ¬ AtEnd t (s.rest ++ chunks.flatten) →
    After (nextLoop t chunks s) (outcome t (s.rest ++ chunks.flatten) s.line s.column) ∧
      (chunks = [] → ¬ AtEnd t (nextLoop t chunks s).2.rest ∨ (nextLoop t chunks s).2.token ≠ .endOfFile) := by
  intro chunks
  induction chunks with
  | nil =>
    intro s _ hne
    simp only [List.flatten_nil, List.append_nil] at hne ⊢
    rw [nextLoop]
    rcases hs : skipLoop s.rest s.line s.column with ⟨f, r, l, c⟩
    cases f with
    | false =>
      have hd : s.decodeNext t = (.ok false, { s with rest := r, line := l, column := c, token := .endOfFile, value := .none }) := by
        simp [decodeNext, skipWhitespaces, hs, setToken]
      rw [hd]
      simp only [finish, if_true]
      refine ⟨?_, fun _ => .inl ?_⟩
      rotate_left
      · have := skipLoop_not_found _ s.rest (Nat.le_refl _) s.line s.column (by rw [hs]) 1 1
        rw [hs] at this
        exact not_atEnd_of_not_found (line := 1) (col := 1) (by simp only at this ⊢; rw [this])
      unfold outcome
      rw [hs]
      exact ⟨rfl, rfl, rfl, rfl, by simp, by simp, by simp⟩
    | true =>
      obtain ⟨x, r', hr, hagain⟩ := skipLoop_found _ s.rest (Nat.le_refl _) s.line s.column (by rw [hs])
      rw [hs] at hr
      simp only at hr
      subst hr
      rw [atEnd_iff hs] at hne
      rcases hp : punctuation x with _ | tok
      · have hlt : (decodeValue t (x :: r')).numRead < (x :: r').length := by
          apply Nat.lt_of_not_le; intro h; exact hne ⟨hp, h⟩
        rcases hv : (decodeValue t (x :: r')).value with _ | v
        · have hd : s.decodeNext t = (.error .json, { s with rest := x :: r', line := l, column := c, tokenColumn := c, decoderResult := decodeValue t (x :: r') }) := by
            simp only [decodeNext, skipWhitespaces, hs]
            simp [hp, setTokenValue, hv]
            simp at hlt; omega
          rw [hd]
          refine ⟨?_, fun _ => .inl ?_⟩
          rotate_left
          · rw [atEnd_iff (hagain 1 1)]; exact hne
          unfold outcome
          rw [hs]
          simp only [hp, hv]
          exact ⟨rfl, rfl, rfl, rfl, by simp, by simp, by simp⟩
        · have hd : s.decodeNext t = (.ok true, { s with rest := (x :: r').drop (decodeValue t (x :: r')).numRead, line := l, column := c + (decodeValue t (x :: r')).numRead, tokenColumn := c, token := .value, value := v, decoderResult := decodeValue t (x :: r') }) := by
            simp only [decodeNext, skipWhitespaces, hs]
            simp [hp, setTokenValue, hv, setToken, setPosition]
            simp at hlt; omega
          rw [hd]
          refine ⟨?_, fun _ => .inr (by simp)⟩
          unfold outcome
          rw [hs]
          simp only [hp, hv]
          exact ⟨rfl, rfl, rfl, rfl, by simp, by simp, by simp⟩
      · have hd : s.decodeNext t = (.ok true, { s with rest := r', line := l, column := c + 1, tokenColumn := c, token := tok, value := .str [x] }) := by
          simp only [decodeNext, skipWhitespaces, hs]
          simp [hp, setToken, setPosition]
        rw [hd]
        refine ⟨?_, ?_⟩
        · unfold outcome
          rw [hs]
          simp only [hp]
          exact ⟨rfl, rfl, rfl, rfl, by simp, by simp, by simp⟩
        · intro _
          right
          intro h
          simp only at h
          subst h
          unfold punctuation at hp
          repeat' split at hp
          all_goals simp at hp
  | cons ch cs ih =>
    intro s hc hne
    have hch : ch ≠ [] := hc ch (by simp)
    have hcs : ∀ c ∈ cs, c ≠ [] := fun c h => hc c (by simp [h])
    refine ⟨?_, fun h => by simp at h⟩
    rw [nextLoop]
    rcases hs : skipLoop s.rest s.line s.column with ⟨f, r, l, c⟩
    obtain ⟨ha1, ha2⟩ := skipLoop_append _ s.rest ((ch :: cs).flatten) (Nat.le_refl _) s.line s.column
    rw [hs] at ha1 ha2
    simp only at ha1 ha2
    cases f with
    | false =>
      have hd : s.decodeNext t = (.ok false, { s with rest := r, line := l, column := c, token := .endOfFile, value := .none }) := by
        simp [decodeNext, skipWhitespaces, hs, setToken]
      rw [hd]
      simp only [if_neg hch]
      have ha := ha2 rfl
      have h1 := (ih { s with rest := r ++ ch, line := l, column := c, token := .endOfFile, value := .none } hcs (by
        intro h
        apply hne
        rw [atEnd_congr ha, List.flatten_cons, ← List.append_assoc]
        exact h)).1
      have h2 : outcome t (s.rest ++ (ch :: cs).flatten) s.line s.column = outcome t (r ++ ch ++ cs.flatten) l c := by
        unfold outcome
        rw [ha, List.append_assoc, List.flatten_cons]
      rw [h2]
      exact h1
    | true =>
      obtain ⟨x, r', hr, _⟩ := skipLoop_found _ s.rest (Nat.le_refl _) s.line s.column (by rw [hs])
      rw [hs] at hr
      simp only at hr
      subst hr
      have ha := ha1 rfl
      rw [List.cons_append] at ha
      rw [atEnd_iff ha] at hne
      rcases hp : punctuation x with _ | tok
      · by_cases hlt : (decodeValue t (x :: r')).numRead < (x :: r').length
        · have hext := decodeValue_ext (t := t) (x :: r') ((ch :: cs).flatten) hlt
          rw [List.cons_append] at hext
          rcases hv : (decodeValue t (x :: r')).value with _ | v
          · have hd : s.decodeNext t = (.error .json, { s with rest := x :: r', line := l, column := c, tokenColumn := c, decoderResult := decodeValue t (x :: r') }) := by
              simp only [decodeNext, skipWhitespaces, hs]
              simp [hp, setTokenValue, hv]
              simp at hlt; omega
            rw [hd]
            unfold outcome
            rw [ha]
            simp only [hp, hext, hv]
            exact ⟨rfl, rfl, rfl, rfl, by simp, hc, by simp⟩
          · have hd : s.decodeNext t = (.ok true, { s with rest := (x :: r').drop (decodeValue t (x :: r')).numRead, line := l, column := c + (decodeValue t (x :: r')).numRead, tokenColumn := c, token := .value, value := v, decoderResult := decodeValue t (x :: r') }) := by
              simp only [decodeNext, skipWhitespaces, hs]
              simp [hp, setTokenValue, hv, setToken, setPosition]
              simp at hlt; omega
            rw [hd]
            unfold outcome
            rw [ha]
            simp only [hp, hext, hv]
            refine ⟨rfl, rfl, rfl, rfl, ?_, hc, by simp⟩
            simp only
            rw [← List.cons_append, List.drop_append_of_le_length (by omega)]
        · have hd : s.decodeNext t = (.ok false, { s with rest := x :: r', line := l, column := c, tokenColumn := c, decoderResult := decodeValue t (x :: r') }) := by
            simp only [decodeNext, skipWhitespaces, hs]
            simp [hp]
            intro h; simp at hlt; omega
          rw [hd]
          simp only [if_neg hch]
          obtain ⟨x', r'', hr', hs'⟩ := skipLoop_found _ s.rest (Nat.le_refl _) s.line s.column (by rw [hs])
          rw [hs] at hr'
          simp only [List.cons.injEq] at hr'
          obtain ⟨rfl, rfl⟩ := hr'
          have ha' := (skipLoop_append _ (x :: r') ((ch :: cs).flatten) (Nat.le_refl _) l c).1 (by rw [hs'])
          rw [hs'] at ha'
          simp only [List.cons_append] at ha'
          have h1 := (ih { s with rest := x :: r' ++ ch, line := l, column := c, tokenColumn := c, decoderResult := decodeValue t (x :: r') } hcs (by
            simp only [List.append_assoc, List.cons_append]
            rw [← List.flatten_cons, atEnd_iff ha']
            exact hne)).1
          have h2 : outcome t (s.rest ++ (ch :: cs).flatten) s.line s.column = outcome t (x :: r' ++ ch ++ cs.flatten) l c := by
            have h3 : x :: r' ++ ch ++ cs.flatten = x :: (r' ++ (ch :: cs).flatten) := by simp
            unfold outcome
            rw [ha, h3, ha']
          rw [h2]
          exact h1
      · have hd : s.decodeNext t = (.ok true, { s with rest := r', line := l, column := c + 1, tokenColumn := c, token := tok, value := .str [x] }) := by
          simp only [decodeNext, skipWhitespaces, hs]
          simp [hp, setToken, setPosition]
        rw [hd]
        unfold outcome
        rw [ha]
        simp only [hp]
        exact ⟨rfl, rfl, rfl, rfl, by simp, hc, by simp⟩

/-- A value at the end of the text, when the whole text has been read. -/
theorem nextLoop_atEnd (t : PyText) (s : Tokenizer) (h : AtEnd t s.rest) (hne : s.token ≠ .endOfFile) :
    After (nextLoop t [] s) (outcome t s.rest s.line s.column) ∧ (nextLoop t [] s).2.token ≠ .endOfFile := by
  rw [nextLoop]
  rcases hs : skipLoop s.rest s.line s.column with ⟨f, r, l, c⟩
  cases f with
  | false => exact absurd h (not_atEnd_of_not_found (by rw [hs]))
  | true =>
    obtain ⟨x, r', hr, hagain⟩ := skipLoop_found _ s.rest (Nat.le_refl _) s.line s.column (by rw [hs])
    rw [hs] at hr
    simp only at hr
    subst hr
    obtain ⟨hp, hl⟩ := (atEnd_iff hs).1 h
    have hd : s.decodeNext t = (.ok false, { s with rest := x :: r', line := l, column := c, tokenColumn := c, decoderResult := decodeValue t (x :: r') }) := by
      simp only [decodeNext, skipWhitespaces, hs]
      simp [hp]
      simp at hl; omega
    rw [hd]
    simp only [finish, if_neg hne]
    unfold outcome
    rw [hs]
    rcases hv : (decodeValue t (x :: r')).value with _ | v
    · simp only [setTokenValue, hp, hv]
      exact ⟨⟨rfl, rfl, rfl, rfl, by simp, by simp, by simp⟩, hne⟩
    · simp only [setTokenValue, hp, hv, setToken, setPosition]
      exact ⟨⟨rfl, rfl, rfl, rfl, by simp, by simp, by simp⟩, by simp⟩

/-- A value at the end of the text, read in chunks: either as if read at once, or the end of file is reported. -/
theorem nextLoop_atEnd_chunks (t : PyText) : ∀ (chunks : List PyStr) (s : Tokenizer), (∀ c ∈ chunks, c ≠ []) →
    AtEnd t (s.rest ++ chunks.flatten) →
    After (nextLoop t chunks s) (outcome t (s.rest ++ chunks.flatten) s.line s.column) ∨
      (nextLoop t chunks s).1 = .ok .endOfFile := by
  intro chunks
  induction chunks with
  | nil =>
    intro s _ h
    simp only [List.flatten_nil, List.append_nil] at h ⊢
    by_cases hne : s.token = .endOfFile
    · right
      rw [nextLoop]
      rcases hs : skipLoop s.rest s.line s.column with ⟨f, r, l, c⟩
      cases f with
      | false => exact absurd h (not_atEnd_of_not_found (by rw [hs]))
      | true =>
        obtain ⟨x, r', hr, hagain⟩ := skipLoop_found _ s.rest (Nat.le_refl _) s.line s.column (by rw [hs])
        rw [hs] at hr
        simp only at hr
        subst hr
        obtain ⟨hp, hl⟩ := (atEnd_iff hs).1 h
        have hd : s.decodeNext t = (.ok false, { s with rest := x :: r', line := l, column := c, tokenColumn := c, decoderResult := decodeValue t (x :: r') }) := by
          simp only [decodeNext, skipWhitespaces, hs]
          simp [hp]
          simp at hl; omega
        rw [hd]
        simp [finish, hne]
    · exact .inl (nextLoop_atEnd t s h hne).1
  | cons ch cs ih =>
    intro s hc h
    have hch : ch ≠ [] := hc ch (by simp)
    have hcs : ∀ c ∈ cs, c ≠ [] := fun c h => hc c (by simp [h])
    rw [nextLoop]
    rcases hs : skipLoop s.rest s.line s.column with ⟨f, r, l, c⟩
    obtain ⟨ha1, ha2⟩ := skipLoop_append _ s.rest ((ch :: cs).flatten) (Nat.le_refl _) s.line s.column
    rw [hs] at ha1 ha2
    simp only at ha1 ha2
    cases f with
    | false =>
      have hd : s.decodeNext t = (.ok false, { s with rest := r, line := l, column := c, token := .endOfFile, value := .none }) := by
        simp [decodeNext, skipWhitespaces, hs, setToken]
      rw [hd]
      simp only [if_neg hch]
      have ha := ha2 rfl
      have h3 : r ++ ch ++ cs.flatten = r ++ (ch :: cs).flatten := by simp
      have h1 := ih { s with rest := r ++ ch, line := l, column := c, token := .endOfFile, value := .none } hcs (by
        simp only
        rw [h3, ← atEnd_congr ha]
        exact h)
      have h2 : outcome t (s.rest ++ (ch :: cs).flatten) s.line s.column = outcome t (r ++ ch ++ cs.flatten) l c := by
        unfold outcome
        rw [ha, h3]
      rw [h2]
      exact h1
    | true =>
      obtain ⟨x, r', hr, hagain⟩ := skipLoop_found _ s.rest (Nat.le_refl _) s.line s.column (by rw [hs])
      rw [hs] at hr
      simp only at hr
      subst hr
      have ha := ha1 rfl
      rw [List.cons_append] at ha
      obtain ⟨hp, hl⟩ := (atEnd_iff ha).1 h
      have hlt : ¬ (decodeValue t (x :: r')).numRead < (x :: r').length := by
        intro hlt
        have hext := decodeValue_ext (t := t) (x :: r') ((ch :: cs).flatten) hlt
        rw [List.cons_append] at hext
        rw [hext] at hl
        simp at hl hlt
        omega
      have hd : s.decodeNext t = (.ok false, { s with rest := x :: r', line := l, column := c, tokenColumn := c, decoderResult := decodeValue t (x :: r') }) := by
        simp only [decodeNext, skipWhitespaces, hs]
        simp [hp]
        intro h; simp at hlt; omega
      rw [hd]
      simp only [if_neg hch]
      have ha' := (skipLoop_append _ (x :: r') ((ch :: cs).flatten) (Nat.le_refl _) l c).1 (by rw [hagain])
      rw [hagain] at ha'
      simp only [List.cons_append] at ha'
      have h3 : x :: r' ++ ch ++ cs.flatten = x :: (r' ++ (ch :: cs).flatten) := by simp
      have h1 := ih { s with rest := x :: r' ++ ch, line := l, column := c, tokenColumn := c, decoderResult := decodeValue t (x :: r') } hcs (by
        simp only
        rw [h3, atEnd_iff ha']
        exact ⟨hp, hl⟩)
      have h2 : outcome t (s.rest ++ (ch :: cs).flatten) s.line s.column = outcome t (x :: r' ++ ch ++ cs.flatten) l c := by
        unfold outcome
        rw [ha, h3, ha']
      rw [h2]
      exact h1

/-! ### Sequences of tokens -/

/-- The state of a tokenizer reading chunks and the state of one which has read the whole text. -/
structure Same (t : PyText) (s b : Tokenizer) : Prop where
  chunks : b.chunks = []
  rest : s.rest ++ s.chunks.flatten = b.rest
  line : s.line = b.line
  column : s.column = b.column
  nonempty : ∀ c ∈ s.chunks, c ≠ []
  eof : b.token = .endOfFile → ¬ AtEnd t b.rest

theorem After.seen {r : Except Err Token × Tokenizer} {o : Outcome} (h : After r o) :
    (⟨r.1.map fun token => (token, r.2.value), r.2.line, r.2.tokenColumn⟩ : Seen) = o.seen := by
  rw [h.result, h.line, h.tokenColumn]

theorem nextLoop_nil_chunks (t : PyText) (s : Tokenizer) : (nextLoop t [] s).2.chunks = [] := by
  rw [nextLoop]
  split
  · rfl
  · rfl
  · simp only [finish]
    split
    · rfl
    · unfold setTokenValue
      split
      · rename_i h
        split at h
        · simp at h
        · simp only [Prod.mk.injEq] at h; rw [← h.2]; rfl
      · rename_i h
        split at h
        · simp only [Prod.mk.injEq] at h; rw [← h.2]
        · simp at h

/-- The batch tokenizer produces the outcome of the text, and its invariant is kept. -/
theorem Same.batch {t : PyText} {b : Tokenizer} (hch : b.chunks = []) (he : b.token = .endOfFile → ¬ AtEnd t b.rest) :
    After (b.next t) (outcome t b.rest b.line b.column) ∧ (b.next t).2.chunks = [] ∧
      ((b.next t).2.token = .endOfFile → ¬ AtEnd t (b.next t).2.rest) := by
  unfold next
  rw [hch]
  by_cases h : AtEnd t b.rest
  · obtain ⟨h1, h2⟩ := nextLoop_atEnd t b h fun h' => he h' h
    exact ⟨h1, nextLoop_nil_chunks t b, fun h' => absurd h' h2⟩
  · have := nextLoop_after t [] b (by simp) (by simpa using h)
    simp only [List.flatten_nil, List.append_nil] at this
    refine ⟨this.1, nextLoop_nil_chunks t b, fun h' => ?_⟩
    rcases this.2 trivial with h | h
    · exact h
    · exact absurd h' h

theorem Same.next {t : PyText} {s b : Tokenizer} (h : Same t s b) (hne : ¬ AtEnd t b.rest) :
    (⟨(s.next t).1.map fun token => (token, (s.next t).2.value), (s.next t).2.line, (s.next t).2.tokenColumn⟩ : Seen) =
      ⟨(b.next t).1.map fun token => (token, (b.next t).2.value), (b.next t).2.line, (b.next t).2.tokenColumn⟩ ∧
    Same t (s.next t).2 (b.next t).2 := by
  obtain ⟨h1, h2, h3⟩ := Same.batch h.chunks h.eof
  have h4 := (nextLoop_after t s.chunks s h.nonempty (by rw [h.rest]; exact hne)).1
  rw [h.rest, h.line, h.column] at h4
  refine ⟨?_, ?_⟩
  · rw [h1.seen]; exact h4.seen
  · have hr := h1.rest
    rw [h2] at hr
    simp only [List.flatten_nil, List.append_nil] at hr
    refine ⟨h2, ?_, ?_, ?_, h4.nonempty, h3⟩
    · rw [hr]; exact h4.rest
    · rw [h1.line]; exact h4.line
    · rw [h1.column]; exact h4.column

theorem Same.see {t : PyText} : ∀ (n : Nat) {s b : Tokenizer}, Same t s b → NoValueAtEnd t n b → s.see t n = b.see t n
  | 0, _, _, _, _ => rfl
  | n + 1, s, b, h, hn => by
    obtain ⟨h1, h2⟩ := h.next hn.1
    simp only [Tokenizer.see]
    rw [h1, Same.see n h2 hn.2]

theorem same_new (t : PyText) {text : PyStr} {chunks : List PyStr} (h : Chunks text chunks) : Same t (new chunks) (new [text]) := by
  have hb : (new [text]).token = .endOfFile → ¬ AtEnd t (new [text]).rest := by
    simp only [new, ioRead]
    by_cases ht : text = []
    · subst ht
      intro _
      exact not_atEnd_of_not_found (line := 1) (col := 1) rfl
    · simp [ht]
  cases chunks with
  | nil =>
    have : text = [] := by rw [← h.flatten]; rfl
    subst this
    exact ⟨rfl, rfl, rfl, rfl, by simp [new, ioRead], hb⟩
  | cons c cs =>
    refine ⟨rfl, ?_, rfl, rfl, ?_, hb⟩
    · simp only [new, ioRead]; rw [← h.flatten]; rfl
    · simp only [new, ioRead]; intro x hx; exact h.nonempty x (by simp [hx])

/-! ### Progress -/

theorem skipLoop_length : ∀ (k : Nat) (a : PyStr), a.length ≤ k → ∀ (line col : Nat), (skipLoop a line col).2.1.length ≤ a.length := by
  intro k
  induction k with
  | zero =>
    intro a h line col
    obtain rfl : a = [] := List.length_eq_zero_iff.1 (by omega)
    simp [skipLoop]
  | succ k ih =>
    intro a h line col
    match a with
    | [] => simp [skipLoop]
    | c :: a =>
      simp only [List.length_cons] at h
      rw [skipLoop.eq_def]
      simp only [List.length_cons]
      split
      · exact Nat.le_trans (ih a (by omega) _ _) (by omega)
      split
      · exact Nat.le_trans (ih a (by omega) _ _) (by omega)
      split
      · match a with
        | [] => simp
        | d :: a =>
          simp only
          split
          · exact Nat.le_trans (ih a (by simp at h; omega) _ _) (by simp; omega)
          · exact Nat.le_trans (ih (d :: a) (by simp at h ⊢; omega) _ _) (by simp)
      · simp

theorem outcome_progress (t : PyText) (w : PyStr) (line col : Nat) :
    (∃ e, (outcome t w line col).seen.result = .error e) ∨ (outcome t w line col).seen.result = .ok (.endOfFile, .none) ∨
      (outcome t w line col).rest.length < w.length := by
  have hl := skipLoop_length _ w (Nat.le_refl _) line col
  unfold outcome
  rcases hs : skipLoop w line col with ⟨f, r, l, c⟩
  rw [hs] at hl
  simp only at hl
  cases f with
  | false => exact .inr (.inl rfl)
  | true =>
    match r with
    | [] => exact .inl ⟨_, rfl⟩
    | x :: r' =>
      simp only [List.length_cons] at hl
      simp only
      rcases punctuation x with _ | tok
      · have hb := decodeValue_bounds (t := t) (x :: r') (by simp)
        rcases (decodeValue t (x :: r')).value with _ | v
        · exact .inl ⟨_, rfl⟩
        · refine .inr (.inr ?_)
          simp only [List.length_drop, List.length_cons] at hb ⊢
          omega
      · refine .inr (.inr ?_)
        simp only; omega

theorem next_cases (t : PyText) (s : Tokenizer) (hne : ∀ c ∈ s.chunks, c ≠ []) :
    After (s.next t) (outcome t (s.rest ++ s.chunks.flatten) s.line s.column) ∨ (s.next t).1 = .ok .endOfFile := by
  by_cases h : AtEnd t (s.rest ++ s.chunks.flatten)
  · exact nextLoop_atEnd_chunks t s.chunks s hne h
  · exact .inl (nextLoop_after t s.chunks s hne h).1

theorem see_succ (t : PyText) (n : Nat) (s : Tokenizer) : s.see t (n + 1) =
    ⟨(s.next t).1.map fun token => (token, (s.next t).2.value), (s.next t).2.line, (s.next t).2.tokenColumn⟩ ::
      (s.next t).2.see t n := rfl

theorem see_terminates (t : PyText) : ∀ (k : Nat) (s : Tokenizer), (∀ c ∈ s.chunks, c ≠ []) →
    (s.rest ++ s.chunks.flatten).length ≤ k →
    ∃ x ∈ s.see t (k + 1), (∃ e, x.result = .error e) ∨ ∃ v, x.result = .ok (.endOfFile, v) := by
  intro k
  induction k with
  | zero =>
    intro s hne hl
    rw [see_succ]
    refine ⟨_, List.mem_cons_self, ?_⟩
    rcases next_cases t s hne with h | h
    · rw [h.seen]
      rcases outcome_progress t (s.rest ++ s.chunks.flatten) s.line s.column with h1 | h1 | h1
      · exact .inl h1
      · exact .inr ⟨_, h1⟩
      · omega
    · right
      exact ⟨(s.next t).2.value, by simp only [h]; rfl⟩
  | succ k ih =>
    intro s hne hl
    rw [see_succ]
    rcases next_cases t s hne with h | h
    · rcases outcome_progress t (s.rest ++ s.chunks.flatten) s.line s.column with h1 | h1 | h1
      · exact ⟨_, List.mem_cons_self, .inl (by rw [h.seen]; exact h1)⟩
      · exact ⟨_, List.mem_cons_self, .inr ⟨.none, by rw [h.seen]; exact h1⟩⟩
      · obtain ⟨x, hx, hx'⟩ := ih (s.next t).2 h.nonempty (by rw [h.rest]; omega)
        exact ⟨x, List.mem_cons_of_mem _ hx, hx'⟩
    · exact ⟨_, List.mem_cons_self, .inr ⟨(s.next t).2.value, by simp only [h]; rfl⟩⟩

/-! ### Reading the hypothesis off what is seen -/

theorem outcome_atEnd {t : PyText} {w : PyStr} (line col : Nat) (h : AtEnd t w) :
    (∃ e, (outcome t w line col).seen.result = .error e) ∨
      (∃ v, (outcome t w line col).seen.result = .ok (.value, v)) ∧ (outcome t w line col).rest = [] := by
  unfold outcome
  rcases hs : skipLoop w line col with ⟨f, r, l, c⟩
  cases f with
  | false => exact absurd h (not_atEnd_of_not_found (by rw [hs]))
  | true =>
    obtain ⟨x, r', hr, hagain⟩ := skipLoop_found _ w (Nat.le_refl _) line col (by rw [hs])
    rw [hs] at hr
    simp only at hr
    subst hr
    obtain ⟨hp, hl⟩ := (atEnd_iff hs).1 h
    simp only [hp]
    rcases (decodeValue t (x :: r')).value with _ | v
    · exact .inl ⟨_, rfl⟩
    · refine .inr ⟨⟨v, rfl⟩, ?_⟩
      exact List.drop_eq_nil_of_le hl

theorem noValueAtEnd_of_seen (t : PyText) : ∀ (n : Nat) (b : Tokenizer), b.chunks = [] →
    (b.token = .endOfFile → ¬ AtEnd t b.rest) →
    (∀ x ∈ b.see t (n + 1), ∀ e, x.result ≠ .error e) →
    ¬ [some .value, some .endOfFile] <:+: (b.see t (n + 1)).map Seen.kind → NoValueAtEnd t n b
  | 0, _, _, _, _, _ => trivial
  | n + 1, b, hch, he, herr, hlast => by
    obtain ⟨h1, h2, h3⟩ := Same.batch hch he
    have hsee : b.see t (n + 2) = (outcome t b.rest b.line b.column).seen :: (b.next t).2.see t (n + 1) := by
      rw [Tokenizer.see, ← h1.seen]
    rw [hsee] at herr hlast
    refine ⟨?_, noValueAtEnd_of_seen t n _ h2 h3 (fun x hx => herr x (List.mem_cons_of_mem _ hx)) (fun h => hlast ?_)⟩
    · intro hat
      rcases outcome_atEnd b.line b.column hat with ⟨e, he⟩ | ⟨⟨v, hv⟩, hr⟩
      · exact herr _ List.mem_cons_self e he
      · apply hlast
        have hr' : (b.next t).2.rest = [] := by
          have := h1.rest
          rw [h2, hr] at this
          simpa using this
        obtain ⟨g1, g2, g3⟩ := Same.batch h2 h3
        have ho : (outcome t (b.next t).2.rest (b.next t).2.line (b.next t).2.column).seen.result = .ok (.endOfFile, .none) := by
          rw [hr']; rfl
        have hsee' : (b.next t).2.see t (n + 1) = (outcome t (b.next t).2.rest (b.next t).2.line (b.next t).2.column).seen ::
            ((b.next t).2.next t).2.see t n := by
          rw [Tokenizer.see, ← g1.seen]
        rw [hsee']
        simp only [List.map_cons, Seen.kind, hv, ho]
        exact ⟨[], _, rfl⟩
    · obtain ⟨p, q, hpq⟩ := h
      exact ⟨_ :: p, q, by simp only [List.map_cons, List.cons_append]; rw [hpq]⟩

end Tokenizer
end Zserio.Json
