import Verif.Spec.JsonPositions
import Verif.Lemmas.JsonTokenizer
import Verif.Props.JsonDoc
import Verif.Model.JsonReader

/-!
C119: the positions which the JSON parser reports.
-/

set_option linter.unusedSimpArgs false

namespace Zserio.Json

/-! ### Positions -/

theorem universal_cons {c : Nat} {r : PyStr} (h : c ≠ 13) : universal (c :: r) = c :: universal r := by
  rw [universal.eq_def]; split <;> simp_all

theorem universal_cr {d : Nat} {r : PyStr} (h : d ≠ 10) : universal (13 :: d :: r) = 10 :: universal (d :: r) := by
  rw [universal.eq_def]; split <;> simp_all

theorem universal_append : ∀ (k : Nat) (a b : PyStr), a.length ≤ k → (a.getLast? ≠ some 13 ∨ b.head? ≠ some 10) →
    universal (a ++ b) = universal a ++ universal b := by
  intro k
  induction k with
  | zero =>
    intro a b h _
    obtain rfl : a = [] := List.length_eq_zero_iff.1 (by omega)
    simp [universal]
  | succ k ih =>
    intro a b h hab
    match a with
    | [] => simp [universal]
    | [c] =>
      by_cases hc : c = 13
      · subst hc
        have hb : b.head? ≠ some 10 := by simpa using hab
        match b with
        | [] => simp [universal]
        | d :: b => rw [List.singleton_append, universal_cr (by simpa using hb)]; simp [universal]
      · rw [List.singleton_append, universal_cons hc, universal_cons hc]; simp [universal]
    | c :: d :: a =>
      simp only [List.length_cons] at h
      simp only [List.getLast?_cons_cons] at hab
      by_cases hc : c = 13
      · subst hc
        by_cases hd : d = 10
        · subst hd
          simp only [List.cons_append, universal]
          rw [ih a b (by omega) ?_]
          rcases hab with hab | hab
          · left
            cases a with
            | nil => simp
            | cons e a => rwa [List.getLast?_cons_cons] at hab
          · exact .inr hab
        · rw [List.cons_append, List.cons_append, universal_cr hd, universal_cr hd, ← List.cons_append, ih (d :: a) b (by simp; omega) hab]; rfl
      · rw [List.cons_append, universal_cons hc, universal_cons hc, ih (d :: a) b (by simp; omega) hab]; rfl

theorem universal_plain {w : PyStr} (h10 : (10 : Nat) ∉ w) (h13 : (13 : Nat) ∉ w) : universal w = w := by
  induction w with
  | nil => rfl
  | cons c w ih =>
    simp only [List.mem_cons, not_or] at h10 h13
    rw [universal_cons (Ne.symm h13.1), ih h10.2 h13.2]

theorem position_plain {a w : PyStr} (h10 : (10 : Nat) ∉ w) (h13 : (13 : Nat) ∉ w) :
    position (a ++ w) = ((position a).1, (position a).2 + w.length) := by
  have hh : w.head? ≠ some 10 := fun h => h10 (List.mem_of_mem_head? h)
  rw [position, universal_append _ a w (Nat.le_refl _) (.inr hh), universal_plain h10 h13]
  simp only [position, List.count_append, List.reverse_append, Prod.mk.injEq]
  refine ⟨by rw [List.count_eq_zero_of_not_mem h10]; rfl, ?_⟩
  rw [List.takeWhile_append_of_pos (by intro x hx; simp only [List.mem_reverse] at hx; simp only [ne_eq, decide_eq_true_eq]; intro e; subst e; exact h10 hx)]
  simp; omega

theorem position_break {a w : PyStr} (hw : universal w = [10]) (ha : a.getLast? ≠ some 13 ∨ w.head? ≠ some 10) :
    position (a ++ w) = ((position a).1 + 1, 1) := by
  rw [position, universal_append _ a w (Nat.le_refl _) ha, hw]
  simp [position]; omega

namespace Tokenizer

/-- white space is skipped, and the position is right after it -/
theorem skipLoop_position : ∀ (k : Nat) (w before : PyStr), w.length ≤ k → (before.getLast? ≠ some 13 ∨ w.head? ≠ some 10) →
    ∀ (line col : Nat), (line, col) = position before → ∃ blanks, w = blanks ++ (skipLoop w line col).2.1 ∧ (∀ c ∈ blanks, IsBlank c) ∧
      ((skipLoop w line col).2.2.1, (skipLoop w line col).2.2.2) = position (before ++ blanks) ∧
      ((skipLoop w line col).1 = true → ∃ c r, (skipLoop w line col).2.1 = c :: r ∧ ¬ IsBlank c) ∧
      ((skipLoop w line col).1 = false → (skipLoop w line col).2.1 = [] ∨ (skipLoop w line col).2.1 = [13]) ∧
      ((skipLoop w line col).2.1 = [] → w.getLast? ≠ some 13) := by
  intro k
  induction k with
  | zero =>
    intro w before h _ line col hp
    obtain rfl : w = [] := List.length_eq_zero_iff.1 (by omega)
    exact ⟨[], by simp [skipLoop], by simp, by simpa [skipLoop] using hp, by simp [skipLoop], by simp [skipLoop], by simp⟩
  | succ k ih =>
    intro w before h hb line col hp
    match w with
    | [] => exact ⟨[], by simp [skipLoop], by simp, by simpa [skipLoop] using hp, by simp [skipLoop], by simp [skipLoop], by simp⟩
    | c :: w =>
      simp only [List.length_cons] at h
      have more : ∀ (pre w' : PyStr) (line' col' : Nat), c :: w = pre ++ w' → w'.length ≤ k → (∀ x ∈ pre, IsBlank x) →
          ((before ++ pre).getLast? ≠ some 13 ∨ w'.head? ≠ some 10) →
          (line', col') = position (before ++ pre) → skipLoop (c :: w) line col = skipLoop w' line' col' → (w' = [] → pre.getLast? ≠ some 13) →
          ∃ blanks, c :: w = blanks ++ (skipLoop (c :: w) line col).2.1 ∧ (∀ c ∈ blanks, IsBlank c) ∧
            ((skipLoop (c :: w) line col).2.2.1, (skipLoop (c :: w) line col).2.2.2) = position (before ++ blanks) ∧
            ((skipLoop (c :: w) line col).1 = true → ∃ x r, (skipLoop (c :: w) line col).2.1 = x :: r ∧ ¬ IsBlank x) ∧
            ((skipLoop (c :: w) line col).1 = false → (skipLoop (c :: w) line col).2.1 = [] ∨ (skipLoop (c :: w) line col).2.1 = [13]) ∧
            ((skipLoop (c :: w) line col).2.1 = [] → (c :: w).getLast? ≠ some 13) := by
        intro pre w' line' col' hcw hl hpre hb' hp' he hlast
        rw [he]
        obtain ⟨blanks, h1, h2, h3, h4, h5, h6⟩ := ih w' (before ++ pre) hl hb' line' col' hp'
        refine ⟨pre ++ blanks, by rw [List.append_assoc, ← h1, hcw], ?_, by rw [h3, List.append_assoc], h4, h5, ?_⟩
        swap
        · intro hnil
          rw [hcw]
          by_cases hw : w' = []
          · subst hw; simpa using hlast rfl
          · rw [List.getLast?_append_of_ne_nil _ hw]; exact h6 hnil
        intro x hx
        rcases List.mem_append.1 hx with hx | hx
        · exact hpre x hx
        · exact h2 x hx
      have hpos : (position before).1 = line ∧ (position before).2 = col := by rw [← hp]; exact ⟨rfl, rfl⟩
      by_cases h1 : c = ch! ' ' ∨ c = ch! '\t'
      · refine more [c] w line (col + 1) rfl (by omega) (by simp only [List.mem_singleton, forall_eq]; rcases h1 with h1 | h1; exact .inl h1; exact .inr (.inl h1))
          (.inl ?_) ?_ (by conv_lhs => rw [skipLoop.eq_def]
                           simp only [if_pos h1]) (by rcases h1 with rfl | rfl <;> simp)
        · rcases h1 with rfl | rfl <;> simp
        · rw [position_plain (by rcases h1 with rfl | rfl <;> decide) (by rcases h1 with rfl | rfl <;> decide), hpos.1, hpos.2]; rfl
      by_cases h2 : c = ch! '\n'
      · subst h2
        refine more [10] w (line + 1) 1 rfl (by omega) (by simp [IsBlank]) (.inl (by simp)) ?_
          (by conv_lhs => rw [skipLoop.eq_def]
              simp) (by simp)
        rw [position_break (by rfl) (by simpa using hb), hpos.1]
      by_cases h3 : c = ch! '\r'
      · subst h3
        match w with
        | [] =>
          refine ⟨[], by rw [skipLoop.eq_def]; simp, by simp, ?_, by rw [skipLoop.eq_def]; simp, by rw [skipLoop.eq_def]; simp, by rw [skipLoop.eq_def]; simp⟩
          rw [skipLoop.eq_def]; simpa using hp
        | d :: w =>
          by_cases h4 : d = ch! '\n'
          · subst h4
            refine more [13, 10] w (line + 1) 1 rfl (by simp at h; omega) (by simp [IsBlank]) (.inl (by simp)) ?_
              (by conv_lhs => rw [skipLoop.eq_def]
                  simp) (by simp)
            rw [position_break (by rfl) (.inr (by simp)), hpos.1]
          · refine more [13] (d :: w) (line + 1) 1 rfl (by simp at h ⊢; omega) (by simp [IsBlank]) (.inr (by simpa using h4)) ?_
              (by conv_lhs => rw [skipLoop.eq_def]
                  simp [h4]) (by simp)
            rw [position_break (by rfl) (.inr (by simp)), hpos.1]
      · refine ⟨[], by rw [skipLoop.eq_def]; simp [h1, h2, h3], by simp, ?_, ?_, ?_, by rw [skipLoop.eq_def]; simp [h1, h2, h3]⟩
        · rw [skipLoop.eq_def]; simpa [h1, h2, h3] using hp
        · intro _
          refine ⟨c, w, by rw [skipLoop.eq_def]; simp [h1, h2, h3], ?_⟩
          rintro (h | h | h | h)
          · exact h1 (.inl h)
          · exact h1 (.inr h)
          · exact h2 h
          · exact h3 h
        · rw [skipLoop.eq_def]; simp [h1, h2, h3]

theorem punctuation_marks {c : Nat} {tok : Token} : punctuation c = some tok ↔ (c, tok) ∈ marks := by
  simp only [punctuation, marks, List.mem_cons, Prod.mk.injEq, List.not_mem_nil, or_false]
  constructor
  · intro h
    split at h
    · rename_i e; cases h; exact .inl ⟨e, rfl⟩
    split at h
    · rename_i e; cases h; exact .inr (.inl ⟨e, rfl⟩)
    split at h
    · rename_i e; cases h; exact .inr (.inr (.inl ⟨e, rfl⟩))
    split at h
    · rename_i e; cases h; exact .inr (.inr (.inr (.inl ⟨e, rfl⟩)))
    split at h
    · rename_i e; cases h; exact .inr (.inr (.inr (.inr (.inl ⟨e, rfl⟩))))
    split at h
    · rename_i e; cases h; exact .inr (.inr (.inr (.inr (.inr ⟨e, rfl⟩))))
    · cases h
  · rintro (⟨rfl, rfl⟩ | ⟨rfl, rfl⟩ | ⟨rfl, rfl⟩ | ⟨rfl, rfl⟩ | ⟨rfl, rfl⟩ | ⟨rfl, rfl⟩) <;> rfl

theorem punctuation_none {c : Nat} : punctuation c = none ↔ c ∉ marks.map (·.1) := by
  constructor
  · intro h hm
    simp only [List.mem_map, Prod.exists, exists_and_right, exists_eq_right] at hm
    obtain ⟨tok, hm⟩ := hm
    rw [punctuation_marks.2 hm] at h; cases h
  · intro h
    cases hp : punctuation c with
    | none => rfl
    | some tok => exact absurd (List.mem_map.2 ⟨_, punctuation_marks.1 hp, rfl⟩) h

theorem mark_plain {c : Nat} {tok : Token} (h : (c, tok) ∈ marks) : c ≠ 10 ∧ c ≠ 13 := by
  have : ∀ x ∈ marks, x.1 ≠ 10 ∧ x.1 ≠ 13 := by decide
  exact this _ h

theorem reported (t : PyText) : ∀ (n : Nat) (s : Tokenizer) (before : PyStr), (∀ c ∈ s.chunks, c ≠ []) →
    (before.getLast? ≠ some 13 ∨ (s.rest ++ s.chunks.flatten).head? ≠ some 10) → (s.line, s.column) = position before →
    Reported t before (s.rest ++ s.chunks.flatten) (s.see t n) := by
  intro n
  induction n with
  | zero => intro s before _ _ _; exact .nil
  | succ n ih =>
    intro s before hne hb hp
    rw [see_succ]
    obtain ⟨blanks, h1, h2, h3, h4, h5, h6⟩ := skipLoop_position _ (s.rest ++ s.chunks.flatten) before (Nat.le_refl _) hb s.line s.column hp
    have hcases : After (s.next t) (outcome t (s.rest ++ s.chunks.flatten) s.line s.column) ∨
        ((s.next t).1 = .ok .endOfFile ∧ AtEnd t (s.rest ++ s.chunks.flatten)) := by
      by_cases h : AtEnd t (s.rest ++ s.chunks.flatten)
      · exact (nextLoop_atEnd_chunks t s.chunks s hne h).imp_right fun e => ⟨e, h⟩
      · exact .inl (nextLoop_after t s.chunks s hne h).1
    rcases hcases with ha | ⟨he, hat⟩
    · rw [ha.seen]
      have hrest := ha.rest
      have hline := ha.line
      have hcol := ha.column
      have hne' := ha.nonempty
      generalize s.rest ++ s.chunks.flatten = w at *
      rcases hs : skipLoop w s.line s.column with ⟨f, r, l, c⟩
      rw [hs] at h1 h3 h4 h5 h6
      simp only at h1 h3 h4 h5 h6
      unfold outcome at hrest hline hcol ⊢
      simp only [hs] at hrest hline hcol ⊢
      cases f with
      | false =>
        refine .eof rfl ?_ ?_
        · intro c hc
          rw [h1] at hc
          rcases List.mem_append.1 hc with hc | hc
          · exact h2 c hc
          · rcases h5 rfl with rfl | rfl
            · cases hc
            · simp at hc; subst hc; exact .inr (.inr (.inr rfl))
        simp only
        rw [h3]
        congr 1
        rcases h5 rfl with rfl | rfl
        · simp only [List.append_nil] at h1
          subst h1
          rw [withoutCr, if_neg (h6 rfl)]
        · subst h1; simp [withoutCr]
      | true =>
        obtain ⟨x, r', rfl, hx⟩ := h4 rfl
        simp only at hrest hline hcol ⊢
        cases hpu : punctuation x with
        | some tok =>
          have hm := punctuation_marks.1 hpu
          simp only [hpu] at hrest hline hcol ⊢
          have : w = blanks ++ [x] ++ r' := by rw [h1]; simp
          rw [this]
          refine .token h2 rfl (.mark hm) h3 fun hword => ?_
          have := ih (s.next t).2 (before ++ blanks ++ [x]) hne' (.inl (by simpa using (mark_plain hm).2)) ?_
          · rwa [hrest] at this
          · rw [hline, hcol, position_plain (by simpa using Ne.symm (mark_plain hm).1) (by simpa using Ne.symm (mark_plain hm).2), ← h3]; rfl
        | none =>
          have hbv : BeginsValue (x :: r') := ⟨x, r', rfl, hx, punctuation_none.1 hpu⟩
          simp only [hpu] at hrest hline hcol ⊢
          cases hv : (decodeValue t (x :: r')).value with
          | none =>
            simp only [hv] at hrest hline hcol ⊢
            rw [h1]
            exact .unknown h2 rfl hbv hv h3
          | some v =>
            simp only [hv] at hrest hline hcol ⊢
            have hbd := decodeValue_bounds (t := t) (x :: r') (by simp)
            have hsplit := List.take_append_drop (decodeValue t (x :: r')).numRead (x :: r')
            have hlen : ((x :: r').take (decodeValue t (x :: r')).numRead).length = (decodeValue t (x :: r')).numRead := by
              rw [List.length_take]; omega
            have hw : w = blanks ++ (x :: r').take (decodeValue t (x :: r')).numRead ++ (x :: r').drop (decodeValue t (x :: r')).numRead := by
              rw [List.append_assoc, hsplit, h1]
            rw [hw]
            have hwne : (x :: r').take (decodeValue t (x :: r')).numRead ≠ [] := by
              intro e; rw [e] at hlen; simp at hlen; omega
            refine .token h2 rfl (.value hwne (by rw [hsplit]; exact hbv) ?_) h3 fun hword => ?_
            · rw [hsplit, hlen, ← hv]
            · have := ih (s.next t).2 (before ++ blanks ++ (x :: r').take (decodeValue t (x :: r')).numRead) hne' (.inl ?_) ?_
              · rwa [hrest] at this
              · rw [List.getLast?_append_of_ne_nil _ hwne]
                exact fun e => hword.2 (List.mem_of_getLast? e)
              · rw [hline, hcol, position_plain hword.1 hword.2, ← h3, hlen]
    · obtain ⟨x, r, hf, hr, hpu, hlen⟩ := hat
      obtain ⟨i1, i2⟩ := skipLoop_indep _ _ (Nat.le_refl (s.rest ++ s.chunks.flatten).length) 1 1 s.line s.column
      rw [i1] at hf
      rw [i2] at hr
      obtain ⟨c, r', hr', hc⟩ := h4 hf
      rw [hr] at hr'
      obtain ⟨rfl, rfl⟩ := List.cons_eq_cons.1 hr'
      rw [hr] at h1
      rw [h1]
      have hbd := decodeValue_bounds (t := t) (x :: r) (by simp)
      exact .lost (by simp only [Seen.kind, he]; rfl) h2 ⟨x, r, rfl, hc, punctuation_none.1 hpu⟩ (by omega)

theorem next_token (t : PyText) : ∀ (chunks : List PyStr) (s : Tokenizer) (tok : Token), (nextLoop t chunks s).1 = .ok tok →
    (nextLoop t chunks s).2.token = tok := by
  have hfin : ∀ (s : Tokenizer) (tok : Token), (finish s).1 = .ok tok → (finish s).2.token = tok := by
    intro s tok h
    unfold finish at h ⊢
    split at h
    · rename_i e; simp only [e, if_true] at h ⊢; cases h; rfl
    · rename_i e
      simp only [e, if_false] at h ⊢
      rcases hs : s.setTokenValue with ⟨r, s'⟩
      rw [hs] at h
      cases r with
      | ok _ => simp only at h ⊢; cases h; rfl
      | error _ => simp only at h; cases h
  intro chunks
  induction chunks with
  | nil =>
    intro s tok h
    rw [nextLoop] at h ⊢
    rcases hd : s.decodeNext t with ⟨r, s'⟩
    rw [hd] at h
    match r, h with
    | .error e, h => simp only at h; cases h
    | .ok true, h => simp only at h ⊢; cases h; rfl
    | .ok false, h => simp only at h ⊢; exact hfin _ _ h
  | cons c cs ih =>
    intro s tok h
    rw [nextLoop] at h ⊢
    rcases hd : s.decodeNext t with ⟨r, s'⟩
    rw [hd] at h
    match r, h with
    | .error e, h => simp only at h; cases h
    | .ok true, h => simp only at h ⊢; cases h; rfl
    | .ok false, h =>
      simp only at h ⊢
      split at h
      · rename_i e; simp only [e, if_true]; exact hfin _ _ h
      · rename_i e; simp only [e, if_false]; exact ih _ _ h


end Tokenizer

/-! ### The parser -/

namespace Parser
variable {σ : Type}

/-- the tokenizer after some calls of `next()` -/
def after (t : PyText) (n : Nat) (tk : Tokenizer) : Tokenizer := (fun tk => (tk.next t).2)^[n] tk

/-- the tokenizer goes forward, not after the end of the text or an exception -/
def Trace (t : PyText) (tk : Tokenizer) (ok : Bool) (tk' : Tokenizer) : Prop :=
  ∃ n, tk' = after t n tk ∧ (∀ i < n, (after t i tk).token ≠ .endOfFile) ∧
    ∀ i < n, (i + 1 < n ∨ ok = true) → ∃ tok, ((after t i tk).next t).1 = .ok tok

theorem Trace.refl {t : PyText} {tk : Tokenizer} {ok : Bool} : Trace t tk ok tk := ⟨0, rfl, by simp, by simp⟩

theorem after_add (t : PyText) (m n : Nat) (tk : Tokenizer) : after t (n + m) tk = after t n (after t m tk) :=
  Function.iterate_add_apply _ _ _ _

theorem Trace.trans {t : PyText} {a b c : Tokenizer} {ok : Bool} (h1 : Trace t a true b) (h2 : Trace t b ok c) : Trace t a ok c := by
  obtain ⟨m, rfl, m2, m3⟩ := h1
  obtain ⟨n, rfl, n2, n3⟩ := h2
  refine ⟨n + m, (after_add t m n a).symm, ?_, ?_⟩
  · intro i hi
    by_cases h : i < m
    · exact m2 i h
    · have := n2 (i - m) (by omega)
      rwa [← after_add, Nat.sub_add_cancel (by omega)] at this
  · intro i hi ho
    by_cases h : i < m
    · exact m3 i h (.inr rfl)
    · have := n3 (i - m) (by omega) (ho.imp (by omega) id)
      rwa [← after_add, Nat.sub_add_cancel (by omega)] at this

/-- the trace of a computation -/
def Tr (t : PyText) {α : Type} (m : M (Tokenizer × σ) α) (st : Tokenizer × σ) : Prop := Trace t st.1 (m st).1.isOk (m st).2.1

theorem Tr.bind {t : PyText} {α β : Type} {x : M (Tokenizer × σ) α} {f : α → M (Tokenizer × σ) β} {st : Tokenizer × σ} (hx : Tr t x st)
    (hf : ∀ a st', x st = (.ok a, st') → Tr t (f a) st') : Tr t (x >>= f) st := by
  unfold Tr at *
  show Trace t st.1 ((M.bind x f) st).1.isOk ((M.bind x f) st).2.1
  unfold M.bind
  rcases hx' : x st with ⟨r, st'⟩
  rw [hx'] at hx
  cases r with
  | error e => exact hx
  | ok a => exact Trace.trans hx (hf a st' hx')

theorem Tr.pure {t : PyText} {α : Type} {a : α} {st : Tokenizer × σ} : Tr t (pure a : M (Tokenizer × σ) α) st := Trace.refl

theorem Tr.throw {t : PyText} {α : Type} {e : Err} {st : Tokenizer × σ} : Tr t (M.throw e : M (Tokenizer × σ) α) st := Trace.refl

theorem Tr.token {t : PyText} {st : Tokenizer × σ} : Tr t (Parser.token (σ := σ)) st := Trace.refl

theorem Tr.value {t : PyText} {st : Tokenizer × σ} : Tr t (Parser.value (σ := σ)) st := Trace.refl

theorem Tr.observe {t : PyText} {m : M σ Unit} {st : Tokenizer × σ} : Tr t (Parser.observe m) st := Trace.refl

theorem Tr.next {t : PyText} {st : Tokenizer × σ} (h : st.1.token ≠ .endOfFile) : Tr t (Parser.next (σ := σ) t) st := by
  refine ⟨1, rfl, ?_, ?_⟩
  · intro i hi
    obtain rfl : i = 0 := by omega
    exact h
  · intro i hi ho
    obtain rfl : i = 0 := by omega
    rcases ho with ho | ho
    · omega
    · show ∃ tok, (st.1.next t).1 = .ok tok
      change ((st.1.next t).1).isOk = true at ho
      cases hr : (st.1.next t).1 with
      | ok tok => exact ⟨tok, rfl⟩
      | error e => rw [hr] at ho; cases ho

theorem observe_token {m : M σ Unit} {st st' : Tokenizer × σ} {a : Unit} (h : Parser.observe m st = (.ok a, st')) : st'.1 = st.1 := by
  unfold Parser.observe at h
  obtain ⟨tk, s⟩ := st
  simp only [Prod.mk.injEq] at h
  rw [← h.2]

theorem token_eq {st st' : Tokenizer × σ} {a : Token} (h : Parser.token st = (.ok a, st')) : st' = st ∧ a = st.1.token := by
  unfold Parser.token at h
  obtain ⟨tk, s⟩ := st
  cases h; exact ⟨rfl, rfl⟩

theorem value_eq {st st' : Tokenizer × σ} {a : Val} (h : Parser.value st = (.ok a, st')) : st' = st := by
  unfold Parser.value at h
  obtain ⟨tk, s⟩ := st
  cases h; rfl

theorem Tr.checkToken {t : PyText} {tok : Token} {st : Tokenizer × σ} : Tr t (Parser.checkToken (σ := σ) tok) st := by
  unfold Parser.checkToken
  refine Tr.bind Tr.token fun a st' h => ?_
  split
  · exact Tr.throw
  · exact Tr.pure

theorem checkToken_eq {tok : Token} {st st' : Tokenizer × σ} {a : Unit} (h : Parser.checkToken tok st = (.ok a, st')) :
    st' = st ∧ st.1.token = tok := by
  obtain ⟨tk, s⟩ := st
  by_cases he : tk.token = tok
  · have : Parser.checkToken tok (tk, s) = (.ok (), (tk, s)) := by
      simp [Parser.checkToken, Bind.bind, M.bind, Parser.token, he, Pure.pure, M.pure, M.throw]
    rw [this] at h; cases h; exact ⟨rfl, he⟩
  · have : Parser.checkToken tok (tk, s) = (.error .json, (tk, s)) := by
      simp [Parser.checkToken, Bind.bind, M.bind, Parser.token, he, Pure.pure, M.pure, M.throw]
    rw [this] at h; cases h

theorem Tr.consumeToken {t : PyText} {tok : Token} (ht : tok ≠ .endOfFile) {st : Tokenizer × σ} : Tr t (Parser.consumeToken (σ := σ) t tok) st := by
  unfold Parser.consumeToken
  refine Tr.bind Tr.checkToken fun a st' h => ?_
  obtain ⟨rfl, h⟩ := checkToken_eq h
  exact Tr.bind (Tr.next (by rw [h]; exact ht)) fun _ _ _ => Tr.pure

theorem Tr.parseValue {t : PyText} {ob : Observer σ} {st : Tokenizer × σ} (h : st.1.token ≠ .endOfFile) : Tr t (Parser.parseValue t ob) st := by
  unfold Parser.parseValue
  refine Tr.bind Tr.value fun v st1 h1 => ?_
  obtain rfl := value_eq h1
  refine Tr.bind Tr.observe fun _ st2 h2 => ?_
  exact Tr.bind (Tr.next (by rw [observe_token h2]; exact h)) fun _ _ _ => Tr.pure

theorem Tr.parseMore {t : PyText} {item : M (Tokenizer × σ) Unit} (hi : ∀ st, Tr t item st) : ∀ (n : Nat) (st : Tokenizer × σ),
    Tr t (Parser.parseMore t item n) st
  | 0, _ => Tr.throw
  | n + 1, st => by
    unfold Parser.parseMore
    refine Tr.bind Tr.token fun a st1 h1 => ?_
    obtain ⟨rfl, rfl⟩ := token_eq h1
    split
    · rename_i he
      refine Tr.bind (Tr.next (by rw [he]; decide)) fun _ _ _ => ?_
      exact Tr.bind (hi _) fun _ _ _ => Tr.parseMore hi n _
    · exact Tr.pure

theorem Tr.parseItems {t : PyText} {item : M (Tokenizer × σ) Unit} (hi : ∀ st, Tr t item st) (n : Nat) (st : Tokenizer × σ) :
    Tr t (Parser.parseItems t item n) st := by
  unfold Parser.parseItems
  exact Tr.bind (hi _) fun _ _ _ => Tr.parseMore hi n _

theorem Tr.parseMember {t : PyText} {ob : Observer σ} {element : M (Tokenizer × σ) Unit} (he : ∀ st, Tr t element st) (st : Tokenizer × σ) :
    Tr t (Parser.parseMember t ob element) st := by
  unfold Parser.parseMember
  refine Tr.bind Tr.checkToken fun _ st1 h1 => ?_
  obtain ⟨rfl, h1⟩ := checkToken_eq h1
  refine Tr.bind Tr.value fun v st2 h2 => ?_
  obtain rfl := value_eq h2
  split
  · refine Tr.bind Tr.observe fun _ st3 h3 => ?_
    refine Tr.bind (Tr.next (by rw [observe_token h3, h1]; decide)) fun _ _ _ => ?_
    exact Tr.bind (Tr.consumeToken (by decide)) fun _ _ _ => he _
  · exact Tr.throw

theorem Tr.parseArray {t : PyText} {ob : Observer σ} {element : M (Tokenizer × σ) Unit} (he : ∀ st, Tr t element st) {n : Nat}
    {st : Tokenizer × σ} (h : st.1.token ≠ .endOfFile) : Tr t (Parser.parseArray t ob element n) st := by
  unfold Parser.parseArray
  refine Tr.bind Tr.observe fun _ st1 h1 => ?_
  refine Tr.bind (Tr.next (by rw [observe_token h1]; exact h)) fun tok _ _ => ?_
  split
  · refine Tr.bind (Tr.parseItems he n _) fun _ _ _ => ?_
    exact Tr.bind (Tr.consumeToken (by decide)) fun _ _ _ => Tr.observe
  · exact Tr.bind (Tr.consumeToken (by decide)) fun _ _ _ => Tr.observe

theorem Tr.parseObject {t : PyText} {ob : Observer σ} {element : M (Tokenizer × σ) Unit} (he : ∀ st, Tr t element st) {n : Nat}
    {st : Tokenizer × σ} (h : st.1.token ≠ .endOfFile) : Tr t (Parser.parseObject t ob element n) st := by
  unfold Parser.parseObject
  refine Tr.bind Tr.observe fun _ st1 h1 => ?_
  refine Tr.bind (Tr.next (by rw [observe_token h1]; exact h)) fun tok _ _ => ?_
  split
  · refine Tr.bind (Tr.parseItems (Tr.parseMember he) n _) fun _ _ _ => ?_
    exact Tr.bind (Tr.consumeToken (by decide)) fun _ _ _ => Tr.observe
  · exact Tr.bind (Tr.consumeToken (by decide)) fun _ _ _ => Tr.observe

theorem Tr.parseElement {t : PyText} {ob : Observer σ} : ∀ (n : Nat) (st : Tokenizer × σ), Tr t (Parser.parseElement t ob n) st
  | 0, _ => Tr.throw
  | n + 1, st => by
    unfold Parser.parseElement
    refine Tr.bind Tr.token fun a st1 h1 => ?_
    obtain ⟨rfl, rfl⟩ := token_eq h1
    split
    · rename_i h; exact Tr.parseArray (Tr.parseElement n) (by rw [h]; decide)
    · rename_i h; exact Tr.parseObject (Tr.parseElement n) (by rw [h]; decide)
    · rename_i h; exact Tr.parseValue (by rw [h]; decide)
    · exact Tr.throw

theorem Tr.parse {t : PyText} {ob : Observer σ} (st : Tokenizer × σ) : Tr t (Parser.parse t ob) st := by
  have hrest : ∀ st : Tokenizer × σ, Tr t (do
      if (← Parser.token) = .endOfFile then return true
      let (tk, _) ← M.get
      Parser.parseElement t ob (remaining tk + 1)
      return (← Parser.token) = .endOfFile) st := by
    intro st
    refine Tr.bind Tr.token fun a st1 h1 => ?_
    split
    · exact Tr.pure
    · refine Tr.bind (Trace.refl (t := t) (tk := st1.1)) fun x st2 h2 => ?_
      refine Tr.bind (Tr.parseElement _ _) fun _ _ _ => ?_
      exact Tr.bind Tr.token fun _ _ _ => Tr.pure
  unfold Parser.parse
  refine Tr.bind Tr.token fun a st1 h1 => ?_
  obtain ⟨rfl, rfl⟩ := token_eq h1
  split
  · rename_i he
    exact Tr.bind (Tr.next (by rw [he]; decide)) fun _ _ _ => hrest _
  · exact hrest _

end Parser

/-- C119: the tokens of a text, read in any pieces, are reported in the order of the text, each with the line and column of its first character, as
long as no string contains a line break which is not escaped (JSON does not allow this); the first text which is no token is reported at its
place, too. -/
theorem C119_positions (t : PyText) {text : PyStr} {chunks : List PyStr} (h : Chunks text chunks) (n : Nat) :
    Reported t [] text (tokens t chunks n) := by
  have hs := Tokenizer.same_new t h
  have hr := hs.rest
  have : (Tokenizer.new chunks).rest ++ (Tokenizer.new chunks).chunks.flatten = text := by
    rw [hr]; simp [Tokenizer.new, Tokenizer.ioRead]
  rw [← this]
  exact Tokenizer.reported t n _ [] hs.nonempty (.inl (by simp)) (by simp [Tokenizer.new, position, universal])

theorem see_getLast (t : PyText) : ∀ (n : Nat) (tk : Tokenizer), (tk.see t (n + 1)).getLast? =
    some ⟨((Parser.after t n tk).next t).1.map fun token => (token, (Parser.after t (n + 1) tk).value), (Parser.after t (n + 1) tk).line,
      (Parser.after t (n + 1) tk).tokenColumn⟩
  | 0, tk => rfl
  | n + 1, tk => by
    rw [Tokenizer.see_succ, Tokenizer.see_succ, List.getLast?_cons_cons, ← Tokenizer.see_succ, see_getLast t n]; rfl

theorem see_mem {t : PyText} : ∀ {n : Nat} {tk : Tokenizer} {x : Seen}, x ∈ tk.see t n → ∃ i < n, x.kind = ((Parser.after t i tk).next t).1.toOption
  | 0, _, _, h => by cases h
  | n + 1, tk, x, h => by
    rw [Tokenizer.see_succ] at h
    rcases List.mem_cons.1 h with rfl | h
    · refine ⟨0, by omega, ?_⟩
      show Seen.kind _ = (tk.next t).1.toOption
      cases hr : (tk.next t).1 <;> simp [Seen.kind, hr, Except.map, Except.toOption]
    · obtain ⟨i, hi, e⟩ := see_mem h
      exact ⟨i + 1, by omega, e⟩

theorem see_dropLast (t : PyText) : ∀ (n : Nat) (tk : Tokenizer), (tk.see t (n + 1)).dropLast = tk.see t n
  | 0, _ => rfl
  | n + 1, tk => by
    rw [Tokenizer.see_succ, Tokenizer.see_succ, List.dropLast_cons₂, ← Tokenizer.see_succ, see_dropLast t n, ← Tokenizer.see_succ]

theorem trace_positions {t : PyText} {chunks : List PyStr} {ok : Bool} {tk : Tokenizer} (h : Parser.Trace t (Tokenizer.new chunks) ok tk) :
    ∃ n, ((tk.line, tk.tokenColumn) = match (tokens t chunks n).getLast? with | some x => (x.line, x.column) | none => (1, 1)) ∧
      (∀ x ∈ (tokens t chunks n).dropLast, ∃ tok, x.kind = some tok ∧ tok ≠ .endOfFile) ∧
      (ok = true → ∀ x ∈ tokens t chunks n, x.kind ≠ none) := by
  obtain ⟨n, h1, h2, h3⟩ := h
  refine ⟨n, ?_, ?_, ?_⟩
  · rw [h1]
    match n with
    | 0 => simp [tokens, Tokenizer.see, Parser.after, Tokenizer.new]
    | n + 1 => rw [tokens, see_getLast]
  · match n with
    | 0 => intro x hx; cases hx
    | n + 1 =>
      intro x hx
      rw [tokens, see_dropLast] at hx
      obtain ⟨i, hi, e⟩ := see_mem hx
      obtain ⟨tok, ht⟩ := h3 i (by omega) (.inl (by omega))
      refine ⟨tok, by rw [e, ht]; rfl, ?_⟩
      have := Tokenizer.next_token t _ _ tok ht
      rw [← this]
      have h' := h2 (i + 1) (by omega)
      rw [Nat.add_comm, Parser.after_add] at h'
      exact h'
  · rintro hb x hx
    obtain ⟨i, hi, e⟩ := see_mem hx
    obtain ⟨tok, ht⟩ := h3 i hi (.inr hb)
    rw [e, ht]; simp [Except.toOption]

/-- C119: when the parser returns or raises an exception, whatever the observer does, its line and column are those of the last token which was
read (1:1 if none was); all tokens before were read without exception, and none of them was the end of the text. -/
theorem C119_parser {σ : Type} (t : PyText) (ob : Observer σ) (chunks : List PyStr) (s : σ) :
    ∃ n, (((Parser.parse t ob (Tokenizer.new chunks, s)).2.1.line, (Parser.parse t ob (Tokenizer.new chunks, s)).2.1.tokenColumn) =
        match (tokens t chunks n).getLast? with | some x => (x.line, x.column) | none => (1, 1)) ∧
      (∀ x ∈ (tokens t chunks n).dropLast, ∃ tok, x.kind = some tok ∧ tok ≠ .endOfFile) ∧
      ((∃ b, (Parser.parse t ob (Tokenizer.new chunks, s)).1 = .ok b) → ∀ x ∈ tokens t chunks n, x.kind ≠ none) := by
  obtain ⟨n, h1, h2, h3⟩ := trace_positions (Parser.Tr.parse (t := t) (ob := ob) (Tokenizer.new chunks, s))
  exact ⟨n, h1, h2, fun ⟨b, hb⟩ => h3 (by rw [hb]; rfl)⟩

/-- C119: the same for reading an object: the exception of `JsonReader.read` carries the place of the last token which was read. -/
theorem C119_reader (t : PyText) (I : TypeInfos) (id : Nat) (args : List Int) (chunks : List PyStr) :
    ∃ n, (((Reader.read t I id args (Reader.new chunks)).2.1.line, (Reader.read t I id args (Reader.new chunks)).2.1.tokenColumn) =
        match (tokens t chunks n).getLast? with | some x => (x.line, x.column) | none => (1, 1)) ∧
      (∀ x ∈ (tokens t chunks n).dropLast, ∃ tok, x.kind = some tok ∧ tok ≠ .endOfFile) ∧
      ((∃ v, (Reader.read t I id args (Reader.new chunks)).1 = .ok v) → ∀ x ∈ tokens t chunks n, x.kind ≠ none) := by
  have htr : Parser.Tr t (Reader.read t I id args) (Reader.new chunks) := by
    unfold Reader.read
    refine Parser.Tr.bind Parser.Tr.observe fun _ _ _ => Parser.Tr.bind (Parser.Tr.parse _) fun _ _ _ => ?_
    exact Parser.Trace.refl
  obtain ⟨n, h1, h2, h3⟩ := trace_positions htr
  exact ⟨n, h1, h2, fun ⟨b, hb⟩ => h3 (by rw [hb]; rfl)⟩

/-- C119, the deviation: a string with a line break in it is accepted, although JSON does not allow this, and then the positions are wrong: the
second `]` of this text is in line 2, column 4, but it is reported in line 1. -/
theorem C119_raw_deviates : (tokens PyText.simple [py! "[\"a\nb\"]]"] 4).map (fun x => (x.kind, x.line, x.column)) =
      [(some .beginArray, 1, 1), (some .value, 1, 2), (some .endArray, 1, 7), (some .endArray, 1, 8)] ∧
    position (py! "[\"a\nb\"]") = (2, 4) := by decide +kernel

/-- a line break cut into two pieces is one line break, and a lone `\r` is one, too -/
example : Chunks (py! "[1,\r\n\t2,\r 3]") [py! "[1,\r", py! "\n\t2", py! ",\r", py! " 3]"] ∧
    (tokens PyText.simple [py! "[1,\r", py! "\n\t2", py! ",\r", py! " 3]"] 7).map (fun x => (x.kind, x.line, x.column)) =
      [(some .beginArray, 1, 1), (some .value, 1, 2), (some .itemSeparator, 1, 3), (some .value, 2, 2), (some .itemSeparator, 2, 3),
        (some .value, 3, 2), (some .endArray, 3, 3)] := ⟨⟨by decide +kernel, by decide +kernel⟩, by decide +kernel⟩

/-- an exception of the parser carries the place of the unexpected token -/
example : (Parser.parse PyText.simple recorder (Tokenizer.new [py! "{\n  \"a\": 1,\n  2: 3 }"], [])).1 = .error .json ∧
    ((Parser.parse PyText.simple recorder (Tokenizer.new [py! "{\n  \"a\": 1,\n  2: 3 }"], [])).2.1.line,
      (Parser.parse PyText.simple recorder (Tokenizer.new [py! "{\n  \"a\": 1,\n  2: 3 }"], [])).2.1.tokenColumn) = (3, 3) := by decide +kernel

/-- the end of a text after a lone `\r` is reported before it -/
example : (tokens PyText.simple [py! "1 \r"] 2).map (fun x => (x.kind, x.line, x.column)) =
    [(some .value, 1, 1), (some .endOfFile, 1, 3)] := by decide +kernel

end Zserio.Json
