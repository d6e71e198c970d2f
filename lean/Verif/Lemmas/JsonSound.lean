import Verif.Lemmas.JsonParse
import Verif.Lemmas.JsonPrefix
import Verif.Lemmas.CompoundSafe
/-
Lemmas for C55: what the parser accepts is a text of the grammar.
-/
set_option linter.unusedSimpArgs false
namespace Zserio.Json
open Tokenizer
variable {t : PyText} {σ : Type}

/-! ### Values -/

theorem decodeStringLoop_gt {rest : PyStr} {n : Nat} {decoded : PyStr} {v : Val} {m : Nat}
    (h : decodeStringLoop rest n decoded = success v m) : n < m := by
  have hge := fun r n d => decodeStringLoop_ge _ r (Nat.le_refl _) n d
  rw [decodeStringLoop.eq_def] at h
  match rest with
  | [] => simp [Json.failure, success] at h
  | c :: rest =>
    simp only at h
    have key : ∀ r k d, n < k → decodeStringLoop r k d = success v m → n < m := by
      intro r k d hk h'
      have := hge r k d
      rw [h'] at this
      simp only [success] at this
      omega
    split at h
    · split at h
      · simp [Json.failure, success] at h
      · split at h
        · exact key _ _ _ (by omega) h
        split at h
        · exact key _ _ _ (by omega) h
        split at h
        · exact key _ _ _ (by omega) h
        split at h
        · exact key _ _ _ (by omega) h
        split at h
        · exact key _ _ _ (by omega) h
        split at h
        · exact key _ _ _ (by omega) h
        split at h
        · split at h
          · split at h
            · exact key _ _ _ (by omega) h
            · simp [Json.failure, success] at h
          · simp [Json.failure, success] at h
        · simp [Json.failure, success] at h
    split at h
    · simp only [success, DecodeResult.mk.injEq] at h
      omega
    · exact key _ _ _ (by omega) h

/-- The text of a string determines its value. -/
theorem decodeStringLoop_any : ∀ (k : Nat) (y : PyStr), y.length ≤ k → ∀ (r tail : PyStr) (n : Nat) (decoded : PyStr) (v : Val),
    decodeStringLoop (y ++ r) n decoded = success v (n + y.length) →
    decodeStringLoop (y ++ tail) n decoded = success v (n + y.length) := by
  have hgt : ∀ {r n d v m}, decodeStringLoop r n d = success v m → n < m := fun h => decodeStringLoop_gt h
  intro k
  induction k with
  | zero =>
    intro y hy r tail n decoded v h
    obtain rfl : y = [] := List.length_eq_zero_iff.1 (by omega)
    have := hgt h
    simp at this
  | succ k ih =>
    intro y hy r tail n decoded v h
    match y with
    | [] =>
      have := hgt h
      simp at this
    | c :: y =>
      simp only [List.length_cons] at hy h ⊢
      rw [List.cons_append, decodeStringLoop.eq_def] at h ⊢
      simp only at h ⊢
      split at h
      · rename_i hc
        rw [if_pos hc]
        match y with
        | [] =>
          exfalso
          match r with
          | [] => simp [Json.failure, success] at h
          | e :: r =>
            simp only [List.nil_append] at h
            have key : ∀ r k d, n + 1 < k → decodeStringLoop r k d = success v (n + 1) → False := by
              intro r k d hk h'
              have := hgt h'
              omega
            split at h
            · exact key _ _ _ (by omega) h
            split at h
            · exact key _ _ _ (by omega) h
            split at h
            · exact key _ _ _ (by omega) h
            split at h
            · exact key _ _ _ (by omega) h
            split at h
            · exact key _ _ _ (by omega) h
            split at h
            · exact key _ _ _ (by omega) h
            split at h
            · split at h
              · split at h
                · exact key _ _ _ (by omega) h
                · simp [Json.failure, success] at h
              · simp [Json.failure, success] at h
            · simp [Json.failure, success] at h
        | e :: y =>
          simp only [List.cons_append, List.length_cons] at h hy ⊢
          have e2 : n + (y.length + 1 + 1) = n + 2 + y.length := by omega
          rw [e2] at h ⊢
          split at h
          · rename_i he; rw [if_pos he]; exact ih y (by omega) r tail _ _ v h
          rename_i he; rw [if_neg he]
          split at h
          · rename_i he; rw [if_pos he]; exact ih y (by omega) r tail _ _ v h
          rename_i he; rw [if_neg he]
          split at h
          · rename_i he; rw [if_pos he]; exact ih y (by omega) r tail _ _ v h
          rename_i he; rw [if_neg he]
          split at h
          · rename_i he; rw [if_pos he]; exact ih y (by omega) r tail _ _ v h
          rename_i he; rw [if_neg he]
          split at h
          · rename_i he; rw [if_pos he]; exact ih y (by omega) r tail _ _ v h
          rename_i he; rw [if_neg he]
          split at h
          · rename_i he; rw [if_pos he]; exact ih y (by omega) r tail _ _ v h
          rename_i he; rw [if_neg he]
          split at h
          · rename_i he; rw [if_pos he]
            match y with
            | a :: b :: c' :: d :: x :: y =>
              simp only [List.cons_append, List.length_cons] at h hy ⊢
              cases hu : decodeUnicodeEscape a b c' d with
              | none => simp [hu, Json.failure, success] at h
              | some u =>
                simp only [hu] at h ⊢
                have e3 : n + 2 + (y.length + 1 + 1 + 1 + 1 + 1) = n + 6 + (x :: y).length := by simp; omega
                rw [e3] at h ⊢
                exact ih (x :: y) (by simp; omega) r tail _ _ v h
            | [] | [_] | [_, _] | [_, _, _] | [_, _, _, _] =>
              exfalso
              simp only [List.cons_append, List.nil_append, List.length_cons, List.length_nil] at h
              split at h
              · split at h
                · have := hgt h
                  omega
                · simp [Json.failure, success] at h
              · simp [Json.failure, success] at h
          · simp [Json.failure, success] at h
      rename_i hc; rw [if_neg hc]
      split at h
      · rename_i hq; rw [if_pos hq]
        simp only [success, DecodeResult.mk.injEq] at h ⊢
        exact h
      · rename_i hq; rw [if_neg hq]
        have e1 : n + (y.length + 1) = n + 1 + y.length := by omega
        rw [e1] at h ⊢
        exact ih y (by omega) r tail _ _ v h

/-- Nothing which ends a value continues a number. -/
theorem extractLoop_ends (ht : t.Lawful) {tail : PyStr} (he : Ends tail) (a sc fl : Bool) : extractLoop t tail a sc fl = (0, fl) := by
  cases tail with
  | nil => rfl
  | cons c tail =>
    have hc := he c rfl
    simp only [List.mem_cons, List.not_mem_nil, or_false] at hc
    have hd : t.isDigit c = false := by
      cases hd : t.isDigit c with
      | false => rfl
      | true =>
        have := (ht.isDigit c (by omega)).1 hd
        unfold IsDecimal at this
        omega
    have : (c == 43) = false ∧ (c == 45) = false ∧ (c == 101) = false ∧ (c == 69) = false ∧ (c == 46) = false := by
      simp only [beq_eq_false_iff_ne]; omega
    rw [extractLoop]
    simp [hd, this]

theorem extractLoop_any (ht : t.Lawful) {tail : PyStr} (he : Ends tail) : ∀ (x r : PyStr) (a sc fl f : Bool),
    extractLoop t (x ++ r) a sc fl = (x.length, f) → extractLoop t (x ++ tail) a sc fl = (x.length, f)
  | [], r, a, sc, fl, f, h => by
    have : fl = f := by
      match r with
      | [] => simpa [extractLoop] using h
      | c :: r =>
        simp only [List.nil_append, List.length_nil] at h
        rw [extractLoop] at h
        split at h
        · simp at h
        split at h
        · simp at h
        split at h
        · simp at h
        split at h
        · simp at h
        · simpa using h
    rw [List.nil_append, extractLoop_ends ht he, this]; rfl
  | c :: x, r, a, sc, fl, f, h => by
    rw [List.cons_append, extractLoop] at h ⊢
    simp only [List.length_cons] at h ⊢
    have key : ∀ a sc fl, ((extractLoop t (x ++ r) a sc fl).1 + 1, (extractLoop t (x ++ r) a sc fl).2) = (x.length + 1, f) →
        ((extractLoop t (x ++ tail) a sc fl).1 + 1, (extractLoop t (x ++ tail) a sc fl).2) = (x.length + 1, f) := by
      intro a sc fl h
      simp only [Prod.mk.injEq, Nat.add_right_cancel_iff] at h
      rw [extractLoop_any ht he x r a sc fl f (Prod.ext h.1 h.2)]
    split at h
    · rename_i hc; rw [if_pos hc]; exact key _ _ _ h
    rename_i hc; rw [if_neg hc]
    split at h
    · rename_i hc; rw [if_pos hc]; exact key _ _ _ h
    rename_i hc; rw [if_neg hc]
    split at h
    · rename_i hc; rw [if_pos hc]; exact key _ _ _ h
    rename_i hc; rw [if_neg hc]
    split at h
    · rename_i hc; rw [if_pos hc]; exact key _ _ _ h
    · simp at h

theorem extractNumber_any (ht : t.Lawful) {tail : PyStr} (he : Ends tail) {x r : PyStr} {f : Bool} (hx : x ≠ [])
    (h : extractNumber t (x ++ r) = (x, f)) : extractNumber t (x ++ tail) = (x, f) := by
  obtain ⟨c, y, rfl⟩ := List.exists_cons_of_ne_nil hx
  rw [List.cons_append] at h ⊢
  simp only [extractNumber] at h ⊢
  split at h
  · rename_i hc
    rw [if_pos hc]
    simp only [List.take_succ_cons, Prod.mk.injEq, List.cons.injEq, true_and] at h ⊢
    have hl := congrArg List.length h.1
    have hle := extractLoop_le (t := t) (y ++ r) false false false
    simp only [List.length_take] at hl
    rw [Nat.min_eq_left hle] at hl
    have := extractLoop_any ht he y r false false false f (Prod.ext hl h.2)
    rw [this]
    exact ⟨List.take_left' rfl, rfl⟩
  · rename_i hc
    rw [if_neg hc]
    simp only [Prod.mk.injEq] at h ⊢
    rw [← List.cons_append] at h ⊢
    have hl := congrArg List.length h.1
    have hle := extractLoop_le (t := t) (c :: y ++ r) false false false
    simp only [List.length_take] at hl
    rw [Nat.min_eq_left hle] at hl
    have := extractLoop_any ht he (c :: y) r false false false f (Prod.ext hl h.2)
    rw [this]
    exact ⟨List.take_left' rfl, rfl⟩

theorem extractNumber_prefix (w : PyStr) : (extractNumber t w).1 <+: w := by
  unfold extractNumber
  split
  · exact List.nil_prefix
  · split
    · exact List.take_prefix _ _
    · exact List.take_prefix _ _

theorem decodeNumber_any (ht : t.Lawful) {tail : PyStr} (he : Ends tail) {x r : PyStr} {v : Val} (hx : x ≠ [])
    (h : decodeNumber t (x ++ r) = success v x.length) :
    decodeNumber t (x ++ tail) = success v x.length ∧ (extractNumber t (x ++ r)).1 = x := by
  have hl : (extractNumber t (x ++ r)).1.length = x.length := by
    have := decodeNumber_numRead (t := t) (x ++ r)
    rw [h] at this
    simp only [success] at this
    split at this
    · rename_i h0
      exfalso
      unfold decodeNumber at h
      simp only [h0, if_true] at h
      simp [Json.failure, success] at h
    · omega
  have hp := extractNumber_prefix (t := t) (x ++ r)
  have hx' : (extractNumber t (x ++ r)).1 = x := by
    obtain ⟨q, hq⟩ := hp
    exact (List.append_inj hq hl).1
  refine ⟨?_, hx'⟩
  have := extractNumber_any ht he (f := (extractNumber t (x ++ r)).2) hx (Prod.ext hx' rfl)
  have e : extractNumber t (x ++ r) = extractNumber t (x ++ tail) := by rw [this]; exact Prod.ext hx' rfl
  unfold decodeNumber at h ⊢
  rw [← e]
  exact h

theorem decodeLiteral_any {x r text tail : PyStr} {v v' : Val} (h : decodeLiteral (x ++ r) text v' = success v x.length) :
    decodeLiteral (x ++ tail) text v' = success v x.length := by
  unfold decodeLiteral at h
  split at h
  · simp [Json.failure, success] at h
  split at h
  · rename_i h1 h2
    simp only [success, DecodeResult.mk.injEq, Option.some.injEq] at h
    obtain ⟨rfl, hl⟩ := h
    rw [hl, List.take_left' rfl] at h2
    subst h2
    unfold decodeLiteral
    rw [if_neg (by simp), if_pos (by simp)]
  · simp [Json.failure, success] at h

/-- A value which was decoded once is decoded whenever its text is followed by something which ends a value. -/
theorem valueText_of_decode (ht : t.Lawful) {x r : PyStr} {v : Val} (hx : x ≠ [])
    (h : decodeValue t (x ++ r) = success v x.length) : ValueText t v x := by
  refine ⟨hx, fun tail he => ?_⟩
  obtain ⟨c, y, rfl⟩ := List.exists_cons_of_ne_nil hx
  rw [decodeValue.eq_def] at h ⊢
  rw [List.cons_append] at h ⊢
  simp only at h ⊢
  rw [← List.cons_append] at h ⊢
  split at h
  · rename_i hc; rw [if_pos hc]; exact decodeLiteral_any h
  rename_i hc; rw [if_neg hc]
  split at h
  · rename_i hc; rw [if_pos hc]; exact decodeLiteral_any h
  rename_i hc; rw [if_neg hc]
  split at h
  · rename_i hc; rw [if_pos hc]; exact decodeLiteral_any h
  rename_i hc; rw [if_neg hc]
  split at h
  · rename_i hc; rw [if_pos hc]; exact decodeLiteral_any h
  rename_i hc; rw [if_neg hc]
  split at h
  · rename_i hc; rw [if_pos hc]; exact decodeLiteral_any h
  rename_i hc; rw [if_neg hc]
  split at h
  · rename_i hc; rw [if_pos hc]
    simp only [decodeString, List.cons_append, List.tail_cons, List.length_cons] at h ⊢
    rw [Nat.add_comm y.length 1] at h ⊢
    exact decodeStringLoop_any _ y (Nat.le_refl _) r tail 1 [] v h
  rename_i hc; rw [if_neg hc]
  split at h
  · rename_i hm
    rw [if_pos hm]
    match y with
    | [] =>
      exfalso
      simp only [List.cons_append, List.nil_append] at h
      match r with
      | [] => simp [Json.failure, success] at h
      | d :: r =>
        simp only at h
        split at h
        · unfold decodeLiteral at h
          split at h
          · simp [Json.failure, success] at h
          split at h <;> simp [Json.failure, success] at h
        · obtain ⟨h1, h2⟩ := decodeNumber_any ht he (x := [c]) (by simp) h
          have h3 := extractNumber_any ht (tail := []) (by intro c hc; simp at hc) (f := (extractNumber t ([c] ++ d :: r)).2)
            (by simp) (Prod.ext h2 rfl)
          have hf : (extractNumber t ([c] ++ d :: r)).2 = false := by
            simp only [List.append_nil, extractNumber, if_pos hm, extractLoop, Prod.mk.injEq] at h3
            exact h3.2.symm
          subst hm
          unfold decodeNumber at h
          rw [show (([45] : List Nat) ++ d :: r) = 45 :: d :: r from rfl] at h2 hf
          simp only [h2, hf] at h
          simp [parseInt, Json.failure, success] at h
    | d :: y =>
      simp only [List.cons_append] at h ⊢
      split at h
      · rename_i hd
        rw [if_pos hd]
        rw [← List.cons_append, ← List.cons_append] at h ⊢
        exact decodeLiteral_any h
      · rename_i hd
        rw [if_neg hd]
        rw [← List.cons_append, ← List.cons_append] at h ⊢
        exact (decodeNumber_any ht he hx h).1
  · rename_i hc; rw [if_neg hc]
    exact (decodeNumber_any ht he hx h).1

end Zserio.Json
