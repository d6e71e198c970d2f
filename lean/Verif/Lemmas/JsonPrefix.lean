import Verif.Lemmas.JsonText
/-
The decoder is stable under extension of the content: a result which does not reach the end of the content does not depend
on what follows.  (This is what makes it possible to tokenize a text in chunks.)
-/
set_option linter.unusedSimpArgs false
namespace Zserio.Json

theorem decodeStringLoop_ge : ∀ (k : Nat) (rest : PyStr), rest.length ≤ k → ∀ (n : Nat) (decoded : PyStr),
    n ≤ (decodeStringLoop rest n decoded).numRead := by
  intro k
  induction k with
  | zero =>
    intro rest h n decoded
    obtain rfl : rest = [] := List.length_eq_zero_iff.1 (by omega)
    rw [decodeStringLoop.eq_def]; simp [failure]
  | succ k ih =>
    intro rest h n decoded
    rw [decodeStringLoop.eq_def]
    match rest with
    | [] => simp [failure]
    | c :: rest =>
      simp only [List.length_cons] at h
      dsimp only
      split
      · match rest with
        | [] => simp [failure]
        | e :: rest' =>
          simp only [List.length_cons] at h
          dsimp only
          repeat' split
          all_goals first
            | (simp only [failure, success]; omega)
            | (refine Nat.le_trans ?_ (ih _ (by simp at *; omega) _ _); omega)
      · split
        · simp [success]
        · exact Nat.le_trans (by omega) (ih _ (by omega) (n + 1) _)

theorem decodeStringLoop_le : ∀ (k : Nat) (rest : PyStr), rest.length ≤ k → ∀ (n : Nat) (decoded : PyStr),
    (decodeStringLoop rest n decoded).numRead ≤ n + rest.length := by
  intro k
  induction k with
  | zero =>
    intro rest h n decoded
    obtain rfl : rest = [] := List.length_eq_zero_iff.1 (by omega)
    rw [decodeStringLoop.eq_def]; simp [failure]
  | succ k ih =>
    intro rest h n decoded
    rw [decodeStringLoop.eq_def]
    match rest with
    | [] => simp [failure]
    | c :: rest =>
      simp only [List.length_cons] at h
      dsimp only
      split
      · match rest with
        | [] => simp [failure]
        | e :: rest' =>
          simp only [List.length_cons] at h
          dsimp only
          repeat' split
          all_goals first
            | (simp only [failure, success, List.length_cons]; omega)
            | (refine Nat.le_trans (ih _ (by simp at *; omega) _ _) ?_; simp only [List.length_cons]; omega)
      · split
        · simp [success]
        · refine Nat.le_trans (ih _ (by omega) (n + 1) _) ?_
          simp only [List.length_cons]; omega

theorem decodeStringLoop_ext : ∀ (k : Nat) (rest : PyStr), rest.length ≤ k → ∀ (ext : PyStr) (n : Nat) (decoded : PyStr),
    (decodeStringLoop rest n decoded).numRead < n + rest.length →
    decodeStringLoop (rest ++ ext) n decoded = decodeStringLoop rest n decoded := by
  intro k
  induction k with
  | zero =>
    intro rest h ext n decoded hr
    obtain rfl : rest = [] := List.length_eq_zero_iff.1 (by omega)
    rw [decodeStringLoop.eq_def] at hr; simp [failure] at hr
  | succ k ih =>
    intro rest h ext n decoded hr
    match rest with
    | [] => rw [decodeStringLoop.eq_def] at hr; simp [failure] at hr
    | c :: rest =>
      simp only [List.length_cons] at h
      rw [decodeStringLoop.eq_def] at hr ⊢
      conv_rhs => rw [decodeStringLoop.eq_def]
      simp only [List.cons_append]
      by_cases hc : c = 92
      · simp only [if_pos hc] at hr ⊢
        match rest with
        | [] => simp [failure] at hr
        | e :: rest' =>
          simp only [List.length_cons] at h
          simp only [List.cons_append] at hr ⊢
          split
          · rename_i h1
            simp only [if_pos h1] at hr
            exact ih _ (by omega) _ _ _ (by simp only [List.length_cons] at hr; omega)
          rename_i h1
          simp only [if_neg h1] at hr
          split
          · rename_i h1
            simp only [if_pos h1] at hr
            exact ih _ (by omega) _ _ _ (by simp only [List.length_cons] at hr; omega)
          rename_i h1
          simp only [if_neg h1] at hr
          split
          · rename_i h1
            simp only [if_pos h1] at hr
            exact ih _ (by omega) _ _ _ (by simp only [List.length_cons] at hr; omega)
          rename_i h1
          simp only [if_neg h1] at hr
          split
          · rename_i h1
            simp only [if_pos h1] at hr
            exact ih _ (by omega) _ _ _ (by simp only [List.length_cons] at hr; omega)
          rename_i h1
          simp only [if_neg h1] at hr
          split
          · rename_i h1
            simp only [if_pos h1] at hr
            exact ih _ (by omega) _ _ _ (by simp only [List.length_cons] at hr; omega)
          rename_i h1
          simp only [if_neg h1] at hr
          split
          · rename_i h1
            simp only [if_pos h1] at hr
            exact ih _ (by omega) _ _ _ (by simp only [List.length_cons] at hr; omega)
          rename_i h1
          simp only [if_neg h1] at hr
          split
          · rename_i h1
            simp only [if_pos h1] at hr
            match rest' with
            | [] => simp [failure] at hr
            | [a] => simp [failure] at hr
            | [a, b] => simp [failure] at hr
            | [a, b, c] => simp [failure] at hr
            | [a, b, c, d] => simp [failure] at hr
            | a :: b :: c :: d :: x :: rest'' =>
              simp only [List.cons_append] at hr ⊢
              split
              · rename_i u hu
                simp only [hu] at hr
                rw [← List.cons_append]
                exact ih _ (by simp at h ⊢; omega) _ _ _ (by simp only [List.length_cons] at hr ⊢; omega)
              · rfl
          · rfl
      · simp only [if_neg hc] at hr ⊢
        split
        · rfl
        · rename_i h1
          simp only [if_neg h1] at hr
          exact ih _ (by omega) _ _ _ (by simp only [List.length_cons] at hr; omega)

variable {t : PyText}

theorem extractLoop_le : ∀ (rest : PyStr) (a sc fl : Bool), (extractLoop t rest a sc fl).1 ≤ rest.length
  | [], _, _, _ => by simp [extractLoop]
  | c :: rest, a, sc, fl => by
    rw [extractLoop]
    have h := extractLoop_le rest
    split
    · exact Nat.succ_le_succ (h _ _ _)
    split
    · exact Nat.succ_le_succ (h _ _ _)
    split
    · exact Nat.succ_le_succ (h _ _ _)
    split
    · exact Nat.succ_le_succ (h _ _ _)
    · simp

theorem extractLoop_ext : ∀ (rest ext : PyStr) (a sc fl : Bool), (extractLoop t rest a sc fl).1 < rest.length →
    extractLoop t (rest ++ ext) a sc fl = extractLoop t rest a sc fl
  | [], _, _, _, _, h => by simp at h
  | c :: rest, ext, a, sc, fl, h => by
    rw [extractLoop] at h
    rw [List.cons_append, extractLoop]
    conv_rhs => rw [extractLoop]
    split
    · rename_i h1; simp only [if_pos h1, List.length_cons] at h
      rw [extractLoop_ext rest ext _ _ _ (by omega)]
    rename_i h1; simp only [if_neg h1] at h
    split
    · rename_i h1; simp only [if_pos h1, List.length_cons] at h
      rw [extractLoop_ext rest ext _ _ _ (by omega)]
    rename_i h1; simp only [if_neg h1] at h
    split
    · rename_i h1; simp only [if_pos h1, List.length_cons] at h
      rw [extractLoop_ext rest ext _ _ _ (by omega)]
    rename_i h1; simp only [if_neg h1] at h
    split
    · rename_i h1; simp only [if_pos h1, List.length_cons] at h
      rw [extractLoop_ext rest ext _ _ _ (by omega)]
    · rfl

theorem extractNumber_le (rest : PyStr) : (extractNumber t rest).1.length ≤ rest.length := by
  unfold extractNumber
  split
  · simp
  · split <;> simp

theorem extractNumber_ext (rest ext : PyStr) (h : (extractNumber t rest).1.length < rest.length) :
    extractNumber t (rest ++ ext) = extractNumber t rest := by
  unfold extractNumber at h ⊢
  match rest with
  | [] => simp at h
  | c :: tail =>
    simp only [List.cons_append] at h ⊢
    split
    · rename_i hc
      simp only [if_pos hc, List.length_take, List.length_cons] at h
      have hl := extractLoop_le (t := t) tail false false false
      rw [extractLoop_ext tail ext _ _ _ (by omega)]
      rw [← List.cons_append, List.take_append_of_le_length (by simp; exact hl)]
    · rename_i hc
      simp only [if_neg hc, List.length_take, List.length_cons] at h
      have hl := extractLoop_le (t := t) (c :: tail) false false false
      simp only [List.length_cons] at hl
      rw [← List.cons_append, extractLoop_ext (c :: tail) ext _ _ _ (by simp only [List.length_cons]; omega),
        List.take_append_of_le_length (by simp only [List.length_cons]; omega)]

theorem decodeNumber_numRead (rest : PyStr) : (decodeNumber t rest).numRead =
    if (extractNumber t rest).1.length = 0 then 1 else (extractNumber t rest).1.length := by
  unfold decodeNumber
  simp only
  split
  · rfl
  · repeat' split
    all_goals rfl

theorem decodeNumber_ext (rest ext : PyStr) (h : (decodeNumber t rest).numRead < rest.length) :
    decodeNumber t (rest ++ ext) = decodeNumber t rest := by
  have h' : (extractNumber t rest).1.length < rest.length := by
    rw [decodeNumber_numRead] at h
    split at h <;> omega
  unfold decodeNumber
  rw [extractNumber_ext rest ext h']

theorem decodeLiteral_ext (rest ext text : PyStr) (v : Val) (h : (decodeLiteral rest text v).numRead < rest.length) :
    decodeLiteral (rest ++ ext) text v = decodeLiteral rest text v := by
  unfold decodeLiteral at h ⊢
  by_cases h1 : rest.length < text.length
  · simp [h1, failure] at h
  · rw [if_neg h1, if_neg (by simp; omega), List.take_append_of_le_length (by omega)]

/-- A result which does not reach the end of the content does not depend on what follows. -/
theorem decodeValue_ext (rest ext : PyStr) (h : (decodeValue t rest).numRead < rest.length) :
    decodeValue t (rest ++ ext) = decodeValue t rest := by
  rw [decodeValue.eq_def] at h ⊢
  conv_rhs => rw [decodeValue.eq_def]
  match rest with
  | [] => simp at h
  | c :: tail =>
    simp only [List.cons_append] at h ⊢
    split
    · rename_i h1; simp only [if_pos h1] at h
      exact decodeLiteral_ext _ _ _ _ h
    rename_i h1; simp only [if_neg h1] at h
    split
    · rename_i h1; simp only [if_pos h1] at h
      exact decodeLiteral_ext _ _ _ _ h
    rename_i h1; simp only [if_neg h1] at h
    split
    · rename_i h1; simp only [if_pos h1] at h
      exact decodeLiteral_ext _ _ _ _ h
    rename_i h1; simp only [if_neg h1] at h
    split
    · rename_i h1; simp only [if_pos h1] at h
      exact decodeLiteral_ext _ _ _ _ h
    rename_i h1; simp only [if_neg h1] at h
    split
    · rename_i h1; simp only [if_pos h1] at h
      exact decodeLiteral_ext _ _ _ _ h
    rename_i h1; simp only [if_neg h1] at h
    split
    · rename_i h1; simp only [if_pos h1] at h
      unfold decodeString at h ⊢
      simp only [List.tail_cons] at h ⊢
      exact decodeStringLoop_ext _ _ (Nat.le_refl _) _ _ _ (by simp only [List.length_cons] at h; omega)
    rename_i h1; simp only [if_neg h1] at h
    split
    · rename_i h1; simp only [if_pos h1] at h
      match tail with
      | [] => simp [failure] at h
      | d :: tail =>
        simp only [List.cons_append] at h ⊢
        split
        · rename_i h1; simp only [if_pos h1] at h
          exact decodeLiteral_ext _ _ _ _ h
        · rename_i h1; simp only [if_neg h1] at h
          exact decodeNumber_ext _ _ h
    · rename_i h1; simp only [if_neg h1] at h
      exact decodeNumber_ext _ _ h

/-- The decoder consumes at least one character and does not read past the end of the content. -/
theorem decodeValue_bounds (rest : PyStr) (h : rest ≠ []) :
    1 ≤ (decodeValue t rest).numRead ∧ (decodeValue t rest).numRead ≤ rest.length := by
  have hlit : ∀ text v, text ≠ [] → 1 ≤ (decodeLiteral rest text v).numRead ∧ (decodeLiteral rest text v).numRead ≤ rest.length := by
    intro text v ht
    have h1 := List.length_pos_of_ne_nil h
    have h2 := List.length_pos_of_ne_nil ht
    unfold decodeLiteral
    repeat' split
    all_goals (simp only [failure, success]; omega)
  have hnum : 1 ≤ (decodeNumber t rest).numRead ∧ (decodeNumber t rest).numRead ≤ rest.length := by
    have h1 := List.length_pos_of_ne_nil h
    have := extractNumber_le (t := t) rest
    rw [decodeNumber_numRead]
    split <;> omega
  rw [decodeValue.eq_def]
  match rest with
  | [] => exact absurd rfl h
  | c :: tail =>
    simp only
    split
    · exact hlit _ _ (by simp)
    split
    · exact hlit _ _ (by simp)
    split
    · exact hlit _ _ (by simp)
    split
    · exact hlit _ _ (by simp)
    split
    · exact hlit _ _ (by simp)
    split
    · unfold decodeString
      have h1 := decodeStringLoop_ge _ tail (Nat.le_refl _) 1 []
      have h2 := decodeStringLoop_le _ tail (Nat.le_refl _) 1 []
      simp only [List.tail_cons, List.length_cons]; omega
    split
    · match tail with
      | [] => simp [failure]
      | d :: tail =>
        simp only
        split
        · exact hlit _ _ (by simp)
        · exact hnum
    · exact hnum

end Zserio.Json
