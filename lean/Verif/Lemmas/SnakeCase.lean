import Verif.Spec.Names
import Verif.Model.SymbolConverter
/-
The conversions of names are the ones of the specification.
-/
set_option linter.unusedSimpArgs false
namespace Zserio.Names

theorem isLower_iff {c : Nat} : isLower c = true ↔ LowerCase c := by simp [isLower, LowerCase]
theorem isUpper_iff {c : Nat} : isUpper c = true ↔ UpperCase c := by simp [isUpper, UpperCase]
theorem isDigit_iff {c : Nat} : isDigit c = true ↔ Digit c := by simp [isDigit, Digit]

/-- `camelCase1` with the preceding character as context -/
def sep1 : Nat → PyStr → PyStr
  | _, [] => []
  | p, c :: rest => if LowerCase p ∧ UpperCase c then ch! '_' :: c :: sep1 c rest else c :: sep1 c rest

/-- `camelCase2` with the preceding character as context -/
def sep2 : Nat → PyStr → PyStr
  | _, [] => []
  | p, c :: rest =>
    if (Digit p ∨ UpperCase p) ∧ UpperCase c ∧ (∃ n, rest.head? = some n ∧ LowerCase n) then
      ch! '_' :: c :: sep2 c rest
    else c :: sep2 c rest

theorem sep1_skip {p c : Nat} {rest : PyStr} (h : ¬(LowerCase p ∧ UpperCase c)) :
    sep1 p (c :: rest) = c :: sep1 c rest := by simp only [sep1, if_neg h]

theorem sep2_skip {p c : Nat} {rest : PyStr}
    (h : ¬((Digit p ∨ UpperCase p) ∧ UpperCase c ∧ (∃ n, rest.head? = some n ∧ LowerCase n))) :
    sep2 p (c :: rest) = c :: sep2 c rest := by simp only [sep2, if_neg h]

theorem camelCase1_cons (n : Nat) : ∀ (s : PyStr), s.length ≤ n → ∀ a, camelCase1 (a :: s) = a :: sep1 a s := by
  induction n with
  | zero => intro s hs a; simp at hs; subst hs; simp [camelCase1, sep1]
  | succ n ih =>
    intro s hs a
    match s with
    | [] => simp [camelCase1, sep1]
    | b :: rest =>
      simp at hs
      rw [camelCase1]
      by_cases h : LowerCase a ∧ UpperCase b
      · rw [if_pos (by rw [Bool.and_eq_true, isLower_iff, isUpper_iff]; exact h)]
        simp only [sep1, if_pos h]
        match rest with
        | [] => simp [camelCase1, sep1]
        | c :: r =>
          simp at hs
          rw [ih r (by omega) c, sep1_skip (by simp only [LowerCase, UpperCase] at h ⊢; omega)]
      · rw [if_neg (by simpa [isLower_iff, isUpper_iff] using h), ih rest (by omega) b, sep1_skip h]

theorem camelCase2_cons (n : Nat) : ∀ (s : PyStr), s.length ≤ n → ∀ a, camelCase2 (a :: s) = a :: sep2 a s := by
  induction n with
  | zero => intro s hs a; simp at hs; subst hs; simp [camelCase2, sep2]
  | succ n ih =>
    intro s hs a
    match s with
    | [] => simp [camelCase2, sep2]
    | [b] => simp [camelCase2, sep2]
    | b :: c :: rest =>
      simp at hs
      rw [camelCase2]
      by_cases h : (Digit a ∨ UpperCase a) ∧ UpperCase b ∧ LowerCase c
      · rw [if_pos (by
            rw [Bool.and_eq_true, Bool.and_eq_true, Bool.or_eq_true, isLower_iff, isUpper_iff, isUpper_iff, isDigit_iff,
              and_assoc]
            exact h)]
        have hc : ¬ UpperCase c := by have := h.2.2; simp only [LowerCase, UpperCase] at this ⊢; omega
        simp only [sep2]
        rw [if_pos ⟨h.1, h.2.1, c, rfl, h.2.2⟩, if_neg (by simp [hc])]
        match rest with
        | [] => simp [camelCase2, sep2]
        | d :: r =>
          simp at hs
          rw [ih r (by omega) d, sep2_skip ?_]
          have := h.2.2
          simp only [LowerCase, UpperCase, Digit] at this ⊢
          omega
      · rw [if_neg (by
            rw [Bool.and_eq_true, Bool.and_eq_true, Bool.or_eq_true, isLower_iff, isUpper_iff, isUpper_iff, isDigit_iff,
              and_assoc]
            exact h), ih (c :: rest) (by simp; omega) b, sep2_skip (p := a)]
        rintro ⟨h1, h2, n, hn, h3⟩
        simp at hn
        exact h ⟨h1, h2, hn ▸ h3⟩

theorem sep1_head {p : Nat} {s : PyStr} (h : UpperCase p) : (sep1 p s).head? = s.head? := by
  cases s with
  | nil => rfl
  | cons c r => rw [sep1_skip (by simp only [LowerCase, UpperCase] at h ⊢; omega)]; rfl

theorem sep2_sep1 (s : PyStr) : ∀ a, sep2 a (sep1 a s) = separated (some a) s := by
  induction s with
  | nil => intro a; rfl
  | cons b r ih =>
    intro a
    by_cases h : LowerCase a ∧ UpperCase b
    · simp only [sep1, if_pos h]
      rw [sep2_skip (by simp only [UpperCase]; omega), sep2_skip (by simp only [UpperCase, Digit]; omega), ih b]
      simp only [separated]
      rw [if_pos ⟨h.2, Or.inl h.1⟩]
    · rw [sep1_skip h]
      by_cases h2 : (Digit a ∨ UpperCase a) ∧ UpperCase b ∧ (∃ n, r.head? = some n ∧ LowerCase n)
      · simp only [sep2]
        rw [if_pos (by rw [sep1_head h2.2.1]; exact h2), ih b]
        simp only [separated]
        rw [if_pos ⟨h2.2.1, Or.inr ⟨h2.1.symm, h2.2.2⟩⟩]
      · rw [sep2_skip, ih b]
        · simp only [separated]
          rw [if_neg]
          rintro ⟨h3, h4 | ⟨h4, h5⟩⟩
          · exact h ⟨h4, h3⟩
          · exact h2 ⟨h4.symm, h3, h5⟩
        · rintro ⟨h3, h4, h5⟩
          rw [sep1_head h4] at h5
          exact h2 ⟨h3, h4, h5⟩

theorem insertUnderscores_eq (s : PyStr) : insertUnderscores s = separated none s := by
  unfold insertUnderscores
  cases s with
  | nil => rfl
  | cons a r =>
    rw [camelCase1_cons _ r (Nat.le_refl _) a, camelCase2_cons _ _ (Nat.le_refl _) a, sep2_sep1]
    rfl

theorem lowerChar_eq : lowerChar = lowerCaseOf := by
  funext c; unfold lowerChar lowerCaseOf
  by_cases h : UpperCase c
  · rw [if_pos h, if_pos (isUpper_iff.2 h)]
  · rw [if_neg h, if_neg (by rw [isUpper_iff]; exact h)]

theorem upperChar_eq : upperChar = upperCaseOf := by
  funext c; unfold upperChar upperCaseOf
  by_cases h : LowerCase c
  · rw [if_pos h, if_pos (isLower_iff.2 h)]
  · rw [if_neg h, if_neg (by rw [isLower_iff]; exact h)]

theorem lowerCaseOf_not_upper (c : Nat) : ¬ UpperCase (lowerCaseOf c) := by
  unfold lowerCaseOf; split <;> simp only [UpperCase] at * <;> omega

theorem upperCaseOf_not_lower (c : Nat) : ¬ LowerCase (upperCaseOf c) := by
  unfold upperCaseOf; split <;> simp only [LowerCase] at * <;> omega

theorem separated_no_upper (s : PyStr) (h : ∀ c ∈ s, ¬ UpperCase c) : ∀ p, separated p s = s := by
  induction s with
  | nil => intro p; cases p <;> rfl
  | cons b r ih =>
    intro p
    have hb := h b (by simp)
    have hr := ih (fun c hc => h c (by simp [hc]))
    cases p with
    | none => simp only [separated, hr]
    | some p => simp only [separated, hr]; rw [if_neg (fun hw => hb hw.1)]

theorem separated_no_lower (s : PyStr) (h : ∀ c ∈ s, ¬ LowerCase c) :
    ∀ p, (∀ x, p = some x → ¬ LowerCase x) → separated p s = s := by
  induction s with
  | nil => intro p _; cases p <;> rfl
  | cons b r ih =>
    intro p hp
    have hb := h b (by simp)
    have hr := ih (fun c hc => h c (by simp [hc])) (some b) (by intro x hx; simp at hx; subst hx; exact hb)
    cases p with
    | none => simp only [separated, hr]
    | some p =>
      simp only [separated, hr]
      rw [if_neg]
      rintro ⟨_, h2 | ⟨_, n, hn, h3⟩⟩
      · exact hp p rfl h2
      · cases r with
        | nil => simp at hn
        | cons d r => simp at hn; exact h d (by simp) (hn ▸ h3)

theorem lowerCaseOf_id {c : Nat} (h : ¬ UpperCase c) : lowerCaseOf c = c := by simp only [lowerCaseOf, if_neg h]
theorem upperCaseOf_id {c : Nat} (h : ¬ LowerCase c) : upperCaseOf c = c := by simp only [upperCaseOf, if_neg h]

theorem map_id_of {f : Nat → Nat} {s : PyStr} (h : ∀ c ∈ s, f c = c) : s.map f = s := by
  rw [List.map_congr_left h]; simp

theorem toLowerSnakeCase_eq (s : PyStr) : toLowerSnakeCase s = lowerSnake s := by
  unfold toLowerSnakeCase toLower lowerSnake
  rw [insertUnderscores_eq, lowerChar_eq]
  split
  · rename_i h
    have hu : ∀ c ∈ s, ¬ UpperCase c := by
      intro c hc; rw [h] at hc; rw [List.mem_map] at hc; obtain ⟨d, _, rfl⟩ := hc; exact lowerCaseOf_not_upper d
    rw [separated_no_upper s hu, map_id_of (fun c hc => lowerCaseOf_id (hu c hc))]
  · rfl

theorem toUpperSnakeCase_eq (s : PyStr) : toUpperSnakeCase s = upperSnake s := by
  unfold toUpperSnakeCase toUpper upperSnake
  rw [insertUnderscores_eq, upperChar_eq]
  split
  · rename_i h
    have hu : ∀ c ∈ s, ¬ LowerCase c := by
      intro c hc; rw [h] at hc; rw [List.mem_map] at hc; obtain ⟨d, _, rfl⟩ := hc; exact upperCaseOf_not_lower d
    rw [separated_no_lower s hu none (by simp), map_id_of (fun c hc => upperCaseOf_id (hu c hc))]
  · rfl

theorem lowerCaseOf_upperCaseOf (c : Nat) : lowerCaseOf (upperCaseOf c) = lowerCaseOf c := by
  simp only [lowerCaseOf, upperCaseOf, UpperCase, LowerCase]; repeat' split
  all_goals omega

theorem upperCaseOf_lowerCaseOf (c : Nat) : upperCaseOf (lowerCaseOf c) = upperCaseOf c := by
  simp only [lowerCaseOf, upperCaseOf, UpperCase, LowerCase]; repeat' split
  all_goals omega

/-- the two conversions identify the same names -/
theorem lowerSnake_eq_iff (s t : PyStr) : lowerSnake s = lowerSnake t ↔ upperSnake s = upperSnake t := by
  unfold lowerSnake upperSnake
  constructor
  · intro h
    have := congrArg (List.map upperCaseOf) h
    simpa [List.map_map, Function.comp_def, upperCaseOf_lowerCaseOf] using this
  · intro h
    have := congrArg (List.map lowerCaseOf) h
    simpa [List.map_map, Function.comp_def, lowerCaseOf_upperCaseOf] using this

theorem lowerSnake_no_upper (s : PyStr) : ∀ c ∈ lowerSnake s, ¬ UpperCase c := by
  intro c hc; unfold lowerSnake at hc; rw [List.mem_map] at hc; obtain ⟨d, _, rfl⟩ := hc; exact lowerCaseOf_not_upper d

theorem upperSnake_no_lower (s : PyStr) : ∀ c ∈ upperSnake s, ¬ LowerCase c := by
  intro c hc; unfold upperSnake at hc; rw [List.mem_map] at hc; obtain ⟨d, _, rfl⟩ := hc; exact upperCaseOf_not_lower d

theorem lowerSnake_of_no_upper {s : PyStr} (h : ∀ c ∈ s, ¬ UpperCase c) : lowerSnake s = s := by
  unfold lowerSnake
  rw [separated_no_upper s h, map_id_of (fun c hc => lowerCaseOf_id (h c hc))]

theorem upperSnake_of_no_lower {s : PyStr} (h : ∀ c ∈ s, ¬ LowerCase c) : upperSnake s = s := by
  unfold upperSnake
  rw [separated_no_lower s h none (by simp), map_id_of (fun c hc => upperCaseOf_id (h c hc))]

/-- the lower snake case of the upper snake case: modules of constants -/
theorem lowerSnake_upperSnake (s : PyStr) : lowerSnake (upperSnake s) = lowerSnake s := by
  have h := upperSnake_no_lower s
  have : separated none (upperSnake s) = upperSnake s := separated_no_lower _ h none (by simp)
  unfold lowerSnake
  rw [this]
  unfold upperSnake
  simp [List.map_map, Function.comp_def, lowerCaseOf_upperCaseOf]

theorem lowerSnake_lowerSnake (s : PyStr) : lowerSnake (lowerSnake s) = lowerSnake s :=
  lowerSnake_of_no_upper (lowerSnake_no_upper s)

theorem mem_separated {c : Nat} : ∀ {s : PyStr} {p : Option Nat}, c ∈ separated p s → c ∈ s ∨ c = ch! '_' := by
  intro s
  induction s with
  | nil => intro p h; cases p <;> simp [separated] at h
  | cons b r ih =>
    intro p h
    cases p with
    | none =>
      simp only [separated, List.mem_cons] at h ⊢
      rcases h with h | h
      · exact Or.inl (Or.inl h)
      · rcases ih h with h | h <;> simp [h]
    | some p =>
      simp only [separated] at h
      split at h <;> simp only [List.mem_cons] at h ⊢
      · rcases h with h | h | h
        · exact Or.inr h
        · simp [h]
        · rcases ih h with h | h <;> simp [h]
      · rcases h with h | h
        · simp [h]
        · rcases ih h with h | h <;> simp [h]

theorem IdStart.lower {c : Nat} (h : IdStart c) : IdStart (lowerCaseOf c) := by
  simp only [IdStart, LowerCase, UpperCase, lowerCaseOf] at *; split <;> omega

theorem IdPart.lower {c : Nat} (h : IdPart c) : IdPart (lowerCaseOf c) := by
  simp only [IdPart, IdStart, LowerCase, UpperCase, Digit, lowerCaseOf] at *; split <;> omega

theorem IdStart.upper {c : Nat} (h : IdStart c) : IdStart (upperCaseOf c) := by
  simp only [IdStart, LowerCase, UpperCase, upperCaseOf] at *; split <;> omega

theorem IdPart.upper {c : Nat} (h : IdPart c) : IdPart (upperCaseOf c) := by
  simp only [IdPart, IdStart, LowerCase, UpperCase, Digit, upperCaseOf] at *; split <;> omega

theorem identifier_lowerSnake {s : PyStr} (h : IsIdentifier s) : IsIdentifier (lowerSnake s) := by
  cases s with
  | nil => exact h.elim
  | cons a r =>
    refine ⟨h.1.lower, ?_⟩
    intro x hx
    rw [List.mem_map] at hx
    obtain ⟨d, hd, rfl⟩ := hx
    rcases mem_separated hd with hd | rfl
    · exact (h.2 d hd).lower
    · simp only [IdPart, IdStart, LowerCase, UpperCase, Digit, lowerCaseOf]; decide

theorem identifier_upperSnake {s : PyStr} (h : IsIdentifier s) : IsIdentifier (upperSnake s) := by
  cases s with
  | nil => exact h.elim
  | cons a r =>
    refine ⟨h.1.upper, ?_⟩
    intro x hx
    rw [List.mem_map] at hx
    obtain ⟨d, hd, rfl⟩ := hx
    rcases mem_separated hd with hd | rfl
    · exact (h.2 d hd).upper
    · simp only [IdPart, IdStart, LowerCase, UpperCase, Digit, upperCaseOf]; decide

end Zserio.Names
