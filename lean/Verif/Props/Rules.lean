import Verif.Spec.Rules
/-
C104: identifiers of rules.
-/
namespace Zserio.Rules
open Json

theorem isLetter_iff {c : Nat} : isLetter c = true ↔ Letter c := by
  simp only [isLetter, Letter, Bool.or_eq_true, Bool.and_eq_true, decide_eq_true_eq]

theorem isIdChar_iff {c : Nat} : isIdChar c = true ↔ Letter c ∨ (48 ≤ c ∧ c ≤ 57) ∨ c ∈ [95, 45, 58, 46] := by
  simp only [isIdChar, Bool.or_eq_true, isLetter_iff, Bool.and_eq_true, decide_eq_true_eq, List.mem_cons, List.not_mem_nil, or_false]
  constructor
  · rintro (((((h | h) | h) | h) | h) | h)
    · exact Or.inl h
    · exact Or.inr (Or.inl h)
    · exact Or.inr (Or.inr (Or.inl h))
    · exact Or.inr (Or.inr (Or.inr (Or.inr (Or.inl h))))
    · exact Or.inr (Or.inr (Or.inr (Or.inr (Or.inr h))))
    · exact Or.inr (Or.inr (Or.inr (Or.inl h)))
  · rintro (h | h | h | h | h | h)
    · exact Or.inl (Or.inl (Or.inl (Or.inl (Or.inl h))))
    · exact Or.inl (Or.inl (Or.inl (Or.inl (Or.inr h))))
    · exact Or.inl (Or.inl (Or.inl (Or.inr h)))
    · exact Or.inr h
    · exact Or.inl (Or.inl (Or.inr h))
    · exact Or.inl (Or.inr h)

/-- **C104**: the identifiers which are accepted are those of the language guide: a letter, then letters, digits, `_`, `-`, `:` and `.`. -/
theorem C104_form (s : PyStr) : validId s = true ↔ IsRuleId s := by
  cases s with
  | nil => simp [validId, IsRuleId]
  | cons c cs =>
    simp only [validId, Bool.and_eq_true, isLetter_iff, List.all_eq_true, isIdChar_iff, IsRuleId, List.head?_cons, Option.some.injEq,
      exists_eq_left', List.mem_cons]
    constructor
    · rintro ⟨h, h'⟩
      refine ⟨h, fun d hd => ?_⟩
      rcases hd with rfl | hd
      · exact Or.inl h
      · simpa using h' d hd
    · rintro ⟨h, h'⟩
      exact ⟨h, fun d hd => by simpa using h' d (Or.inr hd)⟩

/-- `Main:rule-01.b` is an identifier; `1a` and `a b` are none -/
example : validId (py! "Main:rule-01.b") = true ∧ validId (py! "1a") = false ∧ validId (py! "a b") = false := by decide

theorem lowerChar_iff {a b : Nat} : lowerChar a = lowerChar b ↔ SameLetter a b := by
  show (if (decide (65 ≤ a) && decide (a ≤ 90)) = true then a + 32 else a) = (if (decide (65 ≤ b) && decide (b ≤ 90)) = true then b + 32 else b) ↔ _
  simp only [Bool.and_eq_true, decide_eq_true_eq, SameLetter]
  split <;> split <;> omega

theorem lower_iff : ∀ {s t : PyStr}, lower s = lower t ↔ SameId s t
  | [], [] => by simp [lower, SameId]
  | [], _ :: _ => ⟨fun h => by simp [lower] at h, fun h => by cases h⟩
  | _ :: _, [] => ⟨fun h => by simp [lower] at h, fun h => by cases h⟩
  | a :: s, b :: t => by
    have ih := @lower_iff s t
    simp only [lower, SameId, List.map_cons, List.cons.injEq, List.forall₂_cons] at ih ⊢
    rw [ih, lowerChar_iff]

theorem checkUnique_iff : ∀ {ids seen : List PyStr},
    checkUnique seen ids = .ok () ↔ (∀ s ∈ ids, lower s ∉ seen) ∧ Unique ids
  | [], seen => by simp [checkUnique, Unique]
  | id :: ids, seen => by
    rw [checkUnique]
    have ih := @checkUnique_iff ids (lower id :: seen)
    by_cases h : seen.contains (lower id) = true
    · rw [if_pos h]
      have : lower id ∈ seen := by simpa using h
      simp [this]
    · rw [if_neg h, ih]
      have hn : lower id ∉ seen := by simpa using h
      simp only [List.mem_cons, not_or, Unique, List.pairwise_cons, forall_eq_or_imp]
      constructor
      · rintro ⟨h₁, h₂⟩
        refine ⟨⟨hn, fun s hs => (h₁ s hs).2⟩, fun s hs hse => (h₁ s hs).1 (lower_iff.2 hse).symm, h₂⟩
      · rintro ⟨⟨_, h₁⟩, h₂, h₃⟩
        exact ⟨fun s hs => ⟨fun he => h₂ s hs (lower_iff.1 he.symm), h₁ s hs⟩, h₃⟩

theorem evaluateAll_iff : ∀ {rs : List (Option PyStr)} {ids : List PyStr},
    evaluateAll rs = .ok ids ↔ rs = ids.map some ∧ ∀ s ∈ ids, IsRuleId s
  | [], ids => by
    cases ids <;> simp [evaluateAll]
  | r :: rs, ids => by
    rw [evaluateAll]
    cases r with
    | none => cases ids <;> simp [evaluate]
    | some id =>
      by_cases hv : validId id = true
      · simp only [evaluate, hv, if_true]
        cases hr : evaluateAll rs with
        | error e =>
          simp only [reduceCtorEq, false_iff, not_and]
          intro he hs
          cases ids with
          | nil => cases he
          | cons i ids =>
            simp only [List.map_cons, List.cons.injEq] at he
            have := (@evaluateAll_iff rs ids).2 ⟨he.2, fun s hs' => hs s (by simp [hs'])⟩
            rw [hr] at this
            cases this
        | ok rest =>
          obtain ⟨h₁, h₂⟩ := evaluateAll_iff.1 hr
          simp only [Except.ok.injEq]
          constructor
          · rintro rfl
            refine ⟨by simp [h₁], ?_⟩
            intro s hs
            rcases List.mem_cons.1 hs with rfl | hs
            · exact (C104_form _).1 hv
            · exact h₂ s hs
          · rintro ⟨he, _⟩
            cases ids with
            | nil => cases he
            | cons i ids =>
              simp only [List.map_cons, List.cons.injEq, Option.some.injEq] at he
              obtain ⟨rfl, he⟩ := he
              rw [h₁] at he
              rw [(List.map_inj_right (fun _ _ h => Option.some.inj h)).1 he]
      · simp only [evaluate, hv, if_false, reduceCtorEq, false_iff, not_and, Bool.false_eq_true]
        intro he hs
        cases ids with
        | nil => cases he
        | cons i ids =>
          simp only [List.map_cons, List.cons.injEq, Option.some.injEq] at he
          exact hv ((C104_form _).2 (he.1 ▸ hs i (by simp)))

theorem evaluatePackages_iff : ∀ {ps : List Package} {ids : List (List PyStr)},
    evaluatePackages ps = .ok ids ↔ List.Forall₂ Package.HasIds ps ids
  | [], [] => by simp [evaluatePackages]
  | [], _ :: _ => ⟨fun h => by simp [evaluatePackages] at h, fun h => by cases h⟩
  | p :: ps, ids => by
    rw [evaluatePackages]
    have hp : ∀ ids, evaluateAll p.rules = .ok ids ↔ p.HasIds ids := by
      intro ids
      rw [evaluateAll_iff, show p.rules = p.groups.flatten by simp [Package.rules, List.flatMap]]
      rfl
    cases hr : evaluateAll p.rules with
    | error e =>
      simp only [reduceCtorEq, false_iff]
      intro h
      cases h with
      | cons h _ =>
        rw [(hp _).2 h] at hr
        cases hr
    | ok is =>
      cases hq : evaluatePackages ps with
      | error e =>
        simp only [reduceCtorEq, false_iff]
        intro h
        cases h with
        | cons _ h =>
          rw [evaluatePackages_iff.2 h] at hq
          cases hq
      | ok rest =>
        simp only [Except.ok.injEq]
        constructor
        · rintro rfl
          exact .cons ((hp _).1 hr) (evaluatePackages_iff.1 hq)
        · intro h
          cases h with
          | cons h h' =>
            rw [(hp _).2 h] at hr
            rw [evaluatePackages_iff.2 h'] at hq
            cases hr
            cases hq
            rfl

theorem checkPackages_iff : ∀ {ids : List (List PyStr)}, checkPackages ids = .ok () ↔ ∀ l ∈ ids, Unique l
  | [] => by simp [checkPackages]
  | l :: ids => by
    rw [checkPackages]
    have hu := @checkUnique_iff l []
    simp only [List.not_mem_nil, not_false_eq_true, implies_true, true_and] at hu
    cases hc : checkUnique [] l with
    | error e =>
      rw [hc] at hu
      simp only [reduceCtorEq, false_iff] at hu
      simp [hu]
    | ok u =>
      rw [hc] at hu
      simp only [true_iff] at hu
      simp [checkPackages_iff, hu]

/-- **C104**: a schema is accepted exactly if the identifiers of all rules are constants of the right form, and no two rules of the same package
have identifiers which differ at most in capital letters; with -withGlobalRuleIdCheck, no two rules at all. -/
theorem C104_accepted (global : Bool) (packages : List Package) : check global packages = .ok () ↔
    ∃ ids : List (List PyStr), List.Forall₂ Package.HasIds packages ids ∧ (∀ l ∈ ids, Unique l) ∧ (global = true → Unique ids.flatten) := by
  unfold check
  cases he : evaluatePackages packages with
  | error e =>
    simp only [reduceCtorEq, false_iff, not_exists, not_and]
    intro ids h
    rw [evaluatePackages_iff.2 h] at he
    cases he
  | ok ids =>
    have huniq : ∀ ids', List.Forall₂ Package.HasIds packages ids' ↔ ids' = ids := by
      intro ids'
      rw [← evaluatePackages_iff, he]
      simp only [Except.ok.injEq]
      exact eq_comm
    simp only [huniq, exists_eq_left]
    rw [← checkPackages_iff]
    cases hc : checkPackages ids with
    | error e => simp
    | ok u =>
      cases global with
      | false => simp
      | true =>
        have hu := @checkUnique_iff ids.flatten []
        simp only [List.not_mem_nil, not_false_eq_true, implies_true, true_and] at hu
        simp [hu]

/-- **C104**: with the option the rules of all packages are unique, as the language guide demands. -/
theorem C104_global (packages : List Package) (ids : List (List PyStr)) (h : List.Forall₂ Package.HasIds packages ids)
    (hc : check true packages = .ok ()) : Unique ids.flatten := by
  obtain ⟨ids', h', _, hu⟩ := (C104_accepted true packages).1 hc
  have := evaluatePackages_iff.2 h
  rw [evaluatePackages_iff.2 h'] at this
  cases this
  exact hu rfl

/-- **C104**: the order of rules, groups and packages does not matter for this. -/
theorem C104_order (ids ids' : List PyStr) (hp : ids.Perm ids') : Unique ids ↔ Unique ids' := by
  have hsymm : ∀ {s t : PyStr}, ¬ SameId s t → ¬ SameId t s := fun h h' => h (lower_iff.1 (lower_iff.2 h').symm)
  exact hp.pairwise_iff hsymm

/-- **C104**: identifiers which differ in capital letters only are the same, and this is an equivalence. -/
theorem C104_same : Equivalence SameId where
  refl s := lower_iff.1 rfl
  symm h := lower_iff.1 (lower_iff.2 h).symm
  trans h h' := lower_iff.1 ((lower_iff.2 h).trans (lower_iff.2 h'))

/-- a package with the rules `rule-01` and `rule-02`, and another with `Rule-01` -/
def demo : List Package := [⟨[[some (py! "rule-01"), some (py! "rule-02")], [some (py! "x:y")]]⟩, ⟨[[some (py! "Rule-01")]]⟩]

/-- **C104 (deviation)**: without the option the same identifier can be used in two packages, although the language guide demands that
identifiers are unique in all packages.  With the option the schema is refused. -/
theorem C104_packages_deviates : check false demo = .ok () ∧ check true demo = .error (.notUnique (py! "Rule-01")) ∧
    SameId (py! "rule-01") (py! "Rule-01") := by
  refine ⟨by decide +kernel, by decide +kernel, lower_iff.1 (by decide +kernel)⟩

/-- other schemas are accepted with the option, and a repeated identifier in one package is refused without it -/
example : check true [⟨[[some (py! "rule-01"), some (py! "rule-02")]]⟩, ⟨[[some (py! "rule-03")]]⟩] = .ok () ∧
    check false [⟨[[some (py! "rule-01")], [some (py! "RULE-01")]]⟩] = .error (.notUnique (py! "RULE-01")) := by
  constructor <;> decide +kernel

end Zserio.Rules
