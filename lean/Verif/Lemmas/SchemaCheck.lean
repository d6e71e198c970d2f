import Verif.Model.SchemaCheck
import Verif.Spec.SchemaCheck
import Mathlib.Data.Finset.Card
import Mathlib.Data.Finset.Filter
import Mathlib.Data.List.Dedup
import Mathlib.Data.Finset.Dedup
set_option linter.unusedSimpArgs false
/-
Lemmas on the structural checks of the compiler.
-/
namespace Zserio.SchemaCheck

/-! ### Loops -/

theorem andThen_ok {a b : Outcome Unit} : andThen a b = some (.ok ()) ↔ a = some (.ok ()) ∧ b = some (.ok ()) := by
  unfold andThen
  split <;> simp

theorem forAll_ok {α : Type} {check : α → Outcome Unit} {xs : List α} :
    forAll check xs = some (.ok ()) ↔ ∀ x ∈ xs, check x = some (.ok ()) := by
  induction xs with
  | nil => simp [forAll]
  | cons x xs ih => simp [forAll, andThen_ok, ih]

theorem anyOf_false {α : Type} {p : α → Option Bool} {xs : List α} :
    anyOf p xs = some false ↔ ∀ x ∈ xs, p x = some false := by
  induction xs with
  | nil => simp [anyOf]
  | cons x xs ih =>
    unfold anyOf
    cases h : p x with
    | none => simp [h]
    | some b => cases b <;> simp [h, ih]

theorem anyOf_true {α : Type} {p : α → Option Bool} {xs : List α} (h : anyOf p xs = some true) :
    ∃ x ∈ xs, p x = some true := by
  induction xs with
  | nil => simp [anyOf] at h
  | cons x xs ih =>
    unfold anyOf at h
    cases hx : p x with
    | none => simp [hx] at h
    | some b =>
      cases b with
      | true => exact ⟨x, by simp, hx⟩
      | false => simp only [hx] at h; obtain ⟨y, hy, hp⟩ := ih h; exact ⟨y, by simp [hy], hp⟩

theorem anyOf_some {α : Type} {p : α → Option Bool} {xs : List α} (h : ∀ x ∈ xs, ∃ b, p x = some b) :
    ∃ b, anyOf p xs = some b := by
  induction xs with
  | nil => exact ⟨_, rfl⟩
  | cons x xs ih =>
    obtain ⟨b, hb⟩ := h x (by simp)
    unfold anyOf
    rw [hb]
    cases b with
    | true => exact ⟨_, rfl⟩
    | false => exact ih fun y hy => h y (by simp [hy])

theorem allOf_true {α : Type} {p : α → Option Bool} {xs : List α} :
    allOf p xs = some true ↔ ∀ x ∈ xs, p x = some true := by
  induction xs with
  | nil => simp [allOf]
  | cons x xs ih =>
    unfold allOf
    cases h : p x with
    | none => simp [h]
    | some b => cases b <;> simp [h, ih]

theorem allOf_some {α : Type} {p : α → Option Bool} {xs : List α} (h : ∀ x ∈ xs, ∃ b, p x = some b) :
    ∃ b, allOf p xs = some b := by
  induction xs with
  | nil => exact ⟨_, rfl⟩
  | cons x xs ih =>
    obtain ⟨b, hb⟩ := h x (by simp)
    unfold allOf
    rw [hb]
    cases b with
    | false => exact ⟨_, rfl⟩
    | true => exact ih fun y hy => h y (by simp [hy])

/-! ### Fields -/

theorem mem_fieldsOf {d : CompoundDef} {f : FieldDef} : f ∈ fieldsOf d ↔ d.Declares f := by
  constructor
  · intro h
    cases d with
    | struct fs => exact .struct h
    | union fs => exact .union h
    | choice s cases default =>
      simp only [fieldsOf, List.mem_append, List.mem_filterMap] at h
      rcases h with ⟨k, hk, hf⟩ | h
      · exact .case hk hf
      · rcases default with _ | _ | g
        · simp at h
        · simp at h
        · simp only [List.mem_singleton] at h; subst h; exact .default
  · intro h
    cases h with
    | struct h => exact h
    | union h => exact h
    | case h hf => simp only [fieldsOf, List.mem_append, List.mem_filterMap]; exact .inl ⟨_, h, hf⟩
    | default => simp [fieldsOf]

theorem child_some {f : FieldDef} {c : Nat} : child f = some c ↔ ∃ args, f.type = .compound c args := by
  unfold child
  split
  · next id args h => simp only [h, Option.some.injEq, ElemType.compound.injEq]; constructor
                      · rintro rfl; exact ⟨args, rfl, rfl⟩
                      · rintro ⟨_, h, -⟩; exact h
  · next h => simp only [reduceCtorEq, false_iff]; rintro ⟨args, ha⟩; exact h _ _ ha

theorem contains_iff {defs : Schema} {a b : Nat} : defs.Contains a b ↔ ∃ f ∈ fieldsOf (defs a), child f = some b := by
  unfold Schema.Contains
  simp only [child_some, mem_fieldsOf]
  constructor
  · rintro ⟨f, args, h1, h2⟩; exact ⟨f, h1, args, h2⟩
  · rintro ⟨f, h1, args, h2⟩; exact ⟨f, args, h1, h2⟩

/-! ### Recursion -/

theorem direct_ok {defs : Schema} {lower : FieldDef → Option Int} {self : Nat} :
    checkDirectRecursion defs lower self = some (.ok ()) ↔
      ∀ f args, (defs self).Declares f → f.type = .compound self args → f.MayBeLeftOut lower := by
  unfold checkDirectRecursion
  rw [forAll_ok]
  have key : ∀ f : FieldDef, checkFieldDirectRecursion lower self f = some (.ok ()) ↔
      (child f = some self → f.MayBeLeftOut lower) := by
    intro f
    unfold checkFieldDirectRecursion FieldDef.MayBeLeftOut isOptional lengthMayBeZero
    rcases ho : f.optional with _ | _ | e
    · simp only [Bool.false_eq_true, if_false, ne_eq, not_true_eq_false, false_or]
      rcases ha : f.array with _ | ⟨_ | _ | e, p⟩
      · simp only [imp_false]; split <;> simp_all
      · simp
      · simp
      · rcases lower f with _ | b
        · simp
        · simp only [decide_eq_true_eq, Option.some.injEq]
          by_cases hb : b ≤ 0
          · simp [hb]
          · simp only [hb, if_false]
            constructor
            · intro h hc; simp [hc] at h
            · intro h; split
              · next hc => exact absurd (h hc b rfl) hb
              · rfl
    · simp
    · simp
  constructor
  · intro h f args hf ht
    exact (key f).mp (h f (mem_fieldsOf.mpr hf)) (child_some.mpr ⟨args, ht⟩)
  · intro h f hf
    refine (key f).mpr fun hc => ?_
    obtain ⟨args, ht⟩ := child_some.mp hc
    exact h f args (mem_fieldsOf.mp hf) ht

/-- what an accepted type contains is accepted, and it is not the type the check started with -/
theorem indirect_step {defs : Schema} {outer n inner c : Nat} (h : checkIndirectRecursion defs outer n inner = some (.ok ()))
    (hc : defs.Contains inner c) :
    (∃ m, checkIndirectRecursion defs outer m c = some (.ok ())) ∧ (outer ≠ inner → outer ≠ c) := by
  cases n with
  | zero => simp [checkIndirectRecursion] at h
  | succ n =>
    have h0 := h
    unfold checkIndirectRecursion at h
    rw [forAll_ok] at h
    obtain ⟨f, hf, hfc⟩ := contains_iff.mp hc
    have h := h f hf
    rw [hfc] at h
    simp only at h
    split at h
    · simp at h
    · next hne =>
      refine ⟨?_, fun h1 h2 => hne ⟨h1, h2⟩⟩
      split at h
      · exact ⟨n, h⟩
      · next he => simp only [ne_eq, not_not] at he; subst he; exact ⟨n + 1, h0⟩

/-- an accepted type is not nested in a type nested in it -/
theorem indirect_sound {defs : Schema} {outer n : Nat} (h : checkIndirectRecursion defs outer n outer = some (.ok ())) {b : Nat}
    (hb : outer ≠ b) (h1 : defs.Nested outer b) : ¬ defs.Nested b outer := by
  have hall : ∀ c, defs.Nested outer c → ∃ m, checkIndirectRecursion defs outer m c = some (.ok ()) := by
    intro c hc
    induction hc with
    | single h2 => exact (indirect_step h h2).1
    | tail _ h2 ih => obtain ⟨m, hm⟩ := ih; exact (indirect_step hm h2).1
  intro h2
  have : ∀ c, defs.Nested c outer → outer ≠ c → (∃ m, checkIndirectRecursion defs outer m c = some (.ok ())) → False := by
    intro c hc
    induction hc using Relation.TransGen.head_induction_on with
    | single h3 => rintro hne ⟨m, hm⟩; exact (indirect_step hm h3).2 hne rfl
    | head h3 _ ih =>
      rintro hne ⟨m, hm⟩
      have := indirect_step hm h3
      exact ih (this.2 hne) this.1
  exact this b h2 hb (hall b h1)

/-! ### Rank -/

/-- the steps of a nesting that lead to another type -/
def Step (defs : Schema) (a b : Nat) : Prop := defs.Contains a b ∧ a ≠ b

theorem Step.nested {defs : Schema} {a b : Nat} (h : Relation.TransGen (Step defs) a b) : defs.Nested a b :=
  Relation.TransGen.mono (fun _ _ h => h.1) _ _ h

theorem step_irrefl {defs : Schema} (h : defs.NoIndirectRecursion) (a : Nat) : ¬ Relation.TransGen (Step defs) a a := by
  intro ha
  rcases (Relation.TransGen.head'_iff.mp ha) with ⟨b, hab, hba⟩
  rcases Relation.reflTransGen_iff_eq_or_transGen.mp hba with he | hba
  · exact hab.2 he
  · exact h a b hab.2 (.single hab.1) (Step.nested hba)

open Classical in
/-- the number of types nested in a type -/
noncomputable def rank (defs : Schema) (types : List Nat) (a : Nat) : Nat :=
  (types.toFinset.filter (fun b => Relation.TransGen (Step defs) a b)).card

theorem rank_le (defs : Schema) (types : List Nat) (a : Nat) : rank defs types a ≤ types.length := by
  classical
  exact (Finset.card_filter_le _ _).trans (List.toFinset_card_le types)

theorem rank_lt {defs : Schema} {types : List Nat} (h : defs.NoIndirectRecursion) {a b : Nat} (hb : b ∈ types)
    (hab : Step defs a b) : rank defs types b < rank defs types a := by
  classical
  unfold rank
  apply Finset.card_lt_card
  rw [Finset.ssubset_iff_of_subset]
  · refine ⟨b, by simp [hb, Relation.TransGen.single hab], ?_⟩
    simp only [Finset.mem_filter, not_and]
    exact fun _ => step_irrefl h b
  · intro c hc
    simp only [Finset.mem_filter] at hc ⊢
    exact ⟨hc.1, .head hab hc.2⟩

theorem complete_child {defs : Schema} {types : List Nat} (hc : defs.Complete types) {a b : Nat} (h : defs.Contains a b) :
    a ∈ types ∧ b ∈ types := by
  by_cases ha : a ∈ types
  · exact ⟨ha, hc.1 a ha b h⟩
  · obtain ⟨f, args, hf, -⟩ := h
    rw [hc.2 a ha] at hf
    cases hf with
    | struct h => simp at h

/-- induction over the types of a schema without indirect recursion -/
theorem type_induct {defs : Schema} {types : List Nat} (hc : defs.Complete types) (h : defs.NoIndirectRecursion) {P : Nat → Prop}
    (step : ∀ a, (∀ b, defs.Contains a b → a ≠ b → P b) → P a) : ∀ a, P a := by
  have : ∀ n a, rank defs types a < n → P a := by
    intro n
    induction n with
    | zero => intro a h; omega
    | succ n ih =>
      intro a ha
      refine step a fun b hb hne => ih b ?_
      have := rank_lt h (complete_child hc hb).2 ⟨hb, hne⟩
      omega
  exact fun a => this _ a (Nat.lt_succ_self _)

/-- enough calls fit on the stack: the check ends, and it finds nothing -/
theorem indirect_complete {defs : Schema} {types : List Nat} (hc : defs.Complete types) (h : defs.NoIndirectRecursion) (outer : Nat) :
    ∀ n inner, rank defs types inner < n → outer = inner ∨ defs.Nested outer inner →
      checkIndirectRecursion defs outer n inner = some (.ok ()) := by
  intro n
  induction n with
  | zero => intro a h; omega
  | succ n ih =>
    intro inner hr hon
    unfold checkIndirectRecursion
    rw [forAll_ok]
    intro f hf
    rcases hcf : child f with _ | c
    · rfl
    · have hcon : defs.Contains inner c := contains_iff.mpr ⟨f, hf, hcf⟩
      simp only
      split
      · next he =>
        obtain ⟨hne, rfl⟩ := he
        rcases hon with hon | hon
        · exact absurd hon hne
        · exact absurd (.single hcon) (h outer inner hne hon)
      · split
        · next hne =>
          refine ih c ?_ (.inr ?_)
          · have := rank_lt h (complete_child hc hcon).2 ⟨hcon, hne⟩
            omega
          · rcases hon with rfl | hon
            · exact .single hcon
            · exact .tail hon hcon
        · rfl

/-! ### Extended fields -/

theorem contains_false {defs : Schema} {n self c : Nat} {f : FieldDef} (h : containsExtendedField defs n self f = some false)
    (hc : child f = some c) : (∀ g ∈ fieldsOf (defs c), g.extended = false) ∧
      (c ≠ self → ∃ m, ∀ g ∈ fieldsOf (defs c), containsExtendedField defs m c g = some false) := by
  cases n with
  | zero => simp [containsExtendedField] at h
  | succ n =>
    unfold containsExtendedField at h
    rw [hc] at h
    simp only [anyOf_false] at h
    have h1 : ∀ g ∈ fieldsOf (defs c), g.extended = false := by
      intro g hg
      have := h g hg
      cases he : g.extended with
      | false => rfl
      | true => simp [he] at this
    refine ⟨h1, fun hne => ⟨n, fun g hg => ?_⟩⟩
    have := h g hg
    simpa [h1 g hg, hne] using this

/-- the fields of an accepted type do not contain extended fields -/
theorem contains_sound {defs : Schema} {n self : Nat}
    (h : ∀ f ∈ fieldsOf (defs self), containsExtendedField defs n self f = some false) :
    ∀ b, defs.Nested self b → ¬ defs.HasExtended b := by
  have main : ∀ b, defs.Nested self b → (∃ m, ∀ g ∈ fieldsOf (defs b), containsExtendedField defs m b g = some false) ∧
      ∀ g ∈ fieldsOf (defs b), g.extended = false := by
    have step : ∀ a b, (∃ m, ∀ g ∈ fieldsOf (defs a), containsExtendedField defs m a g = some false) → defs.Contains a b →
        (∃ m, ∀ g ∈ fieldsOf (defs b), containsExtendedField defs m b g = some false) ∧
        ∀ g ∈ fieldsOf (defs b), g.extended = false := by
      rintro a b ⟨m, hm⟩ hab
      obtain ⟨f, hf, hfb⟩ := contains_iff.mp hab
      have := contains_false (hm f hf) hfb
      refine ⟨?_, this.1⟩
      by_cases hne : b = a
      · subst hne; exact ⟨m, hm⟩
      · exact this.2 hne
    intro b hb
    induction hb with
    | single h2 => exact step _ _ ⟨n, h⟩ h2
    | tail _ h2 ih => exact step _ _ ih.1 h2
  rintro b hb ⟨g, hg, he⟩
  have := (main b hb).2 g (mem_fieldsOf.mpr hg)
  simp [he] at this

/-- enough calls fit on the stack: nothing is found where nothing is -/
theorem contains_complete {defs : Schema} {types : List Nat} (hc : defs.Complete types) (h : defs.NoIndirectRecursion)
    (hx : defs.ExtendedOutside) :
    ∀ n self f, f ∈ fieldsOf (defs self) → rank defs types self < n → containsExtendedField defs n self f = some false := by
  intro n
  induction n with
  | zero => intro _ _ _ h; omega
  | succ n ih =>
    intro self f hf hr
    unfold containsExtendedField
    rcases hcf : child f with _ | c
    · rfl
    · have hcon : defs.Contains self c := contains_iff.mpr ⟨f, hf, hcf⟩
      simp only [anyOf_false]
      intro g hg
      have he : g.extended = false := by
        cases he : g.extended with
        | false => rfl
        | true => exact absurd ⟨g, mem_fieldsOf.mp hg, he⟩ (hx self c (.single hcon))
      simp only [he, Bool.false_eq_true, if_false]
      split
      · next hne =>
        refine ih c g hg ?_
        have := rank_lt h (complete_child hc hcon).2 ⟨hcon, Ne.symm hne⟩
        omega
      · rfl

theorem checkContains_ok {defs : Schema} {n self : Nat} {f : FieldDef} :
    checkContains defs n self f = some (.ok ()) ↔ containsExtendedField defs n self f = some false := by
  unfold checkContains
  rcases containsExtendedField defs n self f with _ | _ | _ <;> simp

/-- after an extended field all are extended -/
def Sorted : Bool → List FieldDef → Prop
  | _, [] => True
  | seen, f :: fs => (seen = true → f.extended = true) ∧ Sorted (seen || f.extended) fs

theorem extendedStruct_ok {defs : Schema} {n self : Nat} {fs : List FieldDef} : ∀ {seen : Bool},
    checkExtendedStruct defs n self seen fs = some (.ok ()) ↔
      (∀ f ∈ fs, containsExtendedField defs n self f = some false) ∧ Sorted seen fs := by
  induction fs with
  | nil => intro seen; simp [checkExtendedStruct, Sorted]
  | cons f fs ih =>
    intro seen
    unfold checkExtendedStruct Sorted
    rw [andThen_ok, checkContains_ok]
    cases seen with
    | false => simp [ih, and_assoc]
    | true =>
      cases hf : f.extended with
      | false => simp [hf]
      | true => simp [hf, ih, and_assoc]

theorem sorted_true {fs : List FieldDef} : Sorted true fs ↔ ∀ f ∈ fs, f.extended = true := by
  induction fs with
  | nil => simp [Sorted]
  | cons f fs ih => simp [Sorted, ih]

theorem sorted_false {fs : List FieldDef} : Sorted false fs ↔
    ∀ (i j : Nat) f g, i < j → fs[i]? = some f → fs[j]? = some g → f.extended = true → g.extended = true := by
  induction fs with
  | nil => simp [Sorted]
  | cons f fs ih =>
    simp only [Sorted, Bool.false_eq_true, false_implies, true_and, Bool.false_or]
    constructor
    · intro h i j a b hij ha hb he
      obtain ⟨j, rfl⟩ : ∃ k, j = k + 1 := ⟨j - 1, by omega⟩
      simp only [List.getElem?_cons_succ] at hb
      cases hf : f.extended with
      | true => rw [hf] at h; exact sorted_true.mp h b (List.mem_of_getElem? hb)
      | false =>
        rw [hf] at h
        cases i with
        | zero => simp only [List.getElem?_cons_zero, Option.some.injEq] at ha; subst ha; simp [hf] at he
        | succ i =>
          simp only [List.getElem?_cons_succ] at ha
          exact ih.mp h i j a b (by omega) ha hb he
    · intro h
      cases hf : f.extended with
      | true =>
        rw [sorted_true]
        intro b hb
        obtain ⟨j, hj⟩ := List.getElem?_of_mem hb
        exact h 0 (j + 1) f b (by omega) rfl (by simpa using hj) hf
      | false =>
        rw [ih]
        intro i j a b hij ha hb he
        exact h (i + 1) (j + 1) a b (by omega) (by simpa using ha) (by simpa using hb) he

theorem checkExtended_ok {defs : Schema} {n self : Nat} :
    checkExtended defs n self = some (.ok ()) ↔
      (∀ f ∈ fieldsOf (defs self), containsExtendedField defs n self f = some false) ∧
      ∀ fs, defs self = .struct fs → Sorted false fs := by
  unfold checkExtended
  split
  · next fs h => rw [extendedStruct_ok, h]; simp [fieldsOf]
  · next h =>
    rw [forAll_ok]
    simp only [checkContains_ok]
    constructor
    · intro hd; exact ⟨hd, fun fs he => absurd he (h fs)⟩
    · exact fun hd => hd.1

/-! ### Implicit arrays -/

theorem emptyBranch_some {field : FieldDef → Option Bool} {d : CompoundDef}
    (h : ∀ f ∈ fieldsOf d, ∃ b, field f = some b) : ∃ b, emptyBranch field d = some b := by
  cases d with
  | struct fs => exact allOf_some h
  | union fs => exact ⟨_, rfl⟩
  | choice s cases default =>
    obtain ⟨b, hb⟩ := anyOf_some (p := caseBranch field) (xs := cases) (by
        intro k hk
        unfold caseBranch
        rcases hf : k.field with _ | f
        · exact ⟨_, rfl⟩
        · exact h f (mem_fieldsOf.mpr (.case hk hf)))
    unfold emptyBranch
    simp only [hb]
    cases b with
    | true => exact ⟨_, rfl⟩
    | false =>
      rcases default with _ | _ | f
      · exact ⟨_, rfl⟩
      · exact ⟨_, rfl⟩
      · obtain ⟨b, hb⟩ := h f (mem_fieldsOf.mpr .default)
        simp only [hb]
        cases b <;> exact ⟨_, rfl⟩

theorem fieldEmptyBranch_some {defs : Schema} {types : List Nat} (hc : defs.Complete types) (h : defs.NoIndirectRecursion)
    (lower : FieldDef → Option Int) (implicit : Bool) :
    ∀ n self f, f ∈ fieldsOf (defs self) → rank defs types self < n →
      ∃ b, fieldEmptyBranch defs lower implicit n self f = some b := by
  intro n
  induction n with
  | zero => intro _ _ _ h; omega
  | succ n ih =>
    intro self f hf hr
    have hcomp : ∃ b, (match child f with
      | none => some false
      | some c => if c ≠ self then emptyBranch (fieldEmptyBranch defs lower implicit n c) (defs c) else some false) = some b := by
      rcases hcf : child f with _ | c
      · exact ⟨_, rfl⟩
      · have hcon : defs.Contains self c := contains_iff.mpr ⟨f, hf, hcf⟩
        simp only
        split
        · next hne =>
          refine emptyBranch_some fun g hg => ih c g hg ?_
          have := rank_lt h (complete_child hc hcon).2 ⟨hcon, Ne.symm hne⟩
          omega
        · exact ⟨_, rfl⟩
    unfold fieldEmptyBranch
    simp only
    split
    · exact ⟨_, rfl⟩
    · exact ⟨_, rfl⟩
    · split
      · exact ⟨_, rfl⟩
      · exact ⟨_, rfl⟩
      · split
        · exact ⟨_, rfl⟩
        · exact hcomp
      · exact hcomp

theorem plainBranch_true {field : FieldDef → Option Bool} {d : CompoundDef}
    (h : ∀ f ∈ fieldsOf d, field f = some true) : plainBranch field d = some true := by
  cases d with
  | struct fs => exact allOf_true.mpr h
  | union fs =>
    cases fs with
    | nil => rfl
    | cons f fs => simp [plainBranch, anyOf, h f (by simp [fieldsOf])]
  | choice s cases default =>
    have hk : ∀ k ∈ cases, caseBranch field k = some true := by
      intro k hk
      unfold caseBranch
      rcases hf : k.field with _ | f
      · rfl
      · exact h f (mem_fieldsOf.mpr (.case hk hf))
    unfold plainBranch
    cases cases with
    | nil =>
      simp only [anyOf]
      rcases default with _ | _ | f
      · rfl
      · rfl
      · simp [h f (mem_fieldsOf.mpr .default)]
    | cons k ks =>
      simp only [anyOf, hk k (by simp)]

/-- without implicit arrays all branches are without implicit arrays -/
theorem fieldPlainBranch_true {defs : Schema} {types : List Nat} (hc : defs.Complete types) (h : defs.NoIndirectRecursion)
    (hi : defs.NoImplicit) (lower : FieldDef → Option Int) :
    ∀ n self f, f ∈ fieldsOf (defs self) → rank defs types self < n → fieldPlainBranch defs lower n self f = some true := by
  intro n
  induction n with
  | zero => intro _ _ _ h; omega
  | succ n ih =>
    intro self f hf hr
    have hcomp : (match child f with
      | none => some true
      | some c => if c ≠ self then plainBranch (fieldPlainBranch defs lower n c) (defs c) else some true) = some true := by
      rcases hcf : child f with _ | c
      · rfl
      · have hcon : defs.Contains self c := contains_iff.mpr ⟨f, hf, hcf⟩
        simp only
        split
        · next hne =>
          refine plainBranch_true fun g hg => ih c g hg ?_
          have := rank_lt h (complete_child hc hcon).2 ⟨hcon, Ne.symm hne⟩
          omega
        · rfl
    unfold fieldPlainBranch
    obtain ⟨b, hb⟩ := fieldEmptyBranch_some hc h lower false (n + 1) self f hf hr
    rw [hb]
    simp only
    cases b with
    | true => rfl
    | false =>
      simp only
      split
      · next p ha => exact absurd ⟨p, ha⟩ (hi self f (mem_fieldsOf.mp hf))
      · rfl
      · split
        · rfl
        · exact hcomp
      · exact hcomp

theorem implicitStruct_ok {defs : Schema} {lower : FieldDef → Option Int} {n self : Nat} {fs : List FieldDef}
    (h : ∀ f ∈ fs, fieldPlainBranch defs lower n self f = some true) :
    checkImplicitStruct defs lower n self false fs = some (.ok ()) := by
  induction fs with
  | nil => rfl
  | cons f fs ih =>
    unfold checkImplicitStruct
    rw [h f (by simp)]
    exact ih fun g hg => h g (by simp [hg])

theorem checkImplicit_ok {defs : Schema} {types : List Nat} (hc : defs.Complete types) (h : defs.NoIndirectRecursion)
    (hi : defs.NoImplicit) (lower : FieldDef → Option Int) (n self : Nat) (hr : rank defs types self < n) :
    checkImplicit defs lower n self = some (.ok ()) := by
  unfold checkImplicit
  split
  · next fs he =>
    exact implicitStruct_ok fun f hf => fieldPlainBranch_true hc h hi lower n self f (by rw [he]; exact hf) hr
  · rfl

/-! ### Syntax -/

theorem fieldSyntax_false {f : FieldDef} : checkFieldSyntax false f = some (.ok ()) ↔ ¬ f.IsImplicit := by
  unfold checkFieldSyntax FieldDef.IsImplicit
  split
  · next p h => simp [h]
  · next h => simp only [true_iff]; rintro ⟨p, hp⟩; exact h p hp

theorem fieldSyntax_ok {allow : Bool} {f : FieldDef} (h : checkFieldSyntax allow f = some (.ok ())) {b : Bool}
    (ha : f.array = some ⟨.implicit, b⟩) : b = false ∧ ∀ o, f.offset = some o → o.indexed = false := by
  unfold checkFieldSyntax at h
  rw [ha] at h
  simp only at h
  split at h
  · simp at h
  · split at h
    · simp at h
    · next hb =>
      refine ⟨by simpa using hb, fun o ho => ?_⟩
      rw [ho] at h
      simp only at h
      split at h
      · simp at h
      · next hi => simpa using hi

theorem onlyInStructures_false {f : FieldDef} : onlyInStructures f = false ↔
    f.extended = false ∧ f.optional = .required ∧ f.alignment = none ∧ f.offset = none := by
  unfold onlyInStructures isOptional
  rcases f.optional with _ | _ | e <;> simp [and_assoc]

theorem syntax_ok {allow : Bool} {d : CompoundDef} : checkSyntax allow d = some (.ok ()) ↔
    ((∀ fs, d ≠ .struct fs) → ∀ f ∈ fieldsOf d, onlyInStructures f = false) ∧
      ∀ f ∈ fieldsOf d, checkFieldSyntax allow f = some (.ok ()) := by
  unfold checkSyntax
  rw [andThen_ok, forAll_ok]
  refine and_congr_left fun _ => ?_
  split
  · next fs => simp
  · next h =>
    constructor
    · intro h1 _ f hf
      split at h1
      · simp at h1
      · next h2 =>
        simp only [List.any_eq_true, not_exists, not_and] at h2
        simpa using h2 f hf
    · intro h1
      have := h1 h
      rw [if_neg]
      simpa using this

theorem checkArray_ok {f : FieldDef} (h : checkArray f = some (.ok ())) {b : Bool} (ha : f.array = some ⟨.implicit, b⟩) :
    f.type.FixedSize := by
  unfold checkArray at h
  rw [ha] at h
  simp only at h
  split at h
  · next n hn =>
    unfold fixedSize at hn
    unfold ElemType.FixedSize
    split at hn
    · next ht => simp only [ht]; split at hn <;> simp_all; omega
    · next ht => simp only [ht]; split at hn <;> simp_all; omega
    · next ht => simp only [ht]; exact ⟨16, rfl, by omega⟩
    · next ht => simp only [ht]; exact ⟨32, rfl, by omega⟩
    · next ht => simp only [ht]; exact ⟨64, rfl, by omega⟩
    · next ht => simp only [ht]; exact ⟨1, rfl, by omega⟩
    · simp at hn
  · simp at h

theorem checkArray_plain {f : FieldDef} (h : ¬ f.IsImplicit) : checkArray f = some (.ok ()) := by
  unfold checkArray
  split
  · next p ha => exact absurd ⟨p, ha⟩ h
  · rfl

/-! ### All -/

/-- what an accepted schema has passed -/
structure Passed (allow : Bool) (defs : Schema) (lower : FieldDef → Option Int) (n a : Nat) : Prop where
  branches : (∀ fs, defs a ≠ .struct fs) → ∀ f ∈ fieldsOf (defs a), onlyInStructures f = false
  fields : ∀ f ∈ fieldsOf (defs a), checkFieldSyntax allow f = some (.ok ())
  arrays : ∀ f ∈ fieldsOf (defs a), checkArray f = some (.ok ())
  direct : checkDirectRecursion defs lower a = some (.ok ())
  indirect : checkIndirectRecursion defs a n a = some (.ok ())
  extended : checkExtended defs n a = some (.ok ())
  implicit : checkImplicit defs lower n a = some (.ok ())

theorem compile_ok {allow : Bool} {defs : Schema} {lower : FieldDef → Option Int} {n : Nat} {types : List Nat} :
    compile allow defs lower n types = some (.ok ()) ↔ ∀ a ∈ types, Passed allow defs lower n a := by
  unfold compile checkType
  simp only [andThen_ok, forAll_ok, syntax_ok]
  constructor
  · rintro ⟨h1, h2⟩ a ha
    exact ⟨(h1 a ha).1, (h1 a ha).2, (h2 a ha).1, (h2 a ha).2.1, (h2 a ha).2.2.1, (h2 a ha).2.2.2.1, (h2 a ha).2.2.2.2⟩
  · intro h
    exact ⟨fun a ha => ⟨(h a ha).1, (h a ha).2⟩, fun a ha => ⟨(h a ha).3, (h a ha).4, (h a ha).5, (h a ha).6, (h a ha).7⟩⟩

theorem declares_mem {defs : Schema} {types : List Nat} (hc : defs.Complete types) {a : Nat} {f : FieldDef}
    (h : (defs a).Declares f) : a ∈ types := by
  by_contra ha
  rw [hc.2 a ha] at h
  cases h with
  | struct h => simp at h

theorem nested_mem {defs : Schema} {types : List Nat} (hc : defs.Complete types) {a b : Nat}
    (h : defs.Nested a b) : a ∈ types := by
  rcases Relation.TransGen.head'_iff.mp h with ⟨c, hac, -⟩
  exact (complete_child hc hac).1

section
variable {allow : Bool} {defs : Schema} {lower : FieldDef → Option Int} {n : Nat} {types : List Nat}
  (hc : defs.Complete types) (h : compile allow defs lower n types = some (.ok ()))
include hc h

theorem compile_indirect : defs.NoIndirectRecursion := fun _ _ hne hab =>
  indirect_sound (compile_ok.mp h _ (nested_mem hc hab)).indirect hne hab

theorem compile_direct : defs.NoDirectRecursion lower := fun a f args hf ht =>
  direct_ok.mp (compile_ok.mp h a (declares_mem hc hf)).direct f args hf ht

theorem compile_extendedOutside : defs.ExtendedOutside := fun _ b hab =>
  contains_sound (checkExtended_ok.mp (compile_ok.mp h _ (nested_mem hc hab)).extended).1 b hab

theorem compile_extendedLast : defs.ExtendedLast := by
  intro a fs he
  by_cases ha : a ∈ types
  · exact sorted_false.mp ((checkExtended_ok.mp (compile_ok.mp h a ha).extended).2 fs he)
  · rw [hc.2 a ha] at he
    simp only [CompoundDef.struct.injEq] at he
    subst he
    simp

theorem compile_branches : defs.PlainBranches := fun a f hf hs =>
  onlyInStructures_false.mp ((compile_ok.mp h a (declares_mem hc hf)).branches hs f (mem_fieldsOf.mpr hf))

end

theorem compile_noImplicit {defs : Schema} {lower : FieldDef → Option Int} {n : Nat} {types : List Nat}
    (hc : defs.Complete types) (h : compile false defs lower n types = some (.ok ())) : defs.NoImplicit := fun a f hf =>
  fieldSyntax_false.mp ((compile_ok.mp h a (declares_mem hc hf)).fields f (mem_fieldsOf.mpr hf))

theorem compile_wellFormed {defs : Schema} {lower : FieldDef → Option Int} {n : Nat} {types : List Nat}
    (hc : defs.Complete types) (h : compile false defs lower n types = some (.ok ())) : defs.WellFormed lower :=
  ⟨compile_indirect hc h, compile_direct hc h, compile_extendedLast hc h, compile_extendedOutside hc h, compile_branches hc h,
    compile_noImplicit hc h⟩

theorem compile_complete {defs : Schema} {lower : FieldDef → Option Int} {n : Nat} {types : List Nat}
    (hc : defs.Complete types) (hn : types.length < n) (h : defs.WellFormed lower) :
    compile false defs lower n types = some (.ok ()) := by
  rw [compile_ok]
  intro a ha
  have hr : rank defs types a < n := (rank_le defs types a).trans_lt hn
  refine ⟨fun hs f hf => ?_, fun f hf => ?_, fun f hf => ?_, ?_, ?_, ?_, ?_⟩
  · exact onlyInStructures_false.mpr (h.branches a f (mem_fieldsOf.mp hf) hs)
  · exact fieldSyntax_false.mpr (h.implicit a f (mem_fieldsOf.mp hf))
  · exact checkArray_plain (h.implicit a f (mem_fieldsOf.mp hf))
  · exact direct_ok.mpr (h.direct a)
  · exact indirect_complete hc h.indirect a n a hr (.inl rfl)
  · exact checkExtended_ok.mpr ⟨fun f hf => contains_complete hc h.indirect h.extendedOutside n a f hf hr,
      fun fs he => sorted_false.mpr (h.extendedLast a fs he)⟩
  · exact checkImplicit_ok hc h.indirect h.implicit lower n a hr

theorem buildable {defs : Schema} {lower : FieldDef → Option Int} {types : List Nat} (hc : defs.Complete types)
    (h1 : defs.NoIndirectRecursion) (h2 : defs.NoDirectRecursion lower) : ∀ a, defs.Buildable lower a := by
  refine type_induct hc h1 fun a ih => .mk fun f hf hl b args ht => ?_
  by_cases hab : a = b
  · subst hab; exact absurd (h2 a f args hf ht) hl
  · exact ih b ⟨f, args, hf, ht⟩ hab

/-! ### Layout -/

theorem numExtended_le (fs : List FieldDef) : numExtended fs ≤ fs.length := List.length_filter_le _ _

theorem numExtended_all {fs : List FieldDef} (h : ∀ f ∈ fs, f.extended = true) : numExtended fs = fs.length := by
  unfold numExtended
  rw [List.filter_eq_self.mpr h]

theorem sorted_base {fs : List FieldDef} (h : Sorted false fs) :
    ∀ (i : Nat) f, fs[i]? = some f → (f.extended = true ↔ Struct.base fs ≤ i) := by
  induction fs with
  | nil => simp
  | cons g fs ih =>
    intro i f hi
    simp only [Sorted, Bool.false_eq_true, false_implies, true_and, Bool.false_or] at h
    have hle := numExtended_le fs
    cases hg : g.extended with
    | true =>
      rw [hg, sorted_true] at h
      have h1 : Struct.base (g :: fs) = 0 := by
        unfold Struct.base
        rw [numExtended_all (by simpa [hg] using h)]
        simp
      have h2 : f.extended = true := by
        cases i with
        | zero => simp only [List.getElem?_cons_zero, Option.some.injEq] at hi; subst hi; exact hg
        | succ i => exact h f (List.mem_of_getElem? (by simpa using hi))
      simp [h1, h2]
    | false =>
      rw [hg] at h
      have h1 : Struct.base (g :: fs) = Struct.base fs + 1 := by
        unfold Struct.base
        have : numExtended (g :: fs) = numExtended fs := by simp [numExtended, hg]
        rw [this, List.length_cons]
        omega
      cases i with
      | zero =>
        simp only [List.getElem?_cons_zero, Option.some.injEq] at hi
        subst hi
        simp [hg, h1]
      | succ i => rw [ih h i f (by simpa using hi), h1]; omega

/-- the field is an implicit array -/
def isImplicit (f : FieldDef) : Bool :=
  match f.array with
  | some ⟨.implicit, _⟩ => true
  | _ => false

theorem isImplicit_iff {f : FieldDef} : isImplicit f = true ↔ f.IsImplicit := by
  unfold isImplicit FieldDef.IsImplicit
  split
  · next p h => simp [h]
  · next h => simp only [Bool.false_eq_true, false_iff]; rintro ⟨p, hp⟩; exact h p hp

/-- a compound without extended fields and implicit arrays -/
def isClosed (d : CompoundDef) : Bool := (fieldsOf d).all fun f => !f.extended && !isImplicit f

theorem isClosed_iff {d : CompoundDef} : isClosed d = true ↔ ∀ f, d.Declares f → f.extended = false ∧ ¬ f.IsImplicit := by
  unfold isClosed
  simp only [List.all_eq_true, Bool.and_eq_true, Bool.not_eq_true', mem_fieldsOf, ← isImplicit_iff, Bool.not_eq_true]

theorem compile_layout {allow : Bool} {defs : Schema} {lower : FieldDef → Option Int} {n : Nat} {types : List Nat}
    (hc : defs.Complete types) (h : compile allow defs lower n types = some (.ok ())) (hi : defs.ImplicitAtEnd) :
    defs.Layout (fun id => isClosed (defs id)) := by
  have hcon : ∀ a b, defs.Contains a b → isClosed (defs b) = true := by
    intro a b hab
    rw [isClosed_iff]
    intro f hf
    constructor
    · cases he : f.extended with
      | false => rfl
      | true => exact absurd ⟨f, hf, he⟩ (compile_extendedOutside hc h a b (.single hab))
    · intro him
      exact (hi b f hf him).1 a hab
  have harr : ∀ a f, (defs a).Declares f → f.ArrayOk (fun id => isClosed (defs id)) := by
    intro a f hf ar har
    refine ⟨fun id args ht => hcon a id ⟨f, args, hf, ht⟩, ?_⟩
    rintro b rfl
    have hp := compile_ok.mp h a (declares_mem hc hf)
    exact ⟨checkArray_ok (hp.arrays f (mem_fieldsOf.mpr hf)) har,
      fieldSyntax_ok (hp.fields f (mem_fieldsOf.mpr hf)) har⟩
  have hclosed : ∀ a f, (defs a).Declares f → ¬ f.IsImplicit → f.Closed (fun id => isClosed (defs id)) := by
    intro a f hf hni
    unfold FieldDef.Closed
    rcases ha : f.array with _ | ⟨_ | _ | e, p⟩
    · simp only
      split
      · next id args ht => exact hcon a id ⟨f, args, hf, ht⟩
      · trivial
    · trivial
    · exact absurd ⟨p, ha⟩ hni
    · trivial
  intro a
  have hall : isClosed (defs a) = true → ∀ f, (defs a).Declares f → f.extended = false ∧ f.Closed (fun id => isClosed (defs id)) :=
    fun hcl f hf => ⟨(isClosed_iff.mp hcl f hf).1, hclosed a f hf (isClosed_iff.mp hcl f hf).2⟩
  have hbr := compile_branches hc h a
  cases hd : defs a with
  | struct fs =>
    refine ⟨fun f hf => harr a f (by rw [hd]; exact .struct hf), fun f hf => ?_, fun hcl f hf => hall hcl f (by rw [hd]; exact .struct hf), ?_⟩
    · obtain ⟨i, hi1⟩ := List.getElem?_of_mem hf
      rw [List.getElem?_dropLast] at hi1
      split at hi1
      · next hlt =>
        have hdec : (defs a).Declares f := by rw [hd]; exact .struct (List.mem_of_getElem? hi1)
        refine hclosed a f hdec fun him => ?_
        obtain ⟨-, fs', he, hlast⟩ := hi a f hdec him
        rw [hd, CompoundDef.struct.injEq] at he
        subst he
        have := hlast i hi1
        omega
      · simp at hi1
    · have hs : Sorted false fs := sorted_false.mpr (compile_extendedLast hc h a fs hd)
      exact sorted_base hs
  | union fs =>
    intro f hf
    have hdec : (defs a).Declares f := by rw [hd]; exact .union hf
    exact ⟨harr a f hdec, (hbr f hdec (by simp [hd])).1, fun hcl => (hall hcl f hdec).2⟩
  | choice s cases default =>
    refine ⟨fun k hk f hf => ?_, fun f hf => ?_⟩
    · have hdec : (defs a).Declares f := by rw [hd]; exact .case hk hf
      exact ⟨harr a f hdec, (hbr f hdec (by simp [hd])).1, fun hcl => (hall hcl f hdec).2⟩
    · subst hf
      have hdec : (defs a).Declares f := by rw [hd]; exact .default
      exact ⟨harr a f hdec, (hbr f hdec (by simp [hd])).1, fun hcl => (hall hcl f hdec).2⟩

theorem noImplicit_atEnd {defs : Schema} (h : defs.NoImplicit) : defs.ImplicitAtEnd := fun a f hf hi => absurd hi (h a f hf)

/-! ### The checks end -/

theorem forAll_ends {α : Type} {check : α → Outcome Unit} {xs : List α} (h : ∀ x ∈ xs, ∃ r, check x = some r) :
    ∃ r, forAll check xs = some r := by
  induction xs with
  | nil => exact ⟨_, rfl⟩
  | cons x xs ih =>
    obtain ⟨r, hr⟩ := h x (by simp)
    unfold forAll andThen
    rw [hr]
    cases r with
    | error p => exact ⟨_, rfl⟩
    | ok u => exact ih fun y hy => h y (by simp [hy])

theorem andThen_ends {a b : Outcome Unit} (ha : ∃ r, a = some r) (hb : ∃ r, b = some r) : ∃ r, andThen a b = some r := by
  obtain ⟨r, rfl⟩ := ha
  cases r with
  | error p => exact ⟨_, rfl⟩
  | ok u => exact hb

theorem containsExtendedField_some {defs : Schema} {types : List Nat} (hc : defs.Complete types) (h : defs.NoIndirectRecursion) :
    ∀ n self f, f ∈ fieldsOf (defs self) → rank defs types self < n → ∃ b, containsExtendedField defs n self f = some b := by
  intro n
  induction n with
  | zero => intro _ _ _ h; omega
  | succ n ih =>
    intro self f hf hr
    unfold containsExtendedField
    rcases hcf : child f with _ | c
    · exact ⟨_, rfl⟩
    · have hcon : defs.Contains self c := contains_iff.mpr ⟨f, hf, hcf⟩
      refine anyOf_some fun g hg => ?_
      split
      · exact ⟨_, rfl⟩
      · split
        · next hne =>
          refine ih c g hg ?_
          have := rank_lt h (complete_child hc hcon).2 ⟨hcon, Ne.symm hne⟩
          omega
        · exact ⟨_, rfl⟩

theorem plainBranch_some {field : FieldDef → Option Bool} {d : CompoundDef}
    (h : ∀ f ∈ fieldsOf d, ∃ b, field f = some b) : ∃ b, plainBranch field d = some b := by
  cases d with
  | struct fs => exact allOf_some h
  | union fs =>
    obtain ⟨b, hb⟩ := anyOf_some h
    unfold plainBranch
    simp only [fieldsOf] at hb
    simp only [hb]
    cases b <;> exact ⟨_, rfl⟩
  | choice s cases default =>
    obtain ⟨b, hb⟩ := anyOf_some (p := caseBranch field) (xs := cases) (by
        intro k hk
        unfold caseBranch
        rcases hf : k.field with _ | f
        · exact ⟨_, rfl⟩
        · exact h f (mem_fieldsOf.mpr (.case hk hf)))
    unfold plainBranch
    simp only [hb]
    cases b with
    | true => exact ⟨_, rfl⟩
    | false =>
      rcases default with _ | _ | f
      · exact ⟨_, rfl⟩
      · exact ⟨_, rfl⟩
      · obtain ⟨b, hb⟩ := h f (mem_fieldsOf.mpr .default)
        simp only [hb]
        cases b <;> exact ⟨_, rfl⟩

theorem fieldPlainBranch_some {defs : Schema} {types : List Nat} (hc : defs.Complete types) (h : defs.NoIndirectRecursion)
    (lower : FieldDef → Option Int) :
    ∀ n self f, f ∈ fieldsOf (defs self) → rank defs types self < n → ∃ b, fieldPlainBranch defs lower n self f = some b := by
  intro n
  induction n with
  | zero => intro _ _ _ h; omega
  | succ n ih =>
    intro self f hf hr
    have hcomp : ∃ b, (match child f with
      | none => some true
      | some c => if c ≠ self then plainBranch (fieldPlainBranch defs lower n c) (defs c) else some true) = some b := by
      rcases hcf : child f with _ | c
      · exact ⟨_, rfl⟩
      · have hcon : defs.Contains self c := contains_iff.mpr ⟨f, hf, hcf⟩
        simp only
        split
        · next hne =>
          refine plainBranch_some fun g hg => ih c g hg ?_
          have := rank_lt h (complete_child hc hcon).2 ⟨hcon, Ne.symm hne⟩
          omega
        · exact ⟨_, rfl⟩
    unfold fieldPlainBranch
    obtain ⟨b, hb⟩ := fieldEmptyBranch_some hc h lower false (n + 1) self f hf hr
    rw [hb]
    simp only
    cases b with
    | true => exact ⟨_, rfl⟩
    | false =>
      simp only
      split
      · exact ⟨_, rfl⟩
      · exact ⟨_, rfl⟩
      · split
        · exact ⟨_, rfl⟩
        · exact hcomp
      · exact hcomp

theorem checkExtended_ends {defs : Schema} {n self : Nat}
    (h : ∀ f ∈ fieldsOf (defs self), ∃ b, containsExtendedField defs n self f = some b) : ∃ r, checkExtended defs n self = some r := by
  have hcon : ∀ f ∈ fieldsOf (defs self), ∃ r, checkContains defs n self f = some r := by
    intro f hf
    obtain ⟨b, hb⟩ := h f hf
    unfold checkContains
    rw [hb]
    cases b <;> exact ⟨_, rfl⟩
  unfold checkExtended
  split
  · next fs he =>
    rw [he] at hcon
    simp only [fieldsOf] at hcon
    clear h he
    generalize false = seen
    induction fs generalizing seen with
    | nil => exact ⟨_, rfl⟩
    | cons f fs ih =>
      unfold checkExtendedStruct
      refine andThen_ends (hcon f (by simp)) ?_
      have ih := ih fun g hg => hcon g (by simp [hg])
      split
      · exact ih _
      · split
        · exact ⟨_, rfl⟩
        · exact ih _
  · exact forAll_ends hcon

theorem checkImplicit_ends {defs : Schema} {lower : FieldDef → Option Int} {n self : Nat}
    (h1 : ∀ f ∈ fieldsOf (defs self), ∃ b, fieldEmptyBranch defs lower true n self f = some b)
    (h2 : ∀ f ∈ fieldsOf (defs self), ∃ b, fieldPlainBranch defs lower n self f = some b) :
    ∃ r, checkImplicit defs lower n self = some r := by
  unfold checkImplicit
  split
  · next fs he =>
    rw [he] at h1 h2
    simp only [fieldsOf] at h1 h2
    clear he
    generalize false = seen
    induction fs generalizing seen with
    | nil => cases seen <;> exact ⟨_, rfl⟩
    | cons f fs ih =>
      have ih := ih (h2 := fun g hg => h2 g (by simp [hg])) (h1 := fun g hg => h1 g (by simp [hg]))
      cases seen with
      | false =>
        unfold checkImplicitStruct
        obtain ⟨b, hb⟩ := h2 f (by simp)
        rw [hb]
        exact ih _
      | true =>
        unfold checkImplicitStruct
        obtain ⟨b, hb⟩ := h1 f (by simp)
        rw [hb]
        cases b with
        | false => exact ⟨_, rfl⟩
        | true => exact ih _
  · exact ⟨_, rfl⟩

theorem compile_ends {allow : Bool} {defs : Schema} {lower : FieldDef → Option Int} {n : Nat} {types : List Nat}
    (hc : defs.Complete types) (hn : types.length < n) (h : defs.NoIndirectRecursion) :
    ∃ r, compile allow defs lower n types = some r := by
  unfold compile
  refine andThen_ends (forAll_ends fun a _ => ?_) (forAll_ends fun a _ => ?_)
  · unfold checkSyntax
    refine andThen_ends ?_ (forAll_ends fun f _ => ?_)
    · split
      · exact ⟨_, rfl⟩
      · split <;> exact ⟨_, rfl⟩
    · unfold checkFieldSyntax
      repeat' split
      all_goals exact ⟨_, rfl⟩
  · have hr : rank defs types a < n := (rank_le defs types a).trans_lt hn
    unfold checkType
    refine andThen_ends (forAll_ends fun f _ => ?_) (andThen_ends (forAll_ends fun f _ => ?_)
      (andThen_ends ⟨_, indirect_complete hc h a n a hr (.inl rfl)⟩ (andThen_ends ?_ ?_)))
    · unfold checkArray
      repeat' split
      all_goals exact ⟨_, rfl⟩
    · unfold checkFieldDirectRecursion
      repeat' split
      all_goals exact ⟨_, rfl⟩
    · exact checkExtended_ends fun f hf => containsExtendedField_some hc h n a f hf hr
    · exact checkImplicit_ends (fun f hf => fieldEmptyBranch_some hc h lower true n a f hf hr)
        fun f hf => fieldPlainBranch_some hc h lower n a f hf hr

/-! ### Accepted implicit arrays -/

theorem anyOf_iff {α : Type} {p : α → Option Bool} {xs : List α} (h : ∀ x ∈ xs, ∃ b, p x = some b) :
    anyOf p xs = some true ↔ ∃ x ∈ xs, p x = some true := by
  refine ⟨anyOf_true, fun ⟨x, hx, ht⟩ => ?_⟩
  obtain ⟨b, hb⟩ := anyOf_some h
  cases b with
  | true => exact hb
  | false => have := anyOf_false.mp hb x hx; rw [ht] at this; cases this

theorem someBranch_mono {P Q : FieldDef → Prop} {d : CompoundDef} (h : ∀ f ∈ fieldsOf d, P f → Q f) (hp : d.SomeBranch P) :
    d.SomeBranch Q := by
  cases d with
  | struct fs => exact fun f hf => h f hf (hp f hf)
  | union fs => exact hp.imp (fun ⟨f, hf, hp⟩ => ⟨f, hf, h f hf hp⟩) id
  | choice s cases default =>
    rcases hp with hp | hp | ⟨f, hf, hp⟩ | hp
    · exact .inl hp
    · exact .inr (.inl hp)
    · exact .inr (.inr (.inl ⟨f, hf, h f (mem_fieldsOf.mpr hf) hp⟩))
    · exact .inr (.inr (.inr hp))

theorem noField {d : CompoundDef} : (fieldsOf d).isEmpty = true ↔ ∀ f, ¬ d.Declares f := by
  rw [List.isEmpty_iff, List.eq_nil_iff_forall_not_mem]
  exact forall_congr' fun f => not_congr mem_fieldsOf

theorem choiceBranch_iff {field : FieldDef → Option Bool} {s : Expr Int} {cases : List CaseDef} {default : Option (Option FieldDef)}
    (h : ∀ f ∈ fieldsOf (.choice s cases default), ∃ b, field f = some b) :
    plainBranch field (.choice s cases default) = some true ↔
      (CompoundDef.choice s cases default).SomeBranch fun f => field f = some true := by
  have hk : ∀ k ∈ cases, ∃ b, caseBranch field k = some b := by
    intro k hk
    unfold caseBranch
    rcases hf : k.field with _ | f
    · exact ⟨_, rfl⟩
    · exact h f (mem_fieldsOf.mpr (.case hk hf))
  obtain ⟨b, hb⟩ := anyOf_some hk
  unfold plainBranch
  simp only [hb]
  cases b with
  | true =>
    simp only [true_iff]
    obtain ⟨k, hk, ht⟩ := anyOf_true hb
    unfold caseBranch at ht
    rcases hf : k.field with _ | f
    · exact .inl ⟨k, hk, hf⟩
    · rw [hf] at ht; exact .inr (.inr (.inl ⟨f, .case hk hf, ht⟩))
  | false =>
    have hno := anyOf_false.mp hb
    have h1 : ¬ ∃ c ∈ cases, c.field = none := by
      rintro ⟨c, hc, hf⟩
      have := hno c hc
      unfold caseBranch at this
      rw [hf] at this
      cases this
    have h2 : ∀ k ∈ cases, ∀ f, k.field = some f → field f = some false := by
      intro k hk f hf
      have := hno k hk
      unfold caseBranch at this
      rw [hf] at this
      exact this
    have h3 : ∀ f, (CompoundDef.choice s cases default).Declares f → field f = some true → default = some (some f) := by
      intro f hf ht
      cases hf with
      | case hk hf => rw [h2 _ hk f hf] at ht; cases ht
      | default => rfl
    simp only [CompoundDef.SomeBranch, h1, false_or]
    rcases default with _ | _ | f
    · simp only [reduceCtorEq, false_or]
      rw [Option.some.injEq, noField]
      constructor
      · exact .inr
      · rintro (⟨f, hf, ht⟩ | hn)
        · cases h3 f hf ht
        · exact hn
    · simp
    · simp only [Option.some.injEq, reduceCtorEq, false_or]
      obtain ⟨b, hb⟩ := h f (mem_fieldsOf.mpr .default)
      simp only [hb]
      cases b with
      | true => simp only [true_iff]; exact .inl ⟨f, .default, hb⟩
      | false =>
        simp only [Option.some.injEq]
        rw [noField]
        constructor
        · exact .inr
        · rintro (⟨g, hg, ht⟩ | hn)
          · have := h3 g hg ht
            simp only [Option.some.injEq] at this
            subst this
            rw [hb] at ht
            cases ht
          · exact hn

theorem plainBranch_iff {field : FieldDef → Option Bool} {d : CompoundDef} (h : ∀ f ∈ fieldsOf d, ∃ b, field f = some b) :
    plainBranch field d = some true ↔ d.SomeBranch fun f => field f = some true := by
  cases d with
  | struct fs => exact allOf_true
  | union fs =>
    have := anyOf_iff (p := field) (xs := fs) h
    obtain ⟨b, hb⟩ := anyOf_some (p := field) (xs := fs) h
    unfold plainBranch CompoundDef.SomeBranch
    simp only
    rw [← this, hb]
    cases b <;> simp
  | choice s cases default => exact choiceBranch_iff h

theorem emptyBranch_iff {field : FieldDef → Option Bool} {d : CompoundDef} (h : ∀ f ∈ fieldsOf d, ∃ b, field f = some b) :
    emptyBranch field d = some true ↔ (∀ fs, d ≠ .union fs) ∧ d.SomeBranch fun f => field f = some true := by
  cases d with
  | struct fs => exact allOf_true.trans (by simp [CompoundDef.SomeBranch])
  | union fs => simp [emptyBranch]
  | choice s cases default =>
    rw [← choiceBranch_iff h]
    simp only [ne_eq, reduceCtorEq, not_false_eq_true, implies_true, true_and]
    rfl

theorem mayBeZero {lower : FieldDef → Option Int} {f : FieldDef} :
    lengthMayBeZero lower f = true ↔ ∀ b, lower f = some b → b ≤ 0 := by
  unfold lengthMayBeZero
  cases lower f <;> simp

/-- the answer for the type of a field -/
theorem fieldEmpty_iff {defs : Schema} {lower : FieldDef → Option Int} {implicit : Bool} {n self : Nat} {f : FieldDef} :
    fieldEmptyBranch defs lower implicit (n + 1) self f = some true ↔
      f.MayTakeNoBits lower implicit (fun c => emptyBranch (fieldEmptyBranch defs lower implicit n c) (defs c) = some true) self := by
  have hcomp : (match child f with
      | none => some false
      | some c => if c ≠ self then emptyBranch (fieldEmptyBranch defs lower implicit n c) (defs c) else some false) = some true ↔
      ∃ c args, f.type = .compound c args ∧ c ≠ self ∧
        emptyBranch (fieldEmptyBranch defs lower implicit n c) (defs c) = some true := by
    rcases hcf : child f with _ | c
    · simp only [Option.some.injEq, Bool.false_eq_true, false_iff]
      rintro ⟨c, args, ht, -⟩
      rw [child_some.mpr ⟨args, ht⟩] at hcf
      cases hcf
    · obtain ⟨args, ht⟩ := child_some.mp hcf
      simp only
      constructor
      · intro h
        split at h
        · next hne => exact ⟨c, args, ht, hne, h⟩
        · simp at h
      · rintro ⟨c', args', ht', hne, h⟩
        rw [ht] at ht'
        simp only [ElemType.compound.injEq] at ht'
        obtain ⟨rfl, -⟩ := ht'
        rw [if_pos hne]
        exact h
  unfold fieldEmptyBranch FieldDef.MayTakeNoBits FieldDef.IsImplicit
  simp only
  split
  · next e ho => simp [ho]
  · next ho => simp [ho]
  · next ho =>
    split
    · next ha => simp [ho, ha]
    · next ha => simp [ho, ha]
    · next ha =>
      split
      · next hz => simp only [true_iff]; exact .inr ⟨ho, .inr (.inl ⟨⟨_, _, ha⟩, mayBeZero.mp hz⟩)⟩
      · next hz =>
        have : ¬ ∀ b, lower f = some b → b ≤ 0 := fun h => hz (mayBeZero.mpr h)
        refine hcomp.trans ?_
        simp only [ho, ha, this]; simp
    · next ha => refine hcomp.trans ?_; simp [ho, ha]

theorem takesNoBits_mono {lower : FieldDef → Option Int} {implicit : Bool} {P Q : Nat → Prop} {self : Nat} {f : FieldDef}
    (h : ∀ c args, f.type = .compound c args → c ≠ self → P c → Q c) (hp : f.MayTakeNoBits lower implicit P self) :
    f.MayTakeNoBits lower implicit Q self := by
  rcases hp with hp | ⟨ho, hp | hp | ⟨ha, c, args, ht, hne, hp⟩⟩
  · exact .inl hp
  · exact .inr ⟨ho, .inl hp⟩
  · exact .inr ⟨ho, .inr (.inl hp)⟩
  · exact .inr ⟨ho, .inr (.inr ⟨ha, c, args, ht, hne, h c args ht hne hp⟩)⟩

section
variable {defs : Schema} {types : List Nat} (hc : defs.Complete types) (h : defs.NoIndirectRecursion)
include hc h

theorem child_rank {n self c : Nat} {f : FieldDef} {args : List (Expr Int)} (hf : f ∈ fieldsOf (defs self))
    (hr : rank defs types self < n + 1) (ht : f.type = .compound c args) (hne : c ≠ self) : rank defs types c < n := by
  have hcon : defs.Contains self c := contains_iff.mpr ⟨f, hf, child_some.mpr ⟨args, ht⟩⟩
  have := rank_lt h (complete_child hc hcon).2 ⟨hcon, Ne.symm hne⟩
  omega

theorem empty_sound (lower : FieldDef → Option Int) (implicit : Bool) : ∀ n self f, f ∈ fieldsOf (defs self) →
    rank defs types self < n + 1 → fieldEmptyBranch defs lower implicit (n + 1) self f = some true →
    f.MayTakeNoBits lower implicit (defs.MayTakeNoBits lower implicit n) self := by
  intro n
  induction n with
  | zero =>
    intro self f hf hr he
    exact takesNoBits_mono (fun c args ht hne _ => absurd (child_rank hc h hf hr ht hne) (by omega)) (fieldEmpty_iff.mp he)
  | succ n ih =>
    intro self f hf hr he
    refine takesNoBits_mono (fun c args ht hne hp => ?_) (fieldEmpty_iff.mp he)
    have hrc := child_rank hc h hf hr ht hne
    obtain ⟨h1, h2⟩ := (emptyBranch_iff fun g hg => fieldEmptyBranch_some hc h lower implicit (n + 1) c g hg hrc).mp hp
    exact ⟨h1, someBranch_mono (fun g hg => ih c g hg hrc) h2⟩

theorem empty_complete (lower : FieldDef → Option Int) (implicit : Bool) : ∀ n self f k, f ∈ fieldsOf (defs self) →
    rank defs types self < n + 1 → f.MayTakeNoBits lower implicit (defs.MayTakeNoBits lower implicit k) self →
    fieldEmptyBranch defs lower implicit (n + 1) self f = some true := by
  intro n
  induction n with
  | zero =>
    intro self f k hf hr he
    exact fieldEmpty_iff.mpr (takesNoBits_mono (fun c args ht hne _ => absurd (child_rank hc h hf hr ht hne) (by omega)) he)
  | succ n ih =>
    intro self f k hf hr he
    refine fieldEmpty_iff.mpr (takesNoBits_mono (fun c args ht hne hp => ?_) he)
    have hrc := child_rank hc h hf hr ht hne
    rw [emptyBranch_iff fun g hg => fieldEmptyBranch_some hc h lower implicit (n + 1) c g hg hrc]
    cases k with
    | zero => exact hp.elim
    | succ k => exact ⟨hp.1, someBranch_mono (fun g hg => ih c g k hg hrc) hp.2⟩

end

theorem fieldPlain_iff {defs : Schema} {lower : FieldDef → Option Int} {n self : Nat} {f : FieldDef}
    (he : ∃ b, fieldEmptyBranch defs lower false (n + 1) self f = some b) :
    fieldPlainBranch defs lower (n + 1) self f = some true ↔
      f.MayAvoidImplicit lower (fun c => emptyBranch (fieldEmptyBranch defs lower false n c) (defs c) = some true)
        (fun c => plainBranch (fieldPlainBranch defs lower n c) (defs c) = some true) self := by
  have hcomp : (match child f with
      | none => some true
      | some c => if c ≠ self then plainBranch (fieldPlainBranch defs lower n c) (defs c) else some true) = some true ↔
      ∀ c args, f.type = .compound c args → c = self ∨ plainBranch (fieldPlainBranch defs lower n c) (defs c) = some true := by
    rcases hcf : child f with _ | c
    · simp only [true_iff]
      intro c args ht
      rw [child_some.mpr ⟨args, ht⟩] at hcf
      cases hcf
    · obtain ⟨args, ht⟩ := child_some.mp hcf
      simp only
      constructor
      · intro hh c' args' ht'
        rw [ht] at ht'
        simp only [ElemType.compound.injEq] at ht'
        obtain ⟨rfl, -⟩ := ht'
        split at hh
        · exact .inr hh
        · next hne => exact .inl (not_not.mp hne)
      · intro hh
        split
        · next hne => exact (hh c args ht).resolve_left hne
        · rfl
  unfold fieldPlainBranch FieldDef.MayAvoidImplicit
  rw [← fieldEmpty_iff]
  obtain ⟨b, hb⟩ := he
  simp only [hb]
  cases b with
  | true => simp
  | false =>
    unfold FieldDef.IsImplicit
    simp only [Option.some.injEq, Bool.false_eq_true, false_or]
    split
    · next ha => simp [ha]
    · next ha => simp [ha]
    · next ha =>
      split
      · next hz => simp only [true_iff]; exact ⟨by simp [ha], .inr (.inl ⟨⟨_, _, ha⟩, mayBeZero.mp hz⟩)⟩
      · next hz =>
        have : ¬ ∀ b, lower f = some b → b ≤ 0 := fun h => hz (mayBeZero.mpr h)
        refine hcomp.trans ?_
        simp only [ha, this]; simp
    · next ha => refine hcomp.trans ?_; simp [ha]

theorem avoid_mono {lower : FieldDef → Option Int} {P Q P' Q' : Nat → Prop} {self : Nat} {f : FieldDef}
    (h : ∀ c args, f.type = .compound c args → c ≠ self → P c → Q c) (h' : ∀ c args, f.type = .compound c args → c ≠ self → P' c → Q' c)
    (hp : f.MayAvoidImplicit lower P P' self) : f.MayAvoidImplicit lower Q Q' self := by
  rcases hp with hp | ⟨hi, hp | hp | hp⟩
  · exact .inl (takesNoBits_mono h hp)
  · exact .inr ⟨hi, .inl hp⟩
  · exact .inr ⟨hi, .inr (.inl hp)⟩
  · refine .inr ⟨hi, .inr (.inr fun c args ht => ?_)⟩
    by_cases hne : c = self
    · exact .inl hne
    · exact (hp c args ht).imp id (h' c args ht hne)

section
variable {defs : Schema} {types : List Nat} (hc : defs.Complete types) (h : defs.NoIndirectRecursion)
include hc h

theorem plain_sound (lower : FieldDef → Option Int) : ∀ n self f, f ∈ fieldsOf (defs self) →
    rank defs types self < n + 1 → fieldPlainBranch defs lower (n + 1) self f = some true →
    f.MayAvoidImplicit lower (defs.MayTakeNoBits lower false n) (defs.MayAvoidImplicit lower n) self := by
  intro n
  induction n with
  | zero =>
    intro self f hf hr he
    exact avoid_mono (fun c args ht hne _ => absurd (child_rank hc h hf hr ht hne) (by omega))
      (fun c args ht hne _ => absurd (child_rank hc h hf hr ht hne) (by omega))
      ((fieldPlain_iff (fieldEmptyBranch_some hc h lower false _ self f hf hr)).mp he)
  | succ n ih =>
    intro self f hf hr he
    refine avoid_mono (fun c args ht hne hp => ?_) (fun c args ht hne hp => ?_)
      ((fieldPlain_iff (fieldEmptyBranch_some hc h lower false _ self f hf hr)).mp he)
    · have hrc := child_rank hc h hf hr ht hne
      obtain ⟨h1, h2⟩ := (emptyBranch_iff fun g hg => fieldEmptyBranch_some hc h lower false (n + 1) c g hg hrc).mp hp
      exact ⟨h1, someBranch_mono (fun g hg => empty_sound hc h lower false n c g hg hrc) h2⟩
    · have hrc := child_rank hc h hf hr ht hne
      have h2 := (plainBranch_iff fun g hg => fieldPlainBranch_some hc h lower (n + 1) c g hg hrc).mp hp
      exact someBranch_mono (fun g hg => ih c g hg hrc) h2

theorem plain_complete (lower : FieldDef → Option Int) : ∀ n self f k, f ∈ fieldsOf (defs self) →
    rank defs types self < n + 1 → f.MayAvoidImplicit lower (defs.MayTakeNoBits lower false k) (defs.MayAvoidImplicit lower k) self →
    fieldPlainBranch defs lower (n + 1) self f = some true := by
  intro n
  induction n with
  | zero =>
    intro self f k hf hr he
    exact (fieldPlain_iff (fieldEmptyBranch_some hc h lower false _ self f hf hr)).mpr
      (avoid_mono (fun c args ht hne _ => absurd (child_rank hc h hf hr ht hne) (by omega))
      (fun c args ht hne _ => absurd (child_rank hc h hf hr ht hne) (by omega)) he)
  | succ n ih =>
    intro self f k hf hr he
    refine (fieldPlain_iff (fieldEmptyBranch_some hc h lower false _ self f hf hr)).mpr
      (avoid_mono (fun c args ht hne hp => ?_) (fun c args ht hne hp => ?_) he)
    · have hrc := child_rank hc h hf hr ht hne
      rw [emptyBranch_iff fun g hg => fieldEmptyBranch_some hc h lower false (n + 1) c g hg hrc]
      cases k with
      | zero => exact hp.elim
      | succ k => exact ⟨hp.1, someBranch_mono (fun g hg => empty_complete hc h lower false n c g k hg hrc) hp.2⟩
    · have hrc := child_rank hc h hf hr ht hne
      rw [plainBranch_iff fun g hg => fieldPlainBranch_some hc h lower (n + 1) c g hg hrc]
      cases k with
      | zero => exact hp.elim
      | succ k => exact someBranch_mono (fun g hg => ih c g k hg hrc) hp

end

/-- the loop over the fields -/
theorem implicitStruct_iff {defs : Schema} {lower : FieldDef → Option Int} {n self : Nat} {fs : List FieldDef}
    (h1 : ∀ f ∈ fs, ∃ b, fieldEmptyBranch defs lower true n self f = some b)
    (h2 : ∀ f ∈ fs, ∃ b, fieldPlainBranch defs lower n self f = some b) :
    (checkImplicitStruct defs lower n self true fs = some (.ok ()) ↔ ∀ f ∈ fs, fieldEmptyBranch defs lower true n self f = some true) ∧
    (checkImplicitStruct defs lower n self false fs = some (.ok ()) ↔ ∀ (i j : Nat) f g, i < j → fs[i]? = some f → fs[j]? = some g →
      ¬ fieldPlainBranch defs lower n self f = some true → fieldEmptyBranch defs lower true n self g = some true) := by
  induction fs with
  | nil => simp [checkImplicitStruct]
  | cons f fs ih =>
    obtain ⟨ih1, ih2⟩ := ih (fun f hf => h1 f (by simp [hf])) (fun f hf => h2 f (by simp [hf]))
    constructor
    · unfold checkImplicitStruct
      obtain ⟨b, hb⟩ := h1 f (by simp)
      cases b <;> simp [hb, ih1]
    · unfold checkImplicitStruct
      obtain ⟨b, hb⟩ := h2 f (by simp)
      have hcons : (∀ (i j : Nat) f' g, i < j → (f :: fs)[i]? = some f' → (f :: fs)[j]? = some g →
          ¬ fieldPlainBranch defs lower n self f' = some true → fieldEmptyBranch defs lower true n self g = some true) ↔
          (¬ fieldPlainBranch defs lower n self f = some true → ∀ g ∈ fs, fieldEmptyBranch defs lower true n self g = some true) ∧
          (∀ (i j : Nat) f' g, i < j → fs[i]? = some f' → fs[j]? = some g →
            ¬ fieldPlainBranch defs lower n self f' = some true → fieldEmptyBranch defs lower true n self g = some true) := by
        constructor
        · intro hh
          refine ⟨fun hp g hg => ?_, fun i j f' g hij hi hj => hh (i + 1) (j + 1) f' g (by omega) (by simpa using hi) (by simpa using hj)⟩
          obtain ⟨j, hj⟩ := List.mem_iff_getElem?.mp hg
          exact hh 0 (j + 1) f g (by omega) rfl (by simpa using hj) hp
        · rintro ⟨ha, hb⟩ i j f' g hij hi hj
          obtain ⟨j, rfl⟩ : ∃ j', j = j' + 1 := ⟨j - 1, by omega⟩
          rw [List.getElem?_cons_succ] at hj
          cases i with
          | zero =>
            simp only [List.getElem?_cons_zero, Option.some.injEq] at hi
            subst hi
            exact fun hp => ha hp g (List.mem_of_getElem? hj)
          | succ i => exact hb i j f' g (by omega) (by simpa using hi) hj
      rw [hcons]
      simp only [hb]
      cases b with
      | true => simpa using ih2
      | false =>
        simp only [Bool.not_false, ih1, Option.some.injEq, Bool.false_eq_true, not_false_eq_true, forall_const]
        exact ⟨fun hh => ⟨hh, fun i j f' g _ _ hj _ => hh g (List.mem_of_getElem? hj)⟩, fun hh => hh.1⟩

theorem checkImplicit_iff {defs : Schema} {types : List Nat} (hc : defs.Complete types) (h : defs.NoIndirectRecursion)
    (lower : FieldDef → Option Int) (n a : Nat) (hr : rank defs types a < n) :
    checkImplicit defs lower n a = some (.ok ()) ↔ ∀ fs, defs a = .struct fs → ∀ (i j : Nat) f g, i < j → fs[i]? = some f →
      fs[j]? = some g → (¬ ∃ k, f.MayAvoidImplicit lower (defs.MayTakeNoBits lower false k) (defs.MayAvoidImplicit lower k) a) →
      ∃ k, g.MayTakeNoBits lower true (defs.MayTakeNoBits lower true k) a := by
  obtain ⟨n, rfl⟩ : ∃ m, n = m + 1 := ⟨n - 1, by omega⟩
  unfold checkImplicit
  split
  · next fs he =>
    have hmem : ∀ {i : Nat} {f : FieldDef}, fs[i]? = some f → f ∈ fieldsOf (defs a) := fun hi => by
      rw [he]; exact List.mem_of_getElem? hi
    rw [(implicitStruct_iff
      (fun f hf => fieldEmptyBranch_some hc h lower true _ a f (by rw [he]; exact hf) hr)
      (fun f hf => fieldPlainBranch_some hc h lower _ a f (by rw [he]; exact hf) hr)).2]
    constructor
    · rintro hh fs' he' i j f g hij hi hj hnot
      rw [he] at he'
      cases he'
      exact ⟨n, empty_sound hc h lower true n a g (hmem hj) hr
        (hh i j f g hij hi hj fun hp => hnot ⟨n, plain_sound hc h lower n a f (hmem hi) hr hp⟩)⟩
    · intro hh i j f g hij hi hj hp
      obtain ⟨k, hk⟩ := hh fs he i j f g hij hi hj fun ⟨k, hk⟩ => hp (plain_complete hc h lower n a f k (hmem hi) hr hk)
      exact empty_complete hc h lower true n a g k (hmem hj) hr hk
  · next hn => simp only [true_iff]; exact fun fs he => absurd he (hn fs)

theorem implicitField_iff {f : FieldDef} :
    (checkFieldSyntax true f = some (.ok ()) ∧ checkArray f = some (.ok ())) ↔ (f.IsImplicit → f.GoodImplicit) := by
  unfold checkFieldSyntax checkArray FieldDef.IsImplicit FieldDef.GoodImplicit
  rcases ha : f.array with _ | ⟨_ | _ | e, p⟩
  · simp
  · simp
  · have hs : (match fixedSize f.type with
        | some n => if n % 8 = 0 then (some (.ok ()) : Outcome Unit) else some (.error .implicitElement)
        | none => some (.error .implicitElement)) = some (.ok ()) ↔
        ∃ n, 0 < n ∧ n % 8 = 0 ∧ (f.type = .int (.bitField n) ∨ f.type = .int (.signedBitField n) ∨
          (f.type = .other .float16 ∧ n = 16) ∨ (f.type = .other .float32 ∧ n = 32) ∨ (f.type = .other .float64 ∧ n = 64)) := by
      unfold fixedSize
      cases f.type with
      | int k =>
        cases k with
        | bitField n =>
          rcases Nat.eq_zero_or_pos n with rfl | hn
          · simp
          · simp [Nat.ne_of_gt hn, hn]
        | signedBitField n =>
          rcases Nat.eq_zero_or_pos n with rfl | hn
          · simp
          · simp [Nat.ne_of_gt hn, hn]
        | _ => simp
      | other b => cases b <;> simp
      | _ => simp
    simp only
    refine (and_congr_right fun _ => hs).trans ?_
    rcases ho : f.offset with _ | o
    · cases p <;> simp
    · cases p <;> cases hx : o.indexed <;> simp [hx]
  · simp

theorem compile_implicit_wellFormed {defs : Schema} {lower : FieldDef → Option Int} {n : Nat} {types : List Nat}
    (hc : defs.Complete types) (hn : types.length < n) :
    compile true defs lower n types = some (.ok ()) ↔ defs.WellFormedImplicit lower := by
  have hr : ∀ a, rank defs types a < n := fun a => (rank_le defs types a).trans_lt hn
  constructor
  · intro h
    have hi := compile_indirect hc h
    refine ⟨hi, compile_direct hc h, compile_extendedLast hc h, compile_extendedOutside hc h, compile_branches hc h,
      fun a f hf => ?_, fun a => ?_⟩
    · have hp := compile_ok.mp h a (declares_mem hc hf)
      exact implicitField_iff.mp ⟨hp.fields f (mem_fieldsOf.mpr hf), hp.arrays f (mem_fieldsOf.mpr hf)⟩
    · by_cases ha : a ∈ types
      · exact (checkImplicit_iff hc hi lower n a (hr a)).mp (compile_ok.mp h a ha).implicit
      · intro fs he
        rw [hc.2 a ha] at he
        simp only [CompoundDef.struct.injEq] at he
        subst he
        simp
  · intro h
    rw [compile_ok]
    intro a ha
    refine ⟨fun hs f hf => ?_, fun f hf => ?_, fun f hf => ?_, ?_, ?_, ?_, ?_⟩
    · exact onlyInStructures_false.mpr (h.branches a f (mem_fieldsOf.mp hf) hs)
    · exact (implicitField_iff.mpr (h.implicitFields a f (mem_fieldsOf.mp hf))).1
    · exact (implicitField_iff.mpr (h.implicitFields a f (mem_fieldsOf.mp hf))).2
    · exact direct_ok.mpr (h.direct a)
    · exact indirect_complete hc h.indirect a n a (hr a) (.inl rfl)
    · exact checkExtended_ok.mpr ⟨fun f hf => contains_complete hc h.indirect h.extendedOutside n a f hf (hr a),
        fun fs he => sorted_false.mpr (h.extendedLast a fs he)⟩
    · exact (checkImplicit_iff hc h.indirect lower n a (hr a)).mpr (h.implicitRule a)

end Zserio.SchemaCheck
