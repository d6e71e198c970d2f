import Verif.Spec.Packable
import Verif.Props.SchemaCheck
import Mathlib.Data.Finset.Card
/-
Property C102: the compiler knows which types can be packed, and generated code for packed arrays finds the methods it needs.
-/
set_option linter.unusedSimpArgs false
namespace Zserio.Packable

theorem anyOf_total {α : Type} {p : α → Option Bool} : ∀ {l : List α}, (∀ x ∈ l, ∃ b, p x = some b) →
    ∃ b, anyOf p l = some b ∧ (b = true ↔ ∃ x ∈ l, p x = some true)
  | [], _ => ⟨false, rfl, by simp⟩
  | x :: l, h => by
    obtain ⟨b, hb⟩ := h x (by simp)
    obtain ⟨b', hb', hi⟩ := anyOf_total (l := l) fun y hy => h y (by simp [hy])
    unfold anyOf
    cases b with
    | true => exact ⟨true, by rw [hb], by simp [hb]⟩
    | false => exact ⟨b', by simp [hb, hb'], by simp [hb, hi]⟩

theorem typePackable_total {compound : Nat → Option Bool} {t : Base} (h : ∀ c, t = .compound c → ∃ b, compound c = some b) :
    ∃ b, typePackable compound t = some b := by
  cases t with
  | compound c => exact h c rfl
  | _ => exact ⟨_, rfl⟩

theorem fieldPackable_total {compound : Nat → Option Bool} {f : Field} (h : ∀ c, f.base = .compound c → ∃ b, compound c = some b) :
    ∃ b, fieldPackable compound f = some b := by
  unfold fieldPackable
  split
  · exact ⟨_, rfl⟩
  · split
    · split
      · exact ⟨_, rfl⟩
      · exact typePackable_total h
    · exact typePackable_total h

theorem fieldPackable_true {compound : Nat → Option Bool} {f : Field} :
    fieldPackable compound f = some true ↔ f.usedAsOffset = false ∧ f.Explicit ∧ typePackable compound f.base = some true := by
  unfold fieldPackable Field.Explicit
  cases ho : f.usedAsOffset with
  | true => simp
  | false =>
    cases ha : f.array with
    | none => simp
    | some a => cases hi : a.isImplicit <;> simp [hi]

/-- **C102.** Without indirect recursion, the compiler finds out for every compound whether it can be packed. -/
theorem C102_total {defs : Nat → Compound} {rank : Nat → Nat} (hr : Ranked defs rank) : ∀ {n c : Nat}, rank c < n →
    ∃ b, isPackable defs n c = some b := by
  intro n
  induction n with
  | zero => intro c h; omega
  | succ n ih =>
    intro c h
    unfold isPackable
    split
    · exact ⟨_, rfl⟩
    · unfold hasPackableField
      obtain ⟨b, hb, _⟩ := anyOf_total (p := fun f : Field => if f.base = .compound c then some false else fieldPackable (isPackable defs n) f)
        (l := (defs c).fields) (by
          intro f hf
          split
          · exact ⟨_, rfl⟩
          · rename_i hne
            refine fieldPackable_total fun d hd => ih ?_
            have := hr c f hf d hd (fun e => hne (by rw [hd, e]))
            omega)
      exact ⟨b, hb⟩

theorem isPackable_sound {defs : Nat → Compound} : ∀ {n c : Nat}, isPackable defs n c = some true → PackableType defs (.compound c) := by
  intro n
  induction n with
  | zero => intro c h; simp [isPackable] at h
  | succ n ih =>
    intro c h
    unfold isPackable at h
    split at h
    · rename_i hu
      exact .union hu (by simpa using h)
    · unfold hasPackableField at h
      have key : ∀ l : List Field, anyOf (fun f => if f.base = .compound c then some false else fieldPackable (isPackable defs n) f) l =
          some true → ∃ f ∈ l, fieldPackable (isPackable defs n) f = some true := by
        intro l
        induction l with
        | nil => intro h; simp [anyOf] at h
        | cons f l ihl =>
          intro h
          unfold anyOf at h
          split at h
          · cases h
          · rename_i hf
            split at hf
            · cases hf
            · exact ⟨f, by simp, hf⟩
          · obtain ⟨g, hg, hg'⟩ := ihl h
            exact ⟨g, by simp [hg], hg'⟩
      obtain ⟨f, hf, hp⟩ := key _ h
      obtain ⟨ho, he, ht⟩ := fieldPackable_true.mp hp
      refine .field hf ho he ?_
      cases hb : f.base with
      | integer => exact .integer
      | item i => exact .item i
      | unpackable => rw [hb] at ht; simp [typePackable] at ht
      | compound d => rw [hb] at ht; exact ih ht

theorem isPackable_complete {defs : Nat → Compound} {rank : Nat → Nat} (hr : Ranked defs rank) {t : Base} (h : PackableType defs t) :
    ∀ {n c : Nat}, t = .compound c → rank c < n → isPackable defs n c = some true := by
  induction h with
  | integer => intro n c h; cases h
  | item i => intro n c h; cases h
  | union hu hf =>
    intro n c h hn
    cases h
    obtain ⟨m, rfl⟩ : ∃ m, n = m + 1 := ⟨n - 1, by omega⟩
    unfold isPackable
    rw [if_pos hu]
    simpa using hf
  | @field c' f hf ho he ht ih =>
    intro n c h hn
    cases h
    obtain ⟨m, rfl⟩ : ∃ m, n = m + 1 := ⟨n - 1, by omega⟩
    by_cases hself : f.base = .compound c'
    · exact ih hself hn
    · unfold isPackable
      split
      · have : (defs c').fields ≠ [] := List.ne_nil_of_mem hf
        simpa using this
      · unfold hasPackableField
        obtain ⟨b, hb, hi⟩ := anyOf_total
          (p := fun f : Field => if f.base = .compound c' then some false else fieldPackable (isPackable defs m) f)
          (l := (defs c').fields) (by
            intro g hg
            split
            · exact ⟨_, rfl⟩
            · rename_i hne
              refine fieldPackable_total fun d hd => C102_total hr ?_
              have := hr c' g hg d hd (fun e => hne (by rw [hd, e]))
              omega)
        rw [hb]
        have : b = true := hi.mpr ⟨f, hf, by
          simp only [hself, if_false]
          refine fieldPackable_true.mpr ⟨ho, he, ?_⟩
          cases hbase : f.base with
          | integer => rfl
          | item i => rfl
          | unpackable => rw [hbase] at ht; cases ht
          | compound d =>
            have := hr c' f hf d hbase (fun e => hself (by rw [hbase, e]))
            exact ih hbase (by omega)⟩
        rw [this]

/-- **C102.** The compiler takes exactly those compounds as packable which can be packed. -/
theorem C102_packable {defs : Nat → Compound} {rank : Nat → Nat} (hr : Ranked defs rank) {n c : Nat} (hn : rank c < n) :
    isPackable defs n c = some true ↔ PackableType defs (.compound c) :=
  ⟨isPackable_sound, fun h => isPackable_complete hr h rfl hn⟩

theorem typePackable_iff {defs : Nat → Compound} {rank : Nat → Nat} (hr : Ranked defs rank) {n : Nat} {t : Base}
    (hn : ∀ c, t = .compound c → rank c < n) : typePackable (isPackable defs n) t = some true ↔ PackableType defs t := by
  cases t with
  | integer => simp [typePackable, PackableType.integer]
  | item i => simp [typePackable, PackableType.item]
  | unpackable =>
    simp only [typePackable, Option.some.injEq, Bool.false_eq_true, false_iff]
    intro h
    cases h
  | compound c => exact C102_packable hr (hn c rfl)

/-- **C102.** and the same for fields. -/
theorem C102_field {defs : Nat → Compound} {rank : Nat → Nat} (hr : Ranked defs rank) {n : Nat} {f : Field}
    (hn : ∀ c, f.base = .compound c → rank c < n) : fieldPackable (isPackable defs n) f = some true ↔ PackableField defs f := by
  rw [fieldPackable_true, typePackable_iff hr hn]
  rfl

/-! ### warnings -/

/-- **C102.** A field counts as packed exactly if it is an array which is declared with `packed`. -/
theorem C102_packed (f : Field) : f.isPacked = true ↔ ∃ a, f.array = some a ∧ a.isPacked = true := by
  unfold Field.isPacked
  cases f.array <;> simp

/-- **C102.** There are warnings for arrays which are declared with `packed` only. -/
theorem C102_silent {defs : Nat → Compound} {n : Nat} {f : Field} (h : ∀ a, f.array = some a → a.isPacked = false) :
    packedWarning defs n f = none := by
  have hp : f.isPacked = false := by
    rw [Bool.eq_false_iff]
    intro hp
    obtain ⟨a, ha, hb⟩ := (C102_packed f).mp hp
    rw [h a ha] at hb
    exact absurd hb (by simp)
  simp [packedWarning, hp]

/-- an array which is not packed, of elements which cannot be -/
example : packedWarning (fun _ => ⟨true, []⟩) 3 ⟨.unpackable, some ⟨false, false⟩, false⟩ = none :=
  C102_silent (fun a h => by cases h; rfl)

/-- **C102.** There is a warning that `packed` has no effect exactly for packed arrays whose elements cannot be packed, unless the elements are
without fields. -/
theorem C102_warning {defs : Nat → Compound} {rank : Nat → Nat} (hr : Ranked defs rank) {n : Nat} {f : Field}
    (hn : ∀ c, f.base = .compound c → rank c < n) :
    packedWarning defs n f = some .array ↔ f.isPacked = true ∧ ¬ PackableType defs f.base ∧ ∀ c, f.base = .compound c → (defs c).fields ≠ [] := by
  unfold packedWarning
  cases hp : f.isPacked with
  | false => simp
  | true =>
    simp only [Bool.not_true, Bool.false_eq_true, if_false, true_and]
    cases hb : f.base with
    | integer => simp [PackableType.integer]
    | item i => simp [PackableType.item]
    | unpackable =>
      simp only [reduceCtorEq, false_implies, implies_true, and_true, true_iff]
      intro h
      cases h
    | compound c =>
      have hpk := C102_packable hr (hn c hb)
      simp only [Base.compound.injEq, forall_eq']
      by_cases h1 : isPackable defs n c = some true
      · have h2 := hpk.mp h1
        simp only [h1, h2, ne_eq, not_true_eq_false, if_false, false_and, iff_false]
        split <;> simp
      · have h2 : ¬ PackableType defs (.compound c) := fun h => h1 (hpk.mpr h)
        simp only [h1, h2, ne_eq, not_false_eq_true, if_true, true_and]
        cases hf : (defs c).fields <;> simp

/-- **C102.** If there is such a warning, then the methods without packing are used for the array. -/
theorem C102_no_effect {defs : Nat → Compound} {rank : Nat → Nat} (hr : Ranked defs rank) {n : Nat} {f : Field}
    (hn : ∀ c, f.base = .compound c → rank c < n) (h : packedWarning defs n f = some .array) (packed : Bool) :
    usesPacked defs n packed f = false := by
  have h' := ((C102_warning hr hn).mp h).2.1
  unfold usesPacked
  rw [Bool.eq_false_iff]
  intro hu
  simp only [Bool.and_eq_true, decide_eq_true_eq] at hu
  exact h' ((C102_field hr hn).mp hu.1).2.2

/-- **C102.** There is a warning about a union exactly if it has fields, but no field of another type can be packed: only its tag is packed. -/
theorem C102_union {defs : Nat → Compound} {rank : Nat → Nat} (hr : Ranked defs rank) {n : Nat} {f : Field}
    (hn : ∀ c, f.base = .compound c → rank c < n) :
    packedWarning defs n f = some .union ↔ f.isPacked = true ∧ ∃ c, f.base = .compound c ∧ (defs c).isUnion = true ∧ (defs c).fields ≠ [] ∧
      ∀ g ∈ (defs c).fields, g.base ≠ .compound c → ¬ PackableField defs g := by
  unfold packedWarning
  cases hp : f.isPacked with
  | false => simp
  | true =>
    simp only [Bool.not_true, Bool.false_eq_true, if_false, true_and]
    cases hb : f.base with
    | integer => simp
    | item i => simp
    | unpackable => simp
    | compound c =>
      have hc := hn c hb
      simp only [Base.compound.injEq, exists_eq_left']
      have hsub : ∀ g ∈ (defs c).fields, g.base ≠ .compound c → ∀ d, g.base = .compound d → rank d < n := by
        intro g hg hne d hd
        have := hr c g hg d hd (fun e => hne (by rw [hd, e]))
        omega
      obtain ⟨b, hb', hi⟩ := anyOf_total
          (p := fun f : Field => if f.base = .compound c then some false else fieldPackable (isPackable defs n) f)
          (l := (defs c).fields) (by
            intro g hg
            split
            · exact ⟨_, rfl⟩
            · rename_i hne
              exact fieldPackable_total fun d hd => C102_total hr (hsub g hg hne d hd))
      have hhas : hasPackableField (isPackable defs n) c (defs c).fields = some b := hb'
      have hbi : b = true ↔ ∃ g ∈ (defs c).fields, g.base ≠ .compound c ∧ PackableField defs g := by
        rw [hi]
        constructor
        · rintro ⟨g, hg, h⟩
          split at h
          · cases h
          · rename_i hne
            exact ⟨g, hg, hne, (C102_field hr (hsub g hg hne)).mp h⟩
        · rintro ⟨g, hg, hne, h⟩
          exact ⟨g, hg, by rw [if_neg hne]; exact (C102_field hr (hsub g hg hne)).mpr h⟩
      rw [hhas]
      by_cases h1 : isPackable defs n c = some true
      · simp only [h1, ne_eq, not_true_eq_false, if_false]
        by_cases hu : (defs c).isUnion = true
        · have hne : (defs c).fields ≠ [] := by
            have := h1
            obtain ⟨m, rfl⟩ : ∃ m, n = m + 1 := ⟨n - 1, by omega⟩
            unfold isPackable at this
            rw [if_pos hu] at this
            simpa using this
          cases b with
          | true =>
            obtain ⟨g, hg, hgne, hgp⟩ := hbi.mp rfl
            simp only [hu, not_true_eq_false, and_false, if_false, reduceCtorEq, true_and, false_iff, not_and, not_forall]
            exact fun _ => ⟨g, hg, hgne, fun h => h hgp⟩
          | false =>
            simp only [hu, Option.some.injEq, Bool.false_eq_true, not_false_eq_true, and_self, if_true, true_and, true_iff]
            refine ⟨hne, fun g hg hgne hgp => ?_⟩
            exact absurd (hbi.mpr ⟨g, hg, hgne, hgp⟩) (by simp)
        · simp [hu]
      · simp only [h1, ne_eq, not_false_eq_true, if_true]
        constructor
        · intro h
          split at h <;> cases h
        · rintro ⟨hu, hne, _⟩
          exact absurd ((C102_packable hr hc).mpr (.union hu hne)) h1

/-! ### the collector -/

theorem visit_spec {defs : Nat → Compound} {rank : Nat → Nat} (hr : Ranked defs rank) : ∀ {n depth c : Nat} {set : List Base}, rank c < n →
    ∃ set', visit defs n depth c set = some set' ∧ ∀ t, t ∈ set' ↔ t ∈ set ∨ InPacked defs (decide (depth > 0)) c t := by
  intro n
  induction n with
  | zero => intro depth c set h; omega
  | succ n ih =>
    intro depth c set hn
    unfold visit
    have key : ∀ (l : List Field) (set : List Base), (∀ f ∈ l, f ∈ (defs c).fields) → ∃ set', l.foldlM (fun set f =>
        let depth := if f.isPacked then depth + 1 else depth
        if depth > 0 then
          match f.base with
          | .compound d => if c ≠ d then visit defs n depth d (f.base :: set) else some (f.base :: set)
          | _ => some (f.base :: set)
        else some set) set = some set' ∧ ∀ t, t ∈ set' ↔ t ∈ set ∨ ∃ f ∈ l, (decide (depth > 0) = true ∨ f.isPacked = true) ∧
          (f.base = t ∨ ∃ d, f.base = .compound d ∧ d ≠ c ∧ InPacked defs true d t) := by
      intro l
      induction l with
      | nil => intro set _; exact ⟨set, rfl, by simp⟩
      | cons f l ihl =>
        intro set hl
        have hone : ∃ set₁, (let depth := if f.isPacked then depth + 1 else depth
            if depth > 0 then
              match f.base with
              | .compound d => if c ≠ d then visit defs n depth d (f.base :: set) else some (f.base :: set)
              | _ => some (f.base :: set)
            else some set) = some set₁ ∧ ∀ t, t ∈ set₁ ↔ t ∈ set ∨ ((decide (depth > 0) = true ∨ f.isPacked = true) ∧
              (f.base = t ∨ ∃ d, f.base = .compound d ∧ d ≠ c ∧ InPacked defs true d t)) := by
          have hdepth : (if f.isPacked = true then depth + 1 else depth) > 0 ↔ (decide (depth > 0) = true ∨ f.isPacked = true) := by
            split
            · rename_i h; simp [h]
            · rename_i h; simp [h]
          by_cases hd : (if f.isPacked = true then depth + 1 else depth) > 0
          · have hd' := hdepth.mp hd
            simp only [hd, if_true, hd', true_and]
            cases hb : f.base with
            | compound d =>
              by_cases hne : c = d
              · refine ⟨.compound d :: set, by simp [hne], fun t => ?_⟩
                simp only [List.mem_cons, Base.compound.injEq]
                constructor
                · rintro (rfl | h)
                  · exact .inr (.inl rfl)
                  · exact .inl h
                · rintro (h | h | ⟨d', rfl, h, _⟩)
                  · exact .inr h
                  · exact .inl h.symm
                  · exact absurd hne.symm h
              · have hrank := hr c f (hl f (by simp)) d hb (fun e => hne e.symm)
                obtain ⟨set', hs, ht⟩ := ih (depth := if f.isPacked = true then depth + 1 else depth) (c := d)
                  (set := .compound d :: set) (by omega)
                refine ⟨set', by simp only [ne_eq, hne, not_false_eq_true, if_true]; exact hs, fun t => ?_⟩
                rw [ht, decide_eq_true hd]
                simp only [List.mem_cons, Base.compound.injEq]
                constructor
                · rintro ((rfl | h) | h)
                  · exact .inr (.inl rfl)
                  · exact .inl h
                  · exact .inr (.inr ⟨d, rfl, fun e => hne e.symm, h⟩)
                · rintro (h | h | ⟨d', rfl, _, h⟩)
                  · exact .inl (.inr h)
                  · exact .inl (.inl h.symm)
                  · exact .inr h
            | integer => exact ⟨_, rfl, fun t => by simp only [List.mem_cons, reduceCtorEq, false_and, exists_false, or_false]; tauto⟩
            | unpackable => exact ⟨_, rfl, fun t => by simp only [List.mem_cons, reduceCtorEq, false_and, exists_false, or_false]; tauto⟩
            | item i => exact ⟨_, rfl, fun t => by simp only [List.mem_cons, reduceCtorEq, false_and, exists_false, or_false]; tauto⟩
          · have hd' := fun h => hd (hdepth.mpr h)
            refine ⟨set, by simp only [hd, if_false], fun t => ?_⟩
            exact ⟨.inl, fun h => h.resolve_right fun h => hd' h.1⟩
        obtain ⟨set₁, h1, h1'⟩ := hone
        obtain ⟨set₂, h2, h2'⟩ := ihl set₁ fun g hg => hl g (by simp [hg])
        refine ⟨set₂, ?_, fun t => ?_⟩
        · rw [List.foldlM_cons]
          show Option.bind _ _ = _
          rw [h1]
          exact h2
        · rw [h2', h1']
          simp only [List.mem_cons, exists_eq_or_imp, or_assoc]
    obtain ⟨set', hs, ht⟩ := key (defs c).fields set fun _ h => h
    refine ⟨set', hs, fun t => ?_⟩
    rw [ht]
    constructor
    · rintro (h | ⟨f, hf, hw, rfl | ⟨d, hd, hne, hi⟩⟩)
      · exact .inl h
      · exact .inr (.here hf hw)
      · exact .inr (.inside hf hw hd hne hi)
    · rintro (h | h)
      · exact .inl h
      · cases h with
        | here hf hw => exact .inr ⟨_, hf, hw, .inl rfl⟩
        | inside hf hw hd hne hi => exact .inr ⟨_, hf, hw, .inr ⟨_, hd, hne, hi⟩⟩

/-- **C102.** Without indirect recursion, the collector finds exactly the types used in packed arrays of the types of the schema. -/
theorem C102_collected {defs : Nat → Compound} {rank : Nat → Nat} (hr : Ranked defs rank) {n : Nat} {types : List Nat}
    (hn : ∀ c ∈ types, rank c < n) :
    ∃ set, collect defs n types = some set ∧ ∀ t, t ∈ set ↔ ∃ c ∈ types, InPacked defs false c t := by
  unfold collect
  have key : ∀ (l : List Nat) (set : List Base), (∀ c ∈ l, rank c < n) → ∃ set', l.foldlM (fun set c => visit defs n 0 c set) set = some set' ∧
      ∀ t, t ∈ set' ↔ t ∈ set ∨ ∃ c ∈ l, InPacked defs false c t := by
    intro l
    induction l with
    | nil => intro set _; exact ⟨set, rfl, by simp⟩
    | cons c l ihl =>
      intro set hl
      obtain ⟨set₁, h1, h1'⟩ := visit_spec hr (n := n) (depth := 0) (c := c) (set := set) (hl c (by simp))
      obtain ⟨set₂, h2, h2'⟩ := ihl set₁ fun d hd => hl d (by simp [hd])
      refine ⟨set₂, ?_, fun t => ?_⟩
      · rw [List.foldlM_cons]
        show Option.bind _ _ = _
        rw [h1]
        exact h2
      · rw [h2', h1']
        simp [or_assoc]
  obtain ⟨set, h, h'⟩ := key types [] hn
  exact ⟨set, h, fun t => by rw [h']; simp⟩

/-- fields of a type which is used in a packed array are used in a packed array, unless this is a packed array in the type itself -/
theorem inPacked_field {defs : Nat → Compound} {within : Bool} {c₀ : Nat} {t : Base} (h : InPacked defs within c₀ t) :
    ∀ {c : Nat} {f : Field}, t = .compound c → f ∈ (defs c).fields → (within = true ∨ c ≠ c₀) → InPacked defs within c₀ f.base := by
  induction h with
  | @here within c₀ g hg hw =>
    intro c f hc hf hx
    by_cases he : c = c₀
    · subst he
      exact .here hf (.inl (hx.resolve_right (by simp)))
    · exact .inside hg hw hc he (.here hf (.inl rfl))
  | @inside within c₀ d g t hg hw hd hne _ ih =>
    intro c f hc hf _
    exact .inside hg hw hd hne (ih hc hf (.inl rfl))

/-- **C102 (partial: types with packed arrays of themselves only if they are used in packed arrays of other types, too).** The classes and
objects whose methods for packed arrays are used by generated code have these methods. -/
theorem C102_methods_partial {defs : Nat → Compound} {rank : Nat → Nat} (hr : Ranked defs rank) {n : Nat} {types : List Nat}
    (hc : ∀ c ∈ types, ∀ f ∈ (defs c).fields, ∀ d, f.base = .compound d → d ∈ types)
    (hn : ∀ c ∈ types, rank c < n)
    (hself : ∀ c ∈ types, (∃ f ∈ (defs c).fields, f.isPacked = true ∧ f.base = .compound c) →
      (∀ f ∈ (defs c).fields, f.base = .compound c ∨ f.base = .integer ∨ f.base = .unpackable) ∨
        ∃ c₀ ∈ types, c₀ ≠ c ∧ InPacked defs false c₀ (.compound c))
    {set : List Base} (hs : collect defs n types = some set) :
    ∀ c ∈ types, ∀ t ∈ requests defs n set c, hasPackedMethods defs n set t = true := by
  obtain ⟨set', hs', hset⟩ := C102_collected hr hn
  rw [hs] at hs'
  cases hs'
  intro c hct t ht
  have hfin : ∀ f ∈ (defs c).fields, fieldPackable (isPackable defs n) f = some true →
      (f.base ∈ set ∨ f.base = .integer) → hasPackedMethods defs n set f.base = true := by
    intro f hf hp hin
    have ht := (fieldPackable_true.mp hp).2.2
    unfold hasPackedMethods
    cases hb : f.base with
    | integer => rfl
    | unpackable => rw [hb] at ht; simp [typePackable] at ht
    | item i =>
      rw [hb] at hin
      simpa using hin
    | compound d =>
      rw [hb] at hin ht
      have : isPackable defs n d = some true := ht
      simpa [this] using hin
  unfold requests at ht
  rcases List.mem_append.mp ht with ht | ht
  · rcases List.mem_append.mp ht with ht | ht
    · obtain ⟨f, hf, rfl⟩ := List.mem_map.mp ht
      obtain ⟨hf, hu⟩ := List.mem_filter.mp hf
      simp only [usesPacked, Bool.false_or, Bool.and_eq_true, decide_eq_true_eq] at hu
      exact hfin f hf hu.1 (.inl ((hset _).mpr ⟨c, hct, .here hf (.inr hu.2)⟩))
    · split at ht
      · rename_i hh
        obtain ⟨f, hf, rfl⟩ := List.mem_map.mp ht
        obtain ⟨hf, hu⟩ := List.mem_filter.mp hf
        simp only [usesPacked, Bool.true_or, Bool.and_true, decide_eq_true_eq] at hu
        refine hfin f hf hu ?_
        simp only [hasPackedMethods, Bool.and_eq_true, decide_eq_true_eq, List.contains_iff_mem] at hh
        obtain ⟨c₀, hc₀, hin⟩ := (hset _).mp hh.2
        by_cases hne : c = c₀
        · subst hne
          by_cases hsp : ∃ f ∈ (defs c).fields, f.isPacked = true ∧ f.base = .compound c
          · rcases hself c hct hsp with hall | ⟨c₁, hc₁, hne₁, hin₁⟩
            · rcases hall f hf with hb | hb | hb
              · left; rw [hb]; exact hh.2
              · exact .inr hb
              · have := (fieldPackable_true.mp hu).2.2
                rw [hb] at this
                simp [typePackable] at this
            · exact .inl ((hset _).mpr ⟨c₁, hc₁, inPacked_field hin₁ rfl hf (.inr (Ne.symm hne₁))⟩)
          · exfalso
            have hno : ∀ {within : Bool} {a : Nat} {t : Base}, InPacked defs within a t → t = .compound c → (a ≠ c → rank c < rank a) ∧
                (a = c → within = false → False) := by
              intro within a t h
              induction h with
              | @here within a g hg hw =>
                intro hb
                refine ⟨fun hne => hr a g hg c hb (Ne.symm hne), ?_⟩
                rintro rfl rfl
                exact hsp ⟨g, hg, by simpa using hw, hb⟩
              | @inside within a d g t hg hw hd hne _ ih =>
                intro hb
                have h1 := hr a g hg d hd hne
                constructor
                · intro _
                  by_cases hdc : d = c
                  · rw [← hdc]; exact h1
                  · have := (ih hb).1 hdc
                    omega
                · rintro rfl _
                  have := (ih hb).1 hne
                  omega
            exact (hno hin rfl).2 rfl rfl
        · exact .inl ((hset _).mpr ⟨c₀, hc₀, inPacked_field hin rfl hf (.inr hne)⟩)
      · simp at ht
  · obtain ⟨f, hf, rfl⟩ := List.mem_map.mp ht
    obtain ⟨hf, hu⟩ := List.mem_filter.mp hf
    simp only [Bool.and_eq_true, decide_eq_true_eq, List.contains_iff_mem] at hu
    exact hfin f hf hu.1.2 (.inl hu.2)

/-! ### samples -/

namespace Demo

/-- `struct Point { uint8 x; Color color; }` -/
def point : Compound := ⟨false, [⟨.integer, none, false⟩, ⟨.item 0, none, false⟩]⟩

/-- `struct Node { Point point; string name; packed Node children[]; }` -/
def node : Compound := ⟨false, [⟨.compound 1, none, false⟩, ⟨.unpackable, none, false⟩, ⟨.compound 0, some ⟨true, false⟩, false⟩]⟩

/-- `struct Forest { packed Node trees[]; }` -/
def forest : Compound := ⟨false, [⟨.compound 0, some ⟨true, false⟩, false⟩]⟩

/-- the types 0: `Node`, 1: `Point`, 2: `Forest` -/
def woods : Nat → Compound := fun c => if c = 0 then node else if c = 1 then point else if c = 2 then forest else ⟨false, []⟩

def order : Nat → Nat := fun c => if c = 2 then 2 else if c = 0 then 1 else 0

theorem woods_ranked : Ranked woods order := by
  intro c f hf d hd hne
  by_cases h0 : c = 0
  · subst h0
    simp [woods, node] at hf
    rcases hf with rfl | rfl | rfl
    · cases hd; decide
    · cases hd
    · cases hd; exact absurd rfl hne
  · by_cases h1 : c = 1
    · subst h1
      simp [woods, point] at hf
      rcases hf with rfl | rfl <;> simp at hd
    · by_cases h2 : c = 2
      · subst h2
        simp [woods, forest] at hf
        subst hf
        simp at hd
        subst hd
        simp [order]
      · simp [woods, h0, h1, h2] at hf

/-- the hypotheses hold for the schema with `Forest`, and packed methods are used -/
example : Ranked woods order ∧ (∀ c ∈ [0, 1, 2], order c < 3) ∧
    (∀ c ∈ [0, 1, 2], ∀ f ∈ (woods c).fields, ∀ d, f.base = .compound d → d ∈ [0, 1, 2]) ∧
    (∃ c₀ ∈ [0, 1, 2], c₀ ≠ 0 ∧ InPacked woods false c₀ (.compound 0)) ∧
    (∃ set, collect woods 3 [0, 1, 2] = some set ∧ requests woods 3 set 0 ≠ [] ∧ requests woods 3 set 1 ≠ []) := by
  refine ⟨woods_ranked, by decide, ?_, ⟨2, by simp, by simp, ?_⟩, ⟨_, rfl, by decide +kernel, by decide +kernel⟩⟩
  · intro c hc f hf d hd
    simp only [List.mem_cons, List.not_mem_nil, or_false] at hc
    rcases hc with rfl | rfl | rfl
    · simp [woods, node] at hf
      rcases hf with rfl | rfl | rfl <;> simp_all
    · simp [woods, point] at hf
      rcases hf with rfl | rfl <;> simp at hd
    · simp [woods, forest] at hf
      subst hf
      simp_all
  · exact .here (f := ⟨.compound 0, some ⟨true, false⟩, false⟩) (by simp [woods, forest]) (.inr rfl)

example : packedWarning woods 3 ⟨.unpackable, some ⟨true, false⟩, false⟩ = some .array := by decide +kernel
example : packedWarning (fun _ => ⟨true, [⟨.unpackable, none, false⟩]⟩) 3 ⟨.compound 0, some ⟨true, false⟩, false⟩ = some .union := by
  decide +kernel

end Demo

/-! ### accepted schemas -/

/-- the base type in the sense of this model; `label` are the enumerations and bitmasks -/
def baseOf (label : FieldDef → Nat) (f : FieldDef) : Base :=
  match f.type with
  | .int _ | .dynBits _ _ => .integer
  | .other _ => .unpackable
  | .enum _ | .bitmask _ => .item (label f)
  | .compound c _ => .compound c

/-- the field; `offset`: it is used as an offset -/
def fieldOf (label : FieldDef → Nat) (offset : FieldDef → Bool) (f : FieldDef) : Field :=
  ⟨baseOf label f, f.array.map fun a => ⟨a.isPacked, match a.kind with | .implicit => true | _ => false⟩, offset f⟩

/-- the schema of the other models as schema of this model -/
def schemaOf (label : FieldDef → Nat) (offset : FieldDef → Bool) (defs : Schema) (c : Nat) : Compound :=
  ⟨match defs c with | .union _ => true | _ => false, (SchemaCheck.fieldsOf (defs c)).map (fieldOf label offset)⟩

theorem schemaOf_contains {label : FieldDef → Nat} {offset : FieldDef → Bool} {defs : Schema} {c d : Nat} {f : Field}
    (hf : f ∈ (schemaOf label offset defs c).fields) (hd : f.base = .compound d) : defs.Contains c d := by
  simp only [schemaOf, List.mem_map] at hf
  obtain ⟨g, hg, rfl⟩ := hf
  rw [SchemaCheck.contains_iff]
  refine ⟨g, hg, ?_⟩
  simp only [fieldOf, baseOf] at hd
  unfold SchemaCheck.child
  split at hd <;> simp_all

/-- **C102.** The hypotheses about recursion hold for all schemas which the compiler accepts (C82): it finds out with a stack for as many calls as
there are types which types can be packed and which are used in packed arrays. -/
theorem C102_accepted (allow : Bool) {defs : Schema} (lower : FieldDef → Option Int) {m : Nat} {types : List Nat} (hc : defs.Complete types)
    (h : SchemaCheck.compile allow defs lower m types = some (.ok ())) (label : FieldDef → Nat) (offset : FieldDef → Bool) :
    ∃ rank, Ranked (schemaOf label offset defs) rank ∧ (∀ c ∈ types, rank c < types.length + 1) ∧
      ∀ c ∈ types, ∀ f ∈ (schemaOf label offset defs c).fields, ∀ d, f.base = .compound d → d ∈ types := by
  classical
  have hi := (C82_rules allow defs lower m types hc h).1
  refine ⟨fun c => (types.toFinset.filter fun x => x ≠ c ∧ defs.Nested c x).card, ?_, ?_, ?_⟩
  · intro c f hf d hd hne
    have hcd := schemaOf_contains hf hd
    refine Finset.card_lt_card ⟨?_, ?_⟩
    · intro x hx
      simp only [Finset.mem_filter, List.mem_toFinset] at hx ⊢
      have hcx : defs.Nested c x := Relation.TransGen.head hcd hx.2.2
      refine ⟨hx.1, ?_, hcx⟩
      rintro rfl
      exact hi _ _ (Ne.symm hne) (Relation.TransGen.single hcd) hx.2.2
    · intro hsub
      have hdt : d ∈ types := by
        by_cases hct : c ∈ types
        · exact hc.1 c hct d hcd
        · have hemp := hc.2 c hct
          simp [schemaOf, hemp, SchemaCheck.fieldsOf] at hf
      have := hsub (x := d) (by
        simp only [Finset.mem_filter, List.mem_toFinset]
        exact ⟨hdt, hne, Relation.TransGen.single hcd⟩)
      simp at this
  · intro c _
    have h1 := Finset.card_filter_le types.toFinset fun x => x ≠ c ∧ defs.Nested c x
    have h2 := List.toFinset_card_le types
    exact Nat.lt_succ_of_le (le_trans h1 h2)
  · intro c hct f hf d hd
    exact hc.1 c hct d (schemaOf_contains hf hd)

namespace Demo

/-- `struct Node { Point point; string name; packed Node children[]; }`, `struct Point { uint8 x; Color color; }` -/
def tree : Schema := fun c =>
  if c = 0 then .struct [{ type := .compound 1 [] }, { type := .other .string }, { type := .compound 0 [], array := some ⟨.auto, true⟩ }]
  else if c = 1 then .struct [{ type := .int (.bitField 8) }, { type := .enum ⟨.bitField 8, [0, 1], []⟩ }]
  else .struct []

theorem tree_complete : tree.Complete [0, 1] := by
  refine ⟨fun a ha b hab => ?_, fun a ha => ?_⟩
  · obtain ⟨f, hf, hfb⟩ := SchemaCheck.contains_iff.mp hab
    simp only [List.mem_cons, List.not_mem_nil, or_false] at ha
    rcases ha with rfl | rfl
    · simp [tree, SchemaCheck.fieldsOf] at hf
      rcases hf with rfl | rfl | rfl <;> simp [SchemaCheck.child] at hfb <;> simp [← hfb]
    · simp [tree, SchemaCheck.fieldsOf] at hf
      rcases hf with rfl | rfl <;> simp [SchemaCheck.child] at hfb
  · simp only [List.mem_cons, List.not_mem_nil, or_false, not_or] at ha
    simp [tree, ha.1, ha.2]

example : SchemaCheck.compile false tree (fun _ => none) 3 [0, 1] = some (.ok ()) := rfl

end Demo

/-- A type with a packed array of itself: the schema with `Node` and `Point` is accepted, the methods for packed arrays of the class `Node`
use those of the class `Point` and of the enumeration, but these have none, so that nodes with children can be neither written nor read. -/
theorem C102_recursion_deviates :
    Demo.tree.Complete [0, 1] ∧ SchemaCheck.compile false Demo.tree (fun _ => none) 3 [0, 1] = some (.ok ()) ∧
    ∃ set, collect (schemaOf (fun _ => 0) (fun _ => false) Demo.tree) 3 [0, 1] = some set ∧
      .compound 0 ∈ requests (schemaOf (fun _ => 0) (fun _ => false) Demo.tree) 3 set 0 ∧
      .compound 1 ∈ requests (schemaOf (fun _ => 0) (fun _ => false) Demo.tree) 3 set 0 ∧
      hasPackedMethods (schemaOf (fun _ => 0) (fun _ => false) Demo.tree) 3 set (.compound 0) = true ∧
      hasPackedMethods (schemaOf (fun _ => 0) (fun _ => false) Demo.tree) 3 set (.compound 1) = false := by
  exact ⟨Demo.tree_complete, rfl, _, rfl, by decide +kernel, by decide +kernel, by decide +kernel, by decide +kernel⟩

end Zserio.Packable
