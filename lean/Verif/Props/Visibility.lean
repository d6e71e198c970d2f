import Verif.Spec.Visibility
import Verif.Model.JsonText
import Mathlib.Data.List.Induction
import Mathlib.Data.List.Nodup
import Mathlib.Tactic.Tauto
set_option linter.unusedSimpArgs false
/-
C88: which symbol a name in a schema means.

`root` are all packages of a schema, `d` is the package in which the name is used.
-/
namespace Zserio.Visibility

/-! ### The imports of a package -/

theorem mem_packages (l : List Import) : ∀ q, q ∈ (l.foldl Imported.add ⟨[], []⟩).packages ↔ .all q ∈ l := by
  induction l using List.reverseRecOn with
  | nil => intro q; simp
  | append_singleton l i ih =>
    intro q
    rw [List.foldl_append]
    simp only [List.foldl_cons, List.foldl_nil, List.mem_append, List.mem_singleton, ← ih q]
    cases i with
    | all p =>
      simp only [Imported.add, Import.all.injEq]
      split <;> rename_i hp
      · constructor
        · exact Or.inl
        · rintro (h | rfl)
          · exact h
          · exact hp
      · simp
    | single p n =>
      simp only [Imported.add]
      split
      · simp
      · split <;> simp

theorem mem_symbols (l : List Import) : ∀ s : Symbol, s ∈ (l.foldl Imported.add ⟨[], []⟩).symbols ↔
    .single s.package s.name ∈ l ∧ .all s.package ∉ l := by
  induction l using List.reverseRecOn with
  | nil => intro q; simp
  | append_singleton l i ih =>
    intro s
    have hp := mem_packages l
    rw [List.foldl_append]
    simp only [List.foldl_cons, List.foldl_nil, List.mem_append, List.mem_singleton]
    cases i with
    | all p =>
      simp only [Imported.add, List.mem_filter, ih s, decide_eq_true_eq, Import.all.injEq, reduceCtorEq, or_false, not_or]
      tauto
    | single p n =>
      simp only [Imported.add, reduceCtorEq, or_false, Import.single.injEq]
      split <;> rename_i h1
      · rw [hp] at h1
        rw [ih s]
        constructor
        · rintro ⟨h2, h3⟩; exact ⟨.inl h2, h3⟩
        · rintro ⟨h2 | ⟨h2, -⟩, h3⟩
          · exact ⟨h2, h3⟩
          · rw [h2] at h3; exact absurd h1 h3
      · rw [hp] at h1
        split <;> rename_i h2
        · rw [ih] at h2
          rw [ih s]
          constructor
          · rintro ⟨h3, h4⟩; exact ⟨.inl h3, h4⟩
          · rintro ⟨h3 | ⟨h3, h5⟩, h4⟩
            · exact ⟨h3, h4⟩
            · rw [h3, h5]; exact h2
        · simp only [List.mem_append, List.mem_singleton, ih s]
          constructor
          · rintro (⟨h3, h4⟩ | rfl)
            · exact ⟨.inl h3, h4⟩
            · exact ⟨.inr ⟨rfl, rfl⟩, h1⟩
          · rintro ⟨h3 | ⟨h3, h5⟩, h4⟩
            · exact .inl ⟨h3, h4⟩
            · right
              cases s
              simp only at h3 h5
              rw [h3, h5]

theorem nodup_packages (l : List Import) : (l.foldl Imported.add ⟨[], []⟩).packages.Nodup := by
  induction l using List.reverseRecOn with
  | nil => simp
  | append_singleton l i ih =>
    rw [List.foldl_append]
    simp only [List.foldl_cons, List.foldl_nil]
    cases i with
    | all p =>
      simp only [Imported.add]
      split <;> rename_i hp
      · exact ih
      · rw [List.nodup_append]
        exact ⟨ih, by simp, by intro a ha b hb; simp only [List.mem_singleton] at hb; subst hb; rintro rfl; exact hp ha⟩
    | single p n =>
      simp only [Imported.add]
      split
      · exact ih
      · split <;> exact ih

theorem nodup_symbols (l : List Import) : (l.foldl Imported.add ⟨[], []⟩).symbols.Nodup := by
  induction l using List.reverseRecOn with
  | nil => simp
  | append_singleton l i ih =>
    rw [List.foldl_append]
    simp only [List.foldl_cons, List.foldl_nil]
    cases i with
    | all p => exact ih.filter _
    | single p n =>
      simp only [Imported.add]
      split
      · exact ih
      · split <;> rename_i h2
        · exact ih
        · rw [List.nodup_append]
          exact ⟨ih, by simp, by intro a ha b hb; simp only [List.mem_singleton] at hb; subst hb; rintro rfl; exact h2 ha⟩

/-! ### The candidates -/

theorem Root.get_name {root : Root} {q : PackageName} {d : Package} (h : root.get q = some d) : d.name = q := by
  unfold Root.get at h
  simpa using List.find?_some h

theorem localSymbol_iff {d : Package} {q : PackageName} {n : Name} {s : Symbol} :
    d.localSymbol q n = some s ↔ Fits q n s ∧ s.package = d.name ∧ n ∈ d.locals := by
  unfold Package.localSymbol Fits
  constructor
  · intro h
    split at h
    · cases h
    · rename_i h1
      split at h
      · rename_i h2
        simp only [Option.some.injEq] at h
        subst h
        simp only [ne_eq, not_and, not_not] at h1
        refine ⟨⟨rfl, ?_⟩, rfl, h2⟩
        by_cases hq : q = []
        · exact .inl hq
        · exact .inr (h1 hq)
      · cases h
  · rintro ⟨⟨h1, h2⟩, h3, h4⟩
    rw [if_neg, if_pos h4]
    · cases s; simp only at h1 h3; rw [h1, h3]
    · rintro ⟨h5, h6⟩
      rcases h2 with h2 | h2
      · exact h5 h2
      · exact h6 (h2.trans h3)

theorem mem_fromSingles {d : Package} {q : PackageName} {n : Name} {s : Symbol} :
    s ∈ d.fromSingles q n ↔ Fits q n s ∧ .single s.package n ∈ d.imports ∧ .all s.package ∉ d.imports := by
  unfold Package.fromSingles Package.imported Fits
  rw [List.mem_filter, mem_symbols]
  simp only [decide_eq_true_eq]
  constructor
  · rintro ⟨⟨h1, h2⟩, h3, h4⟩
    subst h3
    exact ⟨⟨rfl, h4⟩, h1, h2⟩
  · rintro ⟨⟨rfl, h2⟩, h3, h4⟩
    exact ⟨⟨h3, h4⟩, rfl, h2⟩

theorem mem_fromPackages {root : Root} {d : Package} {q : PackageName} {n : Name} {s : Symbol} :
    s ∈ d.fromPackages root q n ↔ d.Far root q n s := by
  unfold Package.fromPackages Package.imported Package.Far Root.Defines
  rw [List.mem_filterMap]
  constructor
  · rintro ⟨p, h1, h2⟩
    rw [mem_packages] at h1
    rcases hg : root.get p with _ | d'
    · rw [hg] at h2; cases h2
    · rw [hg, Option.bind_some, localSymbol_iff] at h2
      obtain ⟨h2, h3, h4⟩ := h2
      have := Root.get_name hg
      rw [h3, this]
      exact ⟨h2, h1, d', hg, h4⟩
  · rintro ⟨h1, h2, d', h3, h4⟩
    refine ⟨s.package, (mem_packages _ _).2 h2, ?_⟩
    rw [h3, Option.bind_some, localSymbol_iff]
    exact ⟨h1, (Root.get_name h3).symm, h4⟩

theorem nodup_fromPackages (root : Root) (d : Package) (q : PackageName) (n : Name) : (d.fromPackages root q n).Nodup := by
  unfold Package.fromPackages
  refine List.Nodup.filterMap ?_ (nodup_packages _)
  intro a a' b h1 h2
  simp only [Option.mem_def] at h1 h2
  rcases ha : root.get a with _ | d1
  · rw [ha] at h1; cases h1
  rcases ha' : root.get a' with _ | d2
  · rw [ha'] at h2; cases h2
  rw [ha, Option.bind_some, localSymbol_iff] at h1
  rw [ha', Option.bind_some, localSymbol_iff] at h2
  rw [← Root.get_name ha, ← Root.get_name ha', ← h1.2.1, ← h2.2.1]

theorem mem_near {d : Package} {q : PackageName} {n : Name} {s : Symbol} :
    s ∈ (d.localSymbol q n).toList ++ d.fromSingles q n ↔ d.Near q n s := by
  rw [List.mem_append, Option.mem_toList, localSymbol_iff, mem_fromSingles]
  unfold Package.Near
  tauto

theorem nodup_near {d : Package} (h : d.NoSelfImport) (q : PackageName) (n : Name) :
    ((d.localSymbol q n).toList ++ d.fromSingles q n).Nodup := by
  rw [List.nodup_append]
  refine ⟨?_, (nodup_symbols _).filter _, ?_⟩
  · cases d.localSymbol q n <;> simp
  · intro a ha b hb hab
    subst hab
    rw [Option.mem_toList, localSymbol_iff] at ha
    rw [mem_fromSingles, ha.2.1] at hb
    exact h n hb.2.1

/-- a list without duplicates has one element exactly if there is only one -/
theorem eq_singleton_iff {α : Type} {l : List α} (h : l.Nodup) (s : α) : l = [s] ↔ Only (· ∈ l) s := by
  constructor
  · rintro rfl
    exact ⟨by simp, by simp⟩
  · rintro ⟨h1, h2⟩
    match l, h with
    | [a], _ => simp only [List.mem_singleton] at h1; rw [h1]
    | a :: b :: l, h =>
      have h3 := h2 a (by simp)
      have h4 := h2 b (by simp)
      simp only [List.nodup_cons, List.mem_cons] at h
      exact absurd (.inl (h3.trans h4.symm)) h.1

theorem visible_iff {root : Root} {d : Package} {q : PackageName} {n : Name} {s : Symbol} :
    d.visible root q n = .ok (some s) ↔ d.allVisible root q n = [s] := by
  unfold Package.visible
  split <;> rename_i h
  · rw [h]; simp
  · rw [h]; simp
  · simp only [reduceCtorEq, false_iff]
    exact h s

theorem visible_none {root : Root} {d : Package} {q : PackageName} {n : Name} :
    d.visible root q n = .ok none ↔ d.allVisible root q n = [] := by
  unfold Package.visible
  split <;> rename_i h
  · rw [h]; simp
  · rw [h]; simp
  · rename_i h1
    simp only [reduceCtorEq, false_iff]
    exact h1

theorem allVisible_nil {root : Root} {d : Package} {q : PackageName} {n : Name} :
    d.allVisible root q n = [] ↔ NoOne (d.Near q n) ∧ NoOne (d.Far root q n) := by
  unfold Package.allVisible NoOne
  simp only
  split <;> rename_i h
  · rw [List.isEmpty_iff] at h
    constructor
    · intro h1
      refine ⟨fun s hs => ?_, fun s hs => ?_⟩
      · rw [← mem_near, h] at hs; cases hs
      · rw [← mem_fromPackages, h1] at hs; cases hs
    · rintro ⟨-, h2⟩
      rw [List.eq_nil_iff_forall_not_mem]
      intro s hs
      exact h2 s (mem_fromPackages.1 hs)
  · rw [List.isEmpty_iff] at h
    constructor
    · intro h1; exact absurd h1 h
    · rintro ⟨h1, -⟩
      rw [List.eq_nil_iff_forall_not_mem]
      intro s hs
      exact h1 s (mem_near.1 hs)

/-! ### C88 -/

/-- **C88.** What a name means.  It is the only symbol which the package defines itself or imports by name; if there is none of these,
the only symbol in the packages which are imported as a whole. -/
theorem C88_found_iff (root : Root) (d : Package) (hd : d.NoSelfImport) (q : PackageName) (n : Name) (s : Symbol) :
    d.visible root q n = .ok (some s) ↔
      Only (d.Near q n) s ∨ NoOne (d.Near q n) ∧ Only (d.Far root q n) s := by
  rw [visible_iff]
  have hnear : Only (· ∈ (d.localSymbol q n).toList ++ d.fromSingles q n) s ↔ Only (d.Near q n) s := by
    unfold Only; simp only [mem_near]
  have hfar : Only (· ∈ d.fromPackages root q n) s ↔ Only (d.Far root q n) s := by
    unfold Only; simp only [mem_fromPackages]
  unfold Package.allVisible
  simp only
  split <;> rename_i h
  · rw [List.isEmpty_iff] at h
    have hno : NoOne (d.Near q n) := fun s hs => by rw [← mem_near, h] at hs; cases hs
    rw [eq_singleton_iff (nodup_fromPackages root d q n), hfar]
    constructor
    · intro h1; exact .inr ⟨hno, h1⟩
    · rintro (h1 | ⟨-, h1⟩)
      · exact absurd h1.1 (hno s)
      · exact h1
  · rw [List.isEmpty_iff] at h
    rw [eq_singleton_iff (nodup_near hd q n), hnear]
    constructor
    · exact .inl
    · rintro (h1 | ⟨h1, -⟩)
      · exact h1
      · exact absurd (List.eq_nil_iff_forall_not_mem.2 fun s hs => h1 s (mem_near.1 hs)) h

/-- **C88.** A name is unknown exactly if no such symbol is defined or imported. -/
theorem C88_unknown_iff (root : Root) (d : Package) (q : PackageName) (n : Name) :
    d.visible root q n = .ok none ↔ NoOne (d.Near q n) ∧ NoOne (d.Far root q n) := by
  rw [visible_none, allVisible_nil]

/-- **C88.** Whatever a name means is a symbol with this name and from the package asked for which exists, and which is defined in
the package itself or imported. -/
theorem C88_sound (root : Root) (d : Package) (hin : d.In root) (hr : d.Resolved root) (q : PackageName) (n : Name) (s : Symbol)
    (h : d.visible root q n = .ok (some s)) :
    Fits q n s ∧ root.Defines s.package s.name ∧
      (s.package = d.name ∨ .single s.package s.name ∈ d.imports ∨ .all s.package ∈ d.imports) := by
  rw [visible_iff] at h
  have hs : s ∈ d.allVisible root q n := by rw [h]; simp
  unfold Package.allVisible at hs
  simp only at hs
  split at hs
  · rw [mem_fromPackages] at hs
    obtain ⟨h1, h2, h3⟩ := hs
    refine ⟨h1, ?_, .inr (.inr h2)⟩
    rw [h1.1]; exact h3
  · rw [mem_near] at hs
    obtain ⟨h1, ⟨h2, h3⟩ | ⟨h2, -⟩⟩ := hs
    · refine ⟨h1, ?_, .inl h2⟩
      rw [h1.1, h2]
      exact ⟨d, hin, h3⟩
    · refine ⟨h1, ?_, .inr (.inl (by rw [h1.1]; exact h2))⟩
      have := hr _ h2
      unfold Import.resolve at this
      rw [h1.1]
      split at this <;> rename_i hq
      · simp at hq
      · rename_i q' n'
        simp only [Import.single.injEq] at hq
        obtain ⟨rfl, rfl⟩ := hq
        split at this
        · cases this
        · rename_i d' hg
          split at this
          · rename_i hl; exact ⟨d', hg, hl⟩
          · cases this

/-- **C88.** The order of imports does not matter, and neither do repeated imports: packages with the same symbols and the same set of
imports understand every name in the same way. -/
theorem C88_order (root : Root) (d d' : Package) (hn : d.name = d'.name) (hl : d.locals = d'.locals)
    (hi : ∀ i, i ∈ d.imports ↔ i ∈ d'.imports) (hs : d.NoSelfImport) (q : PackageName) (n : Name) :
    d.visible root q n = d'.visible root q n := by
  have hs' : d'.NoSelfImport := fun m hm => hs m (by rw [hn]; exact (hi _).2 hm)
  have hnear : d.Near q n = d'.Near q n := by
    funext s
    unfold Package.Near
    rw [hn, hl, hi, hi]
  have hfar : d.Far root q n = d'.Far root q n := by
    funext s
    unfold Package.Far
    rw [hi]
  have h1 := C88_found_iff root d hs q n
  have h2 := C88_found_iff root d' hs' q n
  have h3 := C88_unknown_iff root d q n
  have h4 := C88_unknown_iff root d' q n
  rw [hnear, hfar] at h1 h3
  rcases he : d.visible root q n with e | _ | s
  · rcases he' : d'.visible root q n with e' | _ | s'
    · unfold Package.visible at he he'
      split at he <;> cases he
      split at he' <;> cases he'
      rfl
    · rw [h3.2 (h4.1 he')] at he; cases he
    · rw [(h1 s').2 ((h2 s').1 he')] at he; cases he
  · rw [h4.2 (h3.1 he)]
  · rw [(h2 s).2 ((h1 s).1 he)]

/-- **C88.** A symbol of the package itself is found under its name, whichever packages are imported as a whole.  The language guide
says this for all imports: `C88_local_deviates`. -/
theorem C88_local_partial (root : Root) (d : Package) (n : Name) (hl : n ∈ d.locals)
    (hs : ∀ q, .single q n ∉ d.imports) : d.visible root [] n = .ok (some ⟨d.name, n⟩) := by
  rw [visible_iff]
  have h1 : d.localSymbol [] n = some ⟨d.name, n⟩ := localSymbol_iff.2 ⟨⟨rfl, .inl rfl⟩, rfl, hl⟩
  have h2 : d.fromSingles [] n = [] := by
    rw [List.eq_nil_iff_forall_not_mem]
    intro s h
    rw [mem_fromSingles] at h
    exact hs _ h.2.1
  unfold Package.allVisible
  simp [h1, h2]

/-- **C88.** A symbol which is imported by name, and which no other import and no definition provides under this name, is found,
whichever other packages are imported as a whole.  The language guide says this for all packages: `C88_single_deviates`. -/
theorem C88_single_partial (root : Root) (d : Package) (q : PackageName) (n : Name) (hl : n ∉ d.locals)
    (hs : .single q n ∈ d.imports) (ho : ∀ q', .single q' n ∈ d.imports → q' = q) (ha : .all q ∉ d.imports) :
    d.visible root [] n = .ok (some ⟨q, n⟩) := by
  rw [visible_iff]
  have h1 : d.localSymbol [] n = none := by
    rcases h : d.localSymbol [] n with _ | s
    · rfl
    · rw [localSymbol_iff] at h; exact absurd h.2.2 hl
  have h2 : d.fromSingles [] n = [⟨q, n⟩] := by
    rw [eq_singleton_iff (show (d.fromSingles [] n).Nodup from (nodup_symbols _).filter _)]
    refine ⟨mem_fromSingles.2 ⟨⟨rfl, .inl rfl⟩, hs, ha⟩, fun s h => ?_⟩
    replace h := mem_fromSingles.1 h
    have h3 := ho _ h.2.1
    have h4 := h.1.1
    cases s
    simp only at h3 h4
    rw [h3, h4]
  unfold Package.allVisible
  simp [h1, h2]

/-- **C88.** Every symbol which is defined in the package or imported, by name or with its package, is found under its fully qualified
name, whatever else is imported - unless it is a symbol of the package itself and imported by name: `C88_qualified_deviates`. -/
theorem C88_qualified_partial (root : Root) (d : Package) (hin : d.In root) (hr : d.Resolved root) (hd : d.NoSelfImport)
    (q : PackageName) (hq : q ≠ []) (n : Name) (hdef : root.Defines q n)
    (hv : q = d.name ∨ .single q n ∈ d.imports ∨ .all q ∈ d.imports) : d.visible root q n = .ok (some ⟨q, n⟩) := by
  rw [C88_found_iff root d hd]
  have honly : ∀ s, Fits q n s → s = ⟨q, n⟩ := by
    rintro ⟨p, m⟩ ⟨h1, h2 | h2⟩
    · exact absurd h2 hq
    · simp only at h1 h2; rw [h1, h2]
  by_cases hnear : d.Near q n ⟨q, n⟩
  · exact .inl ⟨hnear, fun s hs => honly s hs.1⟩
  · right
    refine ⟨fun s hs => hnear (honly s hs.1 ▸ hs), ⟨⟨rfl, .inr rfl⟩, ?_, hdef⟩, fun s hs => honly s hs.1⟩
    by_cases hall : .all q ∈ d.imports
    · exact hall
    · exfalso
      apply hnear
      refine ⟨⟨rfl, .inr rfl⟩, ?_⟩
      rcases hv with hv | hv | hv
      · left
        refine ⟨hv, ?_⟩
        obtain ⟨d', h1, h2⟩ := hdef
        rw [hv, show root.get d.name = some d from hin] at h1
        simp only [Option.some.injEq] at h1
        rw [h1]; exact h2
      · exact .inr ⟨hv, hall⟩
      · exact absurd hv hall

/-- **C88.** A fully qualified name which is not imported is not visible: imports are not passed on from imported packages. -/
theorem C88_not_imported (root : Root) (d : Package) (q : PackageName) (hq : q ≠ []) (n : Name) (h1 : q ≠ d.name)
    (h2 : .single q n ∉ d.imports) (h3 : .all q ∉ d.imports) : d.visible root q n = .ok none := by
  rw [C88_unknown_iff]
  refine ⟨?_, ?_⟩
  · rintro s ⟨⟨-, h4 | rfl⟩, ⟨h5, -⟩ | ⟨h5, -⟩⟩
    · exact hq h4
    · exact hq h4
    · exact h1 h5
    · exact h2 h5
  · rintro s ⟨⟨-, h4 | rfl⟩, h5, -⟩
    · exact hq h4
    · exact h3 h5

/-! ### Names in expressions -/

theorem visible_locals {root : Root} {d : Package} (hin : d.In root) (hr : d.Resolved root) {q : PackageName} {n : Name} {s : Symbol}
    (h : d.visible root q n = .ok (some s)) : ∃ d' ∈ root, d'.name = s.package ∧ n ∈ d'.locals := by
  obtain ⟨h1, ⟨d', h2, h3⟩, -⟩ := C88_sound root d hin hr q n s h
  refine ⟨d', ?_, Root.get_name h2, by rw [← h1.1]; exact h3⟩
  unfold Root.get at h2
  exact List.mem_of_find?_eq_some h2

/-- the first letter of a name is upper case -/
def startsUpper : Name → Bool
  | [] => false
  | c :: _ => isUpper c

/-- an identifier which does not start with an upper case letter is not the name of a symbol -/
theorem lower_unknown {root : Root} (hn : ∀ d ∈ root, d.checkNames = true) {d : Package} (hd : d.NoSelfImport) (hin : d.In root)
    (hr : d.Resolved root) {q : PackageName} {n : Name} (hu : startsUpper n = false) : d.visible root q n = .ok none := by
  have hno : ∀ s : Symbol, root.Defines s.package n → False := by
    rintro s ⟨d', h1, h2⟩
    have h3 := hn d' (List.mem_of_find?_eq_some h1)
    unfold Package.checkNames at h3
    rw [Bool.and_eq_true] at h3
    have h4 := List.all_eq_true.1 h3.2 n h2
    cases n with
    | nil => simp at h4
    | cons c n => simp only [startsUpper] at hu; simp only [hu] at h4; cases h4
  rw [C88_unknown_iff]
  refine ⟨?_, ?_⟩
  · rintro s ⟨hf, ⟨h1, h2⟩ | ⟨h1, -⟩⟩
    · exact hno s ⟨d, by rw [h1]; exact hin, h2⟩
    · have := hr _ h1
      simp only [Import.resolve] at this
      split at this
      · cases this
      · rename_i d' hg
        split at this
        · rename_i hl; exact hno s ⟨d', hg, hl⟩
        · cases this
  · rintro s ⟨-, -, h2⟩
    exact hno s h2

theorem resolveDots_package {root : Root} (hn : ∀ d ∈ root, d.checkNames = true) {d : Package} (hd : d.NoSelfImport) (hin : d.In root)
    (hr : d.Resolved root) (top : PackageName) (n : Name) (rest : List Name) (s : Symbol) :
    ∀ (ids us : List Name), (∀ id ∈ ids, startsUpper id = false) → d.visible root (top ++ (us ++ ids)) n = .ok (some s) →
      d.resolveDots root top us (ids ++ n :: rest) = .ok (.symbol s, rest)
  | [], us, _, h => by
    simp only [List.append_nil] at h
    simp only [List.nil_append, Package.resolveDots, h]
  | id :: ids, us, hl, h => by
    simp only [List.cons_append, Package.resolveDots, lower_unknown hn hd hin hr (hl id (by simp))]
    exact resolveDots_package hn hd hin hr top n rest s ids (us ++ [id]) (fun i hi => hl i (by simp [hi])) (by simpa using h)

/-- **C88.** A fully qualified name in an expression means the same symbol as in the type of a field, and the identifiers after it are
its members, unless its first identifier is the name of a field, parameter or function in scope: `C88_expression_deviates`. -/
theorem C88_expression_partial (root : Root) (hn : ∀ d ∈ root, d.checkNames = true) (d : Package) (hin : d.In root)
    (hr : d.Resolved root) (hd : d.NoSelfImport) (top : PackageName) (scope : List Name) (id : Name) (ids : List Name) (n : Name)
    (rest : List Name) (hlow : ∀ i ∈ id :: ids, startsUpper i = false) (hscope : id ∉ scope) (s : Symbol)
    (h : d.resolveType root top (id :: ids) n = .ok s) :
    d.resolveExpr root top scope (id :: ids ++ n :: rest) = .ok (.symbol s, rest) := by
  have h1 : d.visible root (top ++ id :: ids) n = .ok (some s) := by
    unfold Package.resolveType qualifiedPackage at h
    rw [if_neg (by simp)] at h
    split at h
    · cases h
    · cases h
    · rename_i s' hs
      simp only [Except.ok.injEq] at h
      rw [hs, h]
  simp only [List.cons_append, Package.resolveExpr, if_neg hscope, lower_unknown hn hd hin hr (hlow id (by simp))]
  exact resolveDots_package hn hd hin hr top n rest s ids [id] (fun i hi => hlow i (by simp [hi])) (by simpa using h1)

/-- **C88.** A name without a package in an expression means the field, parameter or function in scope, and otherwise the same symbol
as in the type of a field. -/
theorem C88_identifier (root : Root) (d : Package) (top : PackageName) (scope : List Name) (n : Name) (rest : List Name) :
    (n ∈ scope → d.resolveExpr root top scope (n :: rest) = .ok (.scope n, rest)) ∧
    (n ∉ scope → ∀ s, d.resolveType root top [] n = .ok s → d.resolveExpr root top scope (n :: rest) = .ok (.symbol s, rest)) := by
  refine ⟨fun h => by simp only [Package.resolveExpr, if_pos h], fun h s hs => ?_⟩
  unfold Package.resolveType qualifiedPackage at hs
  rw [if_pos rfl] at hs
  simp only [Package.resolveExpr, if_neg h]
  split at hs
  · cases hs
  · cases hs
  · rename_i s' hv
    simp only [Except.ok.injEq] at hs
    rw [hv, ← hs]

/-! ### Where the language guide says something else -/

namespace Demo

/-- `common.geometry` and `common.features` both define `Geometry`; the last one also defines `Feature` -/
def geometry : Package := ⟨[py! "common", py! "geometry"], [py! "Geometry", py! "Point"], []⟩
def features : Package := ⟨[py! "common", py! "features"], [py! "Geometry", py! "Feature"], [.all [py! "common", py! "geometry"]]⟩

/-- the example of the language guide: `package map; import common.geometry.*; import common.features.*;` and more imports -/
def map (more : List Import) : Package :=
  ⟨[py! "map"], [py! "Tile"], [.all [py! "common", py! "geometry"], .all [py! "common", py! "features"]] ++ more⟩

/-- `package map; import common.features.*;` and more imports -/
def map' (more : List Import) : Package := ⟨[py! "map"], [py! "Tile"], .all [py! "common", py! "features"] :: more⟩

def singleGeometry : Import := .single [py! "common", py! "geometry"] (py! "Geometry")

end Demo

open Demo

/-- **C88.** The example of the language guide does not work: the import of `common.geometry.Geometry` does not prevent the ambiguity
with `common.features.Geometry`, if the rest of `common.geometry` is imported as well. -/
theorem C88_single_deviates : ∃ (root : Root) (d : Package), d.In root ∧ d.Resolved root ∧ d.NoSelfImport ∧ singleGeometry ∈ d.imports ∧
    (∀ q, .single q (py! "Geometry") ∈ d.imports → q = geometry.name) ∧ py! "Geometry" ∉ d.locals ∧
    d.visible root [] (py! "Geometry") = .error .ambiguous := by
  refine ⟨[map [singleGeometry], geometry, features], map [singleGeometry], rfl, ?_, ?_, by decide +kernel, ?_, by decide +kernel,
    by decide +kernel⟩
  · intro i hi
    simp only [map, List.cons_append, List.nil_append, List.mem_cons, List.not_mem_nil, or_false] at hi
    rcases hi with rfl | rfl | rfl <;> decide +kernel
  · intro n hi
    simp only [map, singleGeometry, List.cons_append, List.nil_append, List.mem_cons, List.not_mem_nil, or_false, reduceCtorEq, false_or,
      Import.single.injEq] at hi
    exact absurd hi.1 (by decide +kernel)
  · intro q hi
    simp only [map, singleGeometry, List.cons_append, List.nil_append, List.mem_cons, List.not_mem_nil, or_false, reduceCtorEq, false_or,
      Import.single.injEq] at hi
    exact hi.1

/-- **C88.** Imports have an effect on symbols which are defined in the package: with an import by name of another symbol `Tile`, the
symbol `Tile` of the package is not found any more. -/
theorem C88_local_deviates : ∃ (root : Root) (d : Package), d.In root ∧ d.Resolved root ∧ d.NoSelfImport ∧ py! "Tile" ∈ d.locals ∧
    d.visible root [] (py! "Tile") = .error .ambiguous := by
  refine ⟨[map [.single [py! "b"] (py! "Tile")], geometry, features, ⟨[py! "b"], [py! "Tile"], []⟩], map [.single [py! "b"] (py! "Tile")],
    rfl, ?_, ?_, by decide +kernel, by decide +kernel⟩
  · intro i hi
    simp only [map, List.cons_append, List.nil_append, List.mem_cons, List.not_mem_nil, or_false] at hi
    rcases hi with rfl | rfl | rfl <;> decide +kernel
  · intro n hi
    simp only [map, List.cons_append, List.nil_append, List.mem_cons, List.not_mem_nil, or_false, reduceCtorEq, false_or,
      Import.single.injEq] at hi
    exact absurd hi.1 (by decide +kernel)

/-- **C88.** It is not always possible to use the fully qualified name of a type: if a package imports one of its own symbols by name,
neither the name nor the qualified name can be used. -/
theorem C88_qualified_deviates : ∃ (root : Root) (d : Package), d.In root ∧ d.Resolved root ∧ root.Defines d.name (py! "Tile") ∧
    d.visible root [] (py! "Tile") = .error .ambiguous ∧ d.visible root d.name (py! "Tile") = .error .ambiguous := by
  refine ⟨[map [.single [py! "map"] (py! "Tile")], geometry, features], map [.single [py! "map"] (py! "Tile")], rfl, ?_,
    ⟨_, rfl, by decide +kernel⟩, by decide +kernel, by decide +kernel⟩
  intro i hi
  simp only [map, List.cons_append, List.nil_append, List.mem_cons, List.not_mem_nil, or_false] at hi
  rcases hi with rfl | rfl | rfl <;> decide +kernel

/-- **C88.** In an expression, the fully qualified name of a constant cannot be used where a field has the name of the first part of
its package: it is a member of the field. -/
theorem C88_expression_deviates : ∃ (root : Root) (d : Package) (s : Symbol), d.In root ∧ (∀ d ∈ root, d.checkNames = true) ∧
    d.resolveType root [] [py! "common", py! "features"] (py! "Feature") = .ok s ∧
    d.resolveExpr root [] [py! "common"] [py! "common", py! "features", py! "Feature"] =
      .ok (.scope (py! "common"), [py! "features", py! "Feature"]) :=
  ⟨[map [], geometry, features], map [], ⟨[py! "common", py! "features"], py! "Feature"⟩, rfl,
    by intro d hd
       simp only [List.mem_cons, List.not_mem_nil, or_false] at hd
       rcases hd with rfl | rfl | rfl <;> decide +kernel,
    by decide +kernel, by decide +kernel⟩

/-! ### Examples -/

theorem Demo.map'_resolved : (map' [singleGeometry]).Resolved [map' [singleGeometry], geometry, features] := by
  intro i hi
  simp only [map', List.mem_cons, List.not_mem_nil, or_false] at hi
  rcases hi with rfl | rfl <;> decide +kernel

theorem Demo.map'_noSelf : (map' [singleGeometry]).NoSelfImport := by
  intro n hi
  simp only [map', singleGeometry, List.mem_cons, List.not_mem_nil, or_false, reduceCtorEq, false_or, Import.single.injEq] at hi
  exact absurd hi.1 (by decide +kernel)

/-- A package with an import of a whole package and an import by name which takes precedence over it; all kinds of names. -/
example :
    (map' [singleGeometry]).In [map' [singleGeometry], geometry, features] ∧
    (map' [singleGeometry]).visible [map' [singleGeometry], geometry, features] [] (py! "Geometry") =
      .ok (some ⟨geometry.name, py! "Geometry"⟩) ∧
    (map' [singleGeometry]).visible [map' [singleGeometry], geometry, features] features.name (py! "Geometry") =
      .ok (some ⟨features.name, py! "Geometry"⟩) ∧
    (map' [singleGeometry]).visible [map' [singleGeometry], geometry, features] [] (py! "Tile") = .ok (some ⟨[py! "map"], py! "Tile"⟩) ∧
    (map' [singleGeometry]).visible [map' [singleGeometry], geometry, features] geometry.name (py! "Point") = .ok none ∧
    (map []).visible [map [], geometry, features] [] (py! "Geometry") = .error .ambiguous :=
  ⟨rfl, by decide +kernel, by decide +kernel, by decide +kernel, by decide +kernel, by decide +kernel⟩

/-- A qualified name in an expression: the enumeration `Feature` and its item `ROAD`; the field `kind` of the scope. -/
example :
    (∀ d ∈ [map' [singleGeometry], geometry, features], d.checkNames = true) ∧
    (∀ i ∈ [py! "common", py! "features"], startsUpper i = false) ∧
    (map' [singleGeometry]).resolveType [map' [singleGeometry], geometry, features] [] [py! "common", py! "features"] (py! "Feature") =
      .ok ⟨features.name, py! "Feature"⟩ ∧
    (map' [singleGeometry]).resolveExpr [map' [singleGeometry], geometry, features] [] [py! "kind"]
      [py! "common", py! "features", py! "Feature", py! "ROAD"] = .ok (.symbol ⟨features.name, py! "Feature"⟩, [py! "ROAD"]) ∧
    (map' [singleGeometry]).resolveExpr [map' [singleGeometry], geometry, features] [] [py! "kind"] [py! "kind", py! "value"] =
      .ok (.scope (py! "kind"), [py! "value"]) := by
  refine ⟨?_, ?_, by decide +kernel, by decide +kernel, by decide +kernel⟩
  · intro d hd
    simp only [List.mem_cons, List.not_mem_nil, or_false] at hd
    rcases hd with rfl | rfl | rfl <;> decide +kernel
  · decide +kernel

end Zserio.Visibility
