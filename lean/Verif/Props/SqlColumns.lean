import Verif.Spec.SqlColumns
import Verif.Model.SqlCheck
import Mathlib.Data.List.Nodup
/-
Property C112: the columns of generated SQL tables have the documented types, and SQLite stores their values unchanged.
-/
set_option linter.unusedSimpArgs false
namespace Zserio.SqlColumns

open Sql (SqlValue)

theorem documented_iff {b : BaseType} {s : PyStr} : Documented b s ↔ visitType b = some s := by
  constructor
  · rintro ⟨⟩ <;> rfl
  · intro h
    cases b <;> simp only [visitType, Option.some.injEq, reduceCtorEq] at h <;> subst h <;> constructor

theorem columnData_ok {f : FieldDecl} {c : ColumnData} (h : columnData f = .ok c) :
    ∃ s, visitType f.type.baseType = some s ∧ c =
    { name := f.name, typeName := f.type.fullName, sqlType := s, isBlob := decide (s = (py! "BLOB")),
      isEnum := decide (f.type.baseType = .enum), isBitmask := decide (f.type.baseType = .bitmask), parameters := f.arguments.map parameterData } := by
  unfold columnData getSqlType at h
  cases hv : visitType f.type.baseType with
  | none => rw [hv] at h; cases h
  | some s =>
    rw [hv] at h
    simp only [bind, Except.bind, Except.ok.injEq] at h
    exact ⟨s, rfl, h.symm⟩

/-- **C112.** A column has the name of its field and the SQL type which the documentation gives for the type of the field, through any
subtypes; the generator fails exactly for fields of types without a documented SQL type. -/
theorem C112_type (f : FieldDecl) :
    (∀ c, columnData f = .ok c → c.name = f.name ∧ Documented f.type.baseType c.sqlType) ∧
    ((∃ c, columnData f = .ok c) ↔ ∃ s, Documented f.type.baseType s) := by
  constructor
  · intro c h
    obtain ⟨s, hs, rfl⟩ := columnData_ok h
    exact ⟨rfl, documented_iff.mpr hs⟩
  · constructor
    · rintro ⟨c, h⟩
      obtain ⟨s, hs, _⟩ := columnData_ok h
      exact ⟨s, documented_iff.mpr hs⟩
    · rintro ⟨s, hs⟩
      have := documented_iff.mp hs
      unfold columnData getSqlType
      rw [this]
      exact ⟨_, rfl⟩

/-- **C112.** SQLite stores every value of a column as it is given, in ordinary tables and in the tables of any module: the declared type
never makes it convert a value of the type of the field. -/
theorem C112_stored {f : FieldDecl} {c : ColumnData} (h : columnData f = .ok c) (module : Option PyStr) (C : Conversions) {v : SqlValue}
    (hv : ValueOf f.type.baseType v) : stored C (affinity (declaredType module c)) v = v := by
  obtain ⟨s, hs, rfl⟩ := columnData_ok h
  have a1 : affinity (py! "INTEGER") = .integer := by decide +kernel
  have a2 : affinity (py! "REAL") = .real := by decide +kernel
  have a3 : affinity (py! "TEXT") = .text := by decide +kernel
  have a4 : affinity (py! "BLOB") = .blob := by decide +kernel
  have a5 : affinity [] = .blob := by decide +kernel
  unfold declaredType
  split
  · rw [a5]; cases v <;> rfl
  · generalize f.type.baseType = b at *
    cases hv with
    | null => cases affinity s <;> rfl
    | int hb => rcases hb with rfl | rfl | rfl | rfl | rfl | rfl | rfl <;> cases hs <;> simp only [a1] <;> rfl
    | real => cases hs; simp only [a2]; rfl
    | text => cases hs; simp only [a3]; rfl
    | blob hb => rcases hb with rfl | rfl | rfl <;> cases hs <;> simp only [a4] <;> rfl

/-- **C112.** Reading and writing convert the values of a column in the same way, and in the way its type needs, with the class of the type
as the field names it; and if some column needs a conversion, rows are converted. -/
theorem C112_conversion {f : FieldDecl} {c : ColumnData} (h : columnData f = .ok c) :
    Needed f.type (readConversion c) ∧ Needed f.type (writeConversion c) ∧
    ∀ cs, c ∈ cs → readConversion c ≠ .plain → needsRowConversion cs = true := by
  obtain ⟨s, hs, rfl⟩ := columnData_ok h
  have e1 : decide (py! "INTEGER" = py! "BLOB") = false := by decide +kernel
  have e2 : decide (py! "REAL" = py! "BLOB") = false := by decide +kernel
  have e3 : decide (py! "TEXT" = py! "BLOB") = false := by decide +kernel
  refine ⟨?_, ?_, ?_⟩
  · unfold readConversion
    cases hb : f.type.baseType <;> rw [hb] at hs <;> cases hs <;> simp [Needed, hb]
  · unfold writeConversion
    cases hb : f.type.baseType <;> rw [hb] at hs <;> cases hs <;> simp [Needed, hb]
  · intro cs hc hp
    unfold needsRowConversion
    simp only [Bool.or_eq_true, List.any_eq_true]
    unfold readConversion at hp
    simp only at hp
    split at hp
    · exact .inl (.inl ⟨_, hc, by assumption⟩)
    · split at hp
      · exact .inl (.inr ⟨_, hc, by assumption⟩)
      · split at hp
        · exact .inr ⟨_, hc, by assumption⟩
        · exact absurd rfl hp

/-! ### Explicit parameters -/

theorem mem_treeAdd {a b : PyStr × PyStr} {l : List (PyStr × PyStr)} : a ∈ treeAdd b l ↔ a = b ∨ a ∈ l := by
  induction l with
  | nil => simp [treeAdd]
  | cons x r ih =>
    simp only [treeAdd]
    split
    · rename_i h; subst h; simp
    · split
      · simp
      · simp [ih]; tauto

theorem lt_of_not {a b : PyStr} (h : ¬ a < b) (hn : a ≠ b) : b < a := by
  have h' : b ≤ a := List.not_lt.mp h
  by_contra hc
  exact hn (List.le_antisymm (List.not_lt.mp hc) h')

theorem before_trans {a b c : PyStr × PyStr} (h1 : before a b = true) (h2 : before b c = true) : before a c = true := by
  unfold before at *
  by_cases e1 : a.1 = b.1 <;> by_cases e2 : b.1 = c.1
  · rw [if_pos e1] at h1; rw [if_pos e2] at h2; rw [if_pos (e1.trans e2)]
    simp only [decide_eq_true_eq] at *; exact List.lt_trans h1 h2
  · rw [if_neg e2] at h2; rw [if_neg (by rw [e1]; exact e2), e1]; exact h2
  · rw [if_neg e1] at h1; rw [if_neg (by rw [← e2]; exact e1), ← e2]; exact h1
  · rw [if_neg e1] at h1; rw [if_neg e2] at h2
    simp only [decide_eq_true_eq] at h1 h2
    have := List.lt_trans h1 h2
    rw [if_neg (fun e => by rw [e] at this; exact List.lt_irrefl _ this)]
    simpa using this

theorem before_total {a b : PyStr × PyStr} (h : a ≠ b) (hb : ¬ before a b = true) : before b a = true := by
  unfold before at *
  by_cases e : a.1 = b.1
  · rw [if_pos e] at hb; rw [if_pos e.symm]
    simp only [decide_eq_true_eq] at *
    exact lt_of_not hb (fun e' => h (Prod.ext e e'))
  · rw [if_neg e] at hb; rw [if_neg (fun x => e x.symm)]
    simp only [decide_eq_true_eq] at *
    exact lt_of_not hb e

theorem treeAdd_sorted {b : PyStr × PyStr} {l : List (PyStr × PyStr)} (h : l.Pairwise (before · · = true)) :
    (treeAdd b l).Pairwise (before · · = true) := by
  induction l with
  | nil => simp [treeAdd]
  | cons x r ih =>
    rw [List.pairwise_cons] at h
    simp only [treeAdd]
    split
    · exact List.pairwise_cons.mpr h
    · split
      · rename_i hne hb
        refine List.pairwise_cons.mpr ⟨?_, List.pairwise_cons.mpr h⟩
        intro y hy
        rcases List.mem_cons.mp hy with rfl | hy
        · exact hb
        · exact before_trans hb (h.1 y hy)
      · rename_i hne hb
        refine List.pairwise_cons.mpr ⟨?_, ih h.2⟩
        intro y hy
        rcases mem_treeAdd.mp hy with rfl | hy
        · exact before_total hne hb
        · exact h.1 y hy

theorem mem_addExplicit {ps : List ParameterData} : ∀ {set : List (PyStr × PyStr)} {a : PyStr × PyStr},
    a ∈ addExplicit set ps ↔ a ∈ set ∨ ∃ p ∈ ps, p.method = some a.1 ∧ p.typeName = a.2 := by
  induction ps with
  | nil => simp [addExplicit]
  | cons p ps ih =>
    intro set a
    simp only [addExplicit]
    cases hm : p.method with
    | none => simp [ih, hm]
    | some m =>
      simp only [ih, mem_treeAdd, List.mem_cons, exists_eq_or_imp, hm, Option.some.injEq]
      constructor
      · rintro ((rfl | h) | h)
        · exact .inr (.inl ⟨rfl, rfl⟩)
        · exact .inl h
        · exact .inr (.inr h)
      · rintro (h | ⟨h1, h2⟩ | h)
        · exact .inl (.inr h)
        · exact .inl (.inl (Prod.ext h1.symm h2.symm))
        · exact .inr h

theorem addExplicit_sorted {ps : List ParameterData} : ∀ {set : List (PyStr × PyStr)}, set.Pairwise (before · · = true) →
    (addExplicit set ps).Pairwise (before · · = true) := by
  induction ps with
  | nil => exact fun h => h
  | cons p ps ih =>
    intro set h
    simp only [addExplicit]
    cases p.method with
    | none => exact ih h
    | some m => exact ih (treeAdd_sorted h)

theorem tableData_ok {fs : List FieldDecl} : ∀ {set set' : List (PyStr × PyStr)} {cs : List ColumnData}, tableData set fs = .ok (cs, set') →
    List.Forall₂ (fun f c => columnData f = .ok c) fs cs ∧
    (set.Pairwise (before · · = true) → set'.Pairwise (before · · = true)) ∧
    ∀ a, a ∈ set' ↔ a ∈ set ∨ ∃ f ∈ fs, ∃ p ∈ f.arguments.map parameterData, p.method = some a.1 ∧ p.typeName = a.2 := by
  induction fs with
  | nil =>
    intro set set' cs h
    simp only [tableData, Except.ok.injEq, Prod.mk.injEq] at h
    obtain ⟨rfl, rfl⟩ := h
    exact ⟨.nil, fun x => x, by simp⟩
  | cons f fs ih =>
    intro set set' cs h
    simp only [tableData] at h
    cases hc : columnData f with
    | error e => rw [hc] at h; cases h
    | ok c =>
      rw [hc] at h
      simp only [bind, Except.bind] at h
      cases ht : tableData (addExplicit set c.parameters) fs with
      | error e => rw [ht] at h; cases h
      | ok r =>
        obtain ⟨ds, set2⟩ := r
        rw [ht] at h
        simp only [Except.ok.injEq, Prod.mk.injEq] at h
        obtain ⟨rfl, rfl⟩ := h
        obtain ⟨i1, i2, i3⟩ := ih ht
        refine ⟨.cons hc i1, fun x => i2 (addExplicit_sorted x), ?_⟩
        intro a
        obtain ⟨s, _, rfl⟩ := columnData_ok hc
        rw [i3, mem_addExplicit]
        simp only [List.mem_cons, exists_eq_or_imp, or_assoc]

/-- **C112.** The parameter provider has exactly the methods for the explicit arguments of the columns: a method of the name in snake
case for each, with the type of the parameter, in the order of their names; and reading a row calls only methods of the provider, one for
each explicit argument of each column. -/
theorem C112_provider {fs : List FieldDecl} {cs : List ColumnData} {set : List (PyStr × PyStr)} (h : tableData [] fs = .ok (cs, set)) :
    (∀ m t, (m, t) ∈ set ↔ ∃ n p, Explicit fs n p ∧ m = Names.toLowerSnakeCase n ∧ t = p.fullName) ∧
    (providerMethods set).Pairwise (· ≤ ·) ∧ set.Nodup ∧
    (∀ c ∈ cs, ∀ m ∈ calls c, m ∈ providerMethods set) ∧
    ((∀ f ∈ fs, Parameterized f) →
      cs.map calls = fs.map fun f => (f.arguments.filterMap (·.explicit)).map Names.toLowerSnakeCase) := by
  obtain ⟨h1, h2, h3⟩ := tableData_ok h
  have hset : ∀ m t, (m, t) ∈ set ↔ ∃ n p, Explicit fs n p ∧ m = Names.toLowerSnakeCase n ∧ t = p.fullName := by
    intro m t
    rw [h3]
    constructor
    · rintro (hx | ⟨f, hf, p, hp, hm, ht⟩)
      · cases hx
      · obtain ⟨⟨e, ty⟩, ha, rfl⟩ := List.mem_map.mp hp
        cases e with
        | none => cases hm
        | some n =>
          simp only [parameterData, Option.map_some, Option.some.injEq] at hm ht
          exact ⟨n, ty, ⟨f, hf, ha⟩, hm.symm, ht.symm⟩
    · rintro ⟨n, p, ⟨f, hf, ha⟩, rfl, rfl⟩
      exact .inr ⟨f, hf, _, List.mem_map.mpr ⟨_, ha, rfl⟩, rfl, rfl⟩
  have hsort := h2 List.Pairwise.nil
  refine ⟨hset, ?_, ?_, ?_, ?_⟩
  · unfold providerMethods
    rw [List.pairwise_map]
    refine hsort.imp ?_
    intro a b hab
    unfold before at hab
    split at hab
    · rename_i e; rw [e]; exact List.le_refl _
    · exact List.le_of_lt (by simpa using hab)
  · refine hsort.imp ?_
    rintro a b hab rfl
    unfold before at hab
    simp at hab
    exact List.lt_irrefl _ hab
  · intro c hc m hm
    obtain ⟨f, hf, hfc⟩ : ∃ f ∈ fs, columnData f = .ok c := by
      clear h h2 h3 hset hsort
      induction h1 with
      | nil => cases hc
      | cons a _ ih =>
        rcases List.mem_cons.mp hc with rfl | hc
        · exact ⟨_, .head _, a⟩
        · obtain ⟨f, hf, hh⟩ := ih hc
          exact ⟨f, .tail _ hf, hh⟩
    obtain ⟨s, _, rfl⟩ := columnData_ok hfc
    unfold calls at hm
    split at hm
    · obtain ⟨p, hp, hpm⟩ := List.mem_filterMap.mp hm
      exact List.mem_map.mpr ⟨(m, p.typeName), (h3 _).mpr (.inr ⟨f, hf, p, hp, hpm, rfl⟩), rfl⟩
    · cases hm
  · intro hpar
    clear h h2 h3 hset hsort
    induction h1 with
    | nil => rfl
    | @cons f c fs cs a _ ih =>
      rw [List.map_cons, List.map_cons, ih (fun g hg => hpar g (.tail _ hg))]
      congr 1
      obtain ⟨s, hs, rfl⟩ := columnData_ok a
      have key : ∀ as : List Argument, (as.map parameterData).filterMap (·.method) =
          (as.filterMap (·.explicit)).map Names.toLowerSnakeCase := by
        intro as
        induction as with
        | nil => rfl
        | cons x as ihx => cases hx : x.explicit <;> simp_all [parameterData]
      unfold calls
      simp only
      by_cases he : f.arguments = []
      · rw [he]; split <;> rfl
      · have hb : s = py! "BLOB" := by
          rcases hpar f (.head _) he with hb | hb | hb <;> rw [hb] at hs <;> cases hs <;> rfl
        rw [if_pos (by simp [hb])]
        exact key _

theorem checkExplicit_ok {ns : List PyStr} : ∀ {seen keys : List PyStr}, (∀ k, k ∈ keys ↔ ∃ n ∈ seen, Names.toLowerSnakeCase n = k) →
    (∀ a ∈ seen, ∀ b ∈ seen, Names.toLowerSnakeCase a = Names.toLowerSnakeCase b → a = b) →
    (checkExplicit seen keys ns = true ↔
      ∀ a ∈ ns ++ seen, ∀ b ∈ ns ++ seen, Names.toLowerSnakeCase a = Names.toLowerSnakeCase b → a = b) := by
  induction ns with
  | nil => intro seen keys _ hi; simpa [checkExplicit] using hi
  | cons n ns ih =>
    intro seen keys hk hi
    simp only [checkExplicit]
    split
    · rename_i hn
      rw [ih hk hi]
      have : ∀ x, x ∈ n :: ns ++ seen ↔ x ∈ ns ++ seen := by
        intro x; simp only [List.cons_append, List.mem_cons, List.mem_append]
        constructor
        · rintro (rfl | h)
          · exact .inr hn
          · exact h
        · exact .inr
      simp only [this]
    · rename_i hn
      split
      · rename_i hx
        obtain ⟨m, hm, he⟩ := (hk _).mp hx
        simp only [Bool.false_eq_true, false_iff]
        intro hall
        have := hall m (List.mem_append_right _ hm) n (List.mem_append_left _ (.head _)) he
        exact hn (this ▸ hm)
      · rename_i hx
        have hkey : ∀ m ∈ seen, Names.toLowerSnakeCase m ≠ Names.toLowerSnakeCase n := fun m hm he => hx ((hk _).mpr ⟨m, hm, he⟩)
        rw [ih (seen := n :: seen)]
        · have : ∀ x, x ∈ ns ++ n :: seen ↔ x ∈ n :: ns ++ seen := by
            intro x; simp only [List.cons_append, List.mem_cons, List.mem_append]; tauto
          simp only [this]
        · intro k
          simp only [List.mem_cons, exists_eq_or_imp, hk]
          tauto
        · intro a ha b hb he
          rcases List.mem_cons.mp ha with ea | ha <;> rcases List.mem_cons.mp hb with eb | hb
          · rw [ea, eb]
          · exact absurd (ea ▸ he.symm) (hkey b hb)
          · exact absurd (eb ▸ he) (hkey a ha)
          · exact hi a ha b hb he

/-- **C112.** The generator accepts the explicit arguments of a table exactly if no two different names share a method of the provider. -/
theorem C112_distinct (fs : List FieldDecl) :
    checkExplicit [] [] (explicitNames fs) = true ↔
      ∀ n p n' p', Explicit fs n p → Explicit fs n' p' → Names.toLowerSnakeCase n = Names.toLowerSnakeCase n' → n = n' := by
  have hmem : ∀ n, n ∈ explicitNames fs ↔ ∃ p, Explicit fs n p := by
    intro n
    unfold explicitNames Explicit
    simp only [List.mem_flatMap, List.mem_filterMap]
    constructor
    · rintro ⟨f, hf, ⟨e, t⟩, ha, he⟩
      cases he
      exact ⟨t, f, hf, ha⟩
    · rintro ⟨t, f, hf, ha⟩
      exact ⟨f, hf, _, ha, rfl⟩
  rw [checkExplicit_ok (by simp) (by simp)]
  simp only [List.append_nil, hmem]
  exact ⟨fun h n p n' p' a b => h n ⟨p, a⟩ n' ⟨p', b⟩, fun h n ⟨p, a⟩ n' ⟨p', b⟩ => h n p n' p' a b⟩

/-- **C112, part.** Each explicit argument has one method if the parameters of the same name are declared with the same name of a type. -/
theorem C112_once_partial {fs : List FieldDecl} {cs : List ColumnData} {set : List (PyStr × PyStr)} (h : tableData [] fs = .ok (cs, set))
    (hc : checkExplicit [] [] (explicitNames fs) = true)
    (ht : ∀ n p p', Explicit fs n p → Explicit fs n p' → p.fullName = p'.fullName) : (providerMethods set).Nodup := by
  obtain ⟨h1, _, h3, _⟩ := C112_provider h
  unfold providerMethods
  refine List.Nodup.map_on ?_ h3
  rintro ⟨m, t⟩ hm ⟨m', t'⟩ hm' he
  simp only at he
  subst he
  obtain ⟨n, p, hn, rfl, rfl⟩ := (h1 _ _).mp hm
  obtain ⟨n', p', hn', he, rfl⟩ := (h1 _ _).mp hm'
  have := (C112_distinct fs).mp hc n p n' p' hn hn' he
  subst this
  rw [ht n p p' hn hn']

/-! ### Examples -/

/-- a table with a column of each sort: two of them take explicit parameters -/
def example1 : List FieldDecl :=
  [{ name := py! "id", type := .subtype (py! "Id") (.base .stdInteger (py! "int")) },
   { name := py! "weight", type := .base .float (py! "float") },
   { name := py! "colour", type := .subtype (py! "C") (.base .enum (py! "Colour")) },
   { name := py! "tile", type := .base .struct (py! "Tile"),
     arguments := [⟨some (py! "tileLevel"), .base .stdInteger (py! "int")⟩, ⟨some (py! "count"), .base .varInteger (py! "int")⟩] },
   { name := py! "other", type := .subtype (py! "T2") (.base .union (py! "Union")),
     arguments := [⟨none, .base .stdInteger (py! "int")⟩, ⟨some (py! "tileLevel"), .base .stdInteger (py! "int")⟩] }]

example : ((tableData [] example1).toOption.map fun r => (r.1.map fun c => (c.sqlType, readConversion c), providerMethods r.2, r.1.map calls)) =
    some ([(py! "INTEGER", .plain), (py! "REAL", .plain), (py! "INTEGER", .enum (py! "C")), (py! "BLOB", .blob (py! "Tile")),
      (py! "BLOB", .blob (py! "T2"))], [py! "count", py! "tile_level"],
      [[], [], [], [py! "tile_level", py! "count"], [py! "tile_level"]]) := by decide +kernel

example : ∀ f ∈ example1, Parameterized f := by
  intro f hf
  simp only [example1, List.mem_cons, List.not_mem_nil, or_false] at hf
  rcases hf with rfl | rfl | rfl | rfl | rfl <;> simp [Parameterized, TypeRef.baseType]

example : checkExplicit [] [] (explicitNames example1) = true := by decide +kernel

example : checkExplicit [] [] [py! "tileLevel", py! "tile_level"] = false := by decide +kernel

example : ValueOf (TypeRef.subtype (py! "Id") (.base .stdInteger (py! "int"))).baseType (.int (-5)) := .int (.inl rfl)

/-- Any other affinity would change some values: a text of digits in an INTEGER column. -/
example (C : Conversions) (h : C.number (py! "12") = some (.int 12)) :
    stored C (affinity (py! "INTEGER")) (.text (py! "12")) = .int 12 := by
  have : affinity (py! "INTEGER") = .integer := by decide +kernel
  rw [this]; simp [stored, h]

/-! ### Deviations -/

/-- A table with a column of type `bytes` (or `extern`) passes all checks of the compiler for tables, but the generator ends with an
exception. -/
theorem C112_bytes_deviates :
    SqlCheck.check { columns := [{ name := py! "id", constraint := some (py! "PRIMARY KEY NOT NULL"), isInteger := true }, { name := py! "data" }] }
      = .ok [] ∧
    tableData [] [{ name := py! "id", type := .base .stdInteger (py! "int") }, { name := py! "data", type := .base .bytes (py! "bytearray") }]
      = .error (.unexpectedElement (py! "bytearray")) ∧
    tableData [] [{ name := py! "id", type := .base .stdInteger (py! "int") }, { name := py! "data", type := .base .extern (py! "zserio.BitBuffer") }]
      = .error (.unexpectedElement (py! "zserio.BitBuffer")) := by decide +kernel

/-- An explicit argument for parameters of a type and of a subtype of it, which is allowed, gives two methods of the same name, of which
Python keeps the second. -/
theorem C112_once_deviates : ∃ fs cs set, tableData [] fs = .ok (cs, set) ∧ checkExplicit [] [] (explicitNames fs) = true ∧
    (∀ n p p', Explicit fs n p → Explicit fs n p' → p.baseType = p'.baseType) ∧ ¬ (providerMethods set).Nodup := by
  refine ⟨[{ name := py! "a", type := .base .struct (py! "A"), arguments := [⟨some (py! "level"), .base .stdInteger (py! "int")⟩] },
           { name := py! "b", type := .base .struct (py! "B"),
             arguments := [⟨some (py! "level"), .subtype (py! "Level") (.base .stdInteger (py! "int"))⟩] }],
    _, _, rfl, by decide +kernel, ?_, by decide +kernel⟩
  have key : ∀ n p, Explicit [{ name := py! "a", type := TypeRef.base .struct (py! "A"), arguments := [⟨some (py! "level"), .base .stdInteger (py! "int")⟩] },
           { name := py! "b", type := TypeRef.base .struct (py! "B"),
             arguments := [⟨some (py! "level"), .subtype (py! "Level") (.base .stdInteger (py! "int"))⟩] }] n p → p.baseType = .stdInteger := by
    rintro n p ⟨f, hf, hp⟩
    simp only [List.mem_cons, List.not_mem_nil, or_false] at hf
    rcases hf with rfl | rfl <;> simp only [List.mem_singleton, Argument.mk.injEq] at hp <;> rw [hp.2] <;> rfl
  intro n p p' h h'
  rw [key n p h, key n p' h']

end Zserio.SqlColumns
