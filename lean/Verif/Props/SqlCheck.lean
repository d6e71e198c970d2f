import Verif.Lemmas.SqlCheck
import Verif.Spec.Sql
/-
C96: the compiler's checks of SQL tables and databases.
-/
namespace Zserio.SqlCheck

open Sql (lower isName)

/-! ### What is accepted -/

/-- The compiler accepts exactly the tables which keep the rules. -/
theorem C96_accepted (T : TableDecl) : (∃ ws, check T = .ok ws) ↔ Accepted T := check_ok

/-- A column is a primary key by its own constraint exactly if there is one with the words PRIMARY KEY. -/
theorem C96_key_column (constraint : Option PyStr) :
    isPrimaryKey constraint = true ↔ ∃ text, constraint = some text ∧ TwoWords (py! "PRIMARY") (py! "KEY") text := by
  cases constraint with
  | none => simp [isPrimaryKey]
  | some text => simpa using isPrimaryKey_iff

/-- A column cannot be NULL exactly if it has a constraint with the words NOT NULL. -/
theorem C96_not_null (constraint : Option PyStr) :
    isNullAllowed constraint = false ↔ ∃ text, constraint = some text ∧ TwoWords (py! "NOT") (py! "NULL") text := by
  cases constraint with
  | none => simp [isNullAllowed]
  | some text => simpa using isNullAllowed_iff

/-- If an ordinary table is accepted, and its constraint has a clause PRIMARY KEY(columns), then these are columns of the table. -/
theorem C96_key_text {T : TableDecl} {ws : List Warning} {names : List PyStr} {pre clause post : PyStr} (h : check T = .ok ws)
    (hm : T.module = none) (hc : T.constraint = some (pre ++ clause ++ post)) (hk : KeyClause names clause)
    (hp : NotIn (py! "PRIMARY") pre (clause ++ post)) : ∀ n ∈ names, ∃ c ∈ T.columns, c.name = n := by
  obtain ⟨_, _, _, _, ho⟩ := check_ok.mp ⟨ws, h⟩
  have := (ho hm).2.1
  rwa [hc, keyColumns_clause hk hp] at this

/-- A wrong name in the clause is found. -/
theorem C96_key_refused {T : TableDecl} {names : List PyStr} {pre clause post n : PyStr} (hm : T.module = none)
    (hc : T.constraint = some (pre ++ clause ++ post)) (hk : KeyClause names clause) (hp : NotIn (py! "PRIMARY") pre (clause ++ post))
    (hn : n ∈ names) (hno : ∀ c ∈ T.columns, c.name ≠ n) : ∃ e, check T = .error e := by
  rcases h : check T with e | ws
  · exact ⟨e, rfl⟩
  · obtain ⟨c, h1, h2⟩ := C96_key_text h hm hc hk hp n hn
    exact absurd h2 (hno c h1)

/-- If an ordinary table is accepted, then the first clause UNIQUE(columns) of its constraint names columns of the table.
What is missing: the same for all such clauses, see `C96_unique_deviates`. -/
theorem C96_unique_text_partial {T : TableDecl} {ws : List Warning} {names : List PyStr} {pre clause post : PyStr} (h : check T = .ok ws)
    (hm : T.module = none) (hc : T.constraint = some (pre ++ clause ++ post)) (hk : UniqueClause names clause)
    (hp : NotIn (py! "UNIQUE") pre (clause ++ post)) : ∀ n ∈ names, ∃ c ∈ T.columns, c.name = n := by
  obtain ⟨_, _, _, _, ho⟩ := check_ok.mp ⟨ws, h⟩
  have := (ho hm).2.2.1
  rwa [hc, uniqueColumns_clause hk hp] at this

/-- A table without row id which is accepted has a primary key. -/
theorem C96_without_rowid {T : TableDecl} {ws : List Warning} (h : check T = .ok ws) (hm : T.module = none) (hr : T.withoutRowId = true)
    (hno : ∀ c ∈ T.columns, ∀ text, c.constraint = some text → ¬ TwoWords (py! "PRIMARY") (py! "KEY") text) :
    ∃ text, T.constraint = some text ∧ ¬ NotIn (py! "PRIMARY") text [] := by
  obtain ⟨_, _, _, _, ho⟩ := check_ok.mp ⟨ws, h⟩
  rcases (ho hm).2.2.2 hr with hk | ⟨c, hc, hk⟩
  · cases ht : T.constraint with
    | none => rw [ht] at hk; exact absurd rfl hk
    | some text =>
      refine ⟨text, rfl, fun hn => ?_⟩
      rw [ht, keyColumns_none hn] at hk
      exact hk rfl
  · cases ht : c.constraint with
    | none => rw [ht] at hk; simp [isPrimaryKey] at hk
    | some text => exact absurd (isPrimaryKey_iff.mp (ht ▸ hk)) (hno c hc text ht)

/-- A database is accepted exactly if the names of its tables differ not only in case and all its fields are tables. -/
theorem C96_database (fields : List ColumnDecl) :
    checkDatabase fields = .ok () ↔ (fields.map fun f => f.name.map lower).Nodup ∧ ∀ f ∈ fields, f.isTable = true := by
  have e0 : (fields.map fun c => c.name.map lower) = (fields.map (·.name)).map (·.map lower) := by simp
  rw [e0]
  unfold checkDatabase
  rcases h : checkNames [] (fields.map (·.name)) with e | ⟨⟩
  · simp only [h, reduceCtorEq, false_iff]
    rintro ⟨h1, _⟩
    have := checkNames_ok (seen := []).mpr ⟨h1, by simp⟩
    rw [h] at this
    cases this
  · simp only [h, checkAllTables_ok, (checkNames_ok.mp h).1, true_and]

/-! ### Warnings -/

/-- the only column of the key of a table without row id is an integer -/
def SlowKey (T : TableDecl) : Prop :=
  T.withoutRowId = true ∧ ∃ n, ((T.columns.filter fun c => isPrimaryKey c.constraint).map (·.name) ++ keyColumns T.constraint).eraseDups = [n] ∧
    ∃ c ∈ T.columns, c.name = n ∧ c.isInteger = true

/-- There are no errors and no warnings for an ordinary table exactly if it keeps the rules and has one primary key, which is its first
columns, which cannot be NULL; and if it has no row id, the key is not one integer. -/
theorem C96_silent {T : TableDecl} (hm : T.module = none) : check T = .ok [] ↔ Accepted T ∧ OneKey T ∧ ¬ SlowKey T := by
  have hslow : checkWithoutRowId T ((T.columns.filter fun c => isPrimaryKey c.constraint).map (·.name) ++ keyColumns T.constraint) = [] ↔
      ¬ SlowKey T := by
    unfold checkWithoutRowId SlowKey
    generalize ((T.columns.filter fun c => isPrimaryKey c.constraint).map (·.name) ++ keyColumns T.constraint).eraseDups = l
    match l with
    | [] => simp
    | [n] =>
      cases hr : T.withoutRowId
      · simp
      · simp only [Bool.true_and, List.cons.injEq, and_true, true_and, exists_eq_left']
        cases ha : T.columns.any fun c => c.name == n && c.isInteger
        · simp only [Bool.false_eq_true, if_false, true_iff]
          rintro ⟨c, hc, h1, h2⟩
          rw [List.any_eq_false] at ha
          exact ha c hc (by simp [h1, h2])
        · simp only [if_true, List.cons_ne_nil, false_iff, not_not]
          obtain ⟨c, hc, h⟩ := List.any_eq_true.mp ha
          simp only [Bool.and_eq_true, beq_iff_eq] at h
          exact ⟨c, hc, h.1, h.2⟩
    | n :: m :: l => simp
  have hcp : ∀ ws, check T = .ok ws → checkPrimaryKey T = .ok ws := by
    intro ws h
    unfold check at h
    split at h
    · cases h
    split at h
    · cases h
    split at h
    · cases h
    split at h
    · cases h
    rw [hm] at h
    simp only at h
    split at h
    · cases h
    split at h
    · cases h
    rename_i hp
    split at h
    · cases h
    cases h
    exact hp
  constructor
  · intro h
    have ha := check_ok.mp ⟨_, h⟩
    have := checkPrimaryKey_silent (hcp _ h) ha.1
    exact ⟨ha, this.1, hslow.mp this.2⟩
  · rintro ⟨ha, ho, hs⟩
    obtain ⟨ws, h⟩ := check_ok.mpr ha
    have hn : (T.columns.map (·.name)).Nodup := by
      have := ha.2.1
      rw [show (T.columns.map fun c => c.name.map lower) = (T.columns.map (·.name)).map (·.map lower) by simp] at this
      exact List.Pairwise.of_map _ (fun a b hab e => hab (by rw [e])) this
    have := hcp _ h
    rw [checkPrimaryKey_oneKey hn ho (hslow.mpr hs)] at this
    cases this
    exact h

/-! ### What it means for the generated code -/

/-- the class of a table is generated from its declaration -/
structure Describes (D : TableDecl) (t : Sql.TableDef) : Prop where
  columns : List.Forall₂ (fun d c => d.name = c.name ∧ d.isVirtual = c.isVirtual ∧ d.constraint = c.constraint) D.columns t.columns
  module : D.module = t.virtualUsing
  constraint : D.constraint = t.constraint
  withoutRowId : D.withoutRowId = t.withoutRowId

/-- The accepted tables are as the theorems about SQL tables demand. -/
theorem C96_named {D : TableDecl} {ws : List Warning} {t : Sql.TableDef} {name : PyStr} (h : check D = .ok ws) (hd : Describes D t)
    (hn : ∀ c ∈ D.columns, isName c.name = true) (hname : isName name = true) :
    Sql.Named ⟨t, name, none⟩ ∧ (t.virtualUsing = none → ∀ c ∈ t.columns, c.isVirtual = false) := by
  obtain ⟨h1, h2, _, _, ho⟩ := check_ok.mp ⟨ws, h⟩
  have hmap : ∀ {ds : List ColumnDecl} {cs : List Sql.Column},
      List.Forall₂ (fun d c => d.name = c.name ∧ d.isVirtual = c.isVirtual ∧ d.constraint = c.constraint) ds cs →
      ds.map (·.name) = cs.map (·.name) ∧ ds.map (·.isVirtual) = cs.map (·.isVirtual) := by
    intro ds cs hf
    induction hf with
    | nil => exact ⟨rfl, rfl⟩
    | cons a _ ih => simp [a.1, a.2.1, ih.1, ih.2]
  obtain ⟨hm1, hm2⟩ := hmap hd.columns
  refine ⟨⟨hname, by simp, ?_, ?_, ?_⟩, ?_⟩
  · intro c hc
    have : c.name ∈ D.columns.map (·.name) := hm1 ▸ List.mem_map.mpr ⟨c, hc, rfl⟩
    obtain ⟨d, hd1, hd2⟩ := List.mem_map.mp this
    exact hd2 ▸ hn d hd1
  · intro he
    change t.columns = [] at he
    rw [he] at hm1
    exact h1 (by simpa using hm1)
  · change (t.columns.map (·.name)).Nodup
    rw [← hm1]
    rw [show (D.columns.map fun c => c.name.map lower) = (D.columns.map (·.name)).map (·.map lower) by simp] at h2
    exact List.Pairwise.of_map _ (fun a b hab e => hab (by rw [e])) h2
  · intro hv c hc
    have : c.isVirtual ∈ D.columns.map (·.isVirtual) := hm2 ▸ List.mem_map.mpr ⟨c, hc, rfl⟩
    obtain ⟨d, hd1, hd2⟩ := List.mem_map.mp this
    exact hd2 ▸ (ho (hd.module.trans hv)).1 d hd1

/-! ### Examples -/

/-- two columns and a constraint with a clause for the key -/
def example1 : TableDecl where
  columns := [{ name := py! "id", constraint := some (py! "NOT  null") }, { name := py! "part", constraint := some (py! "NOT NULL") },
    { name := py! "text" }]
  constraint := some (py! "primary key ( id,  part ), UNIQUE(text)")
  withoutRowId := true

example : check example1 = .ok [] := by decide +kernel

example : Accepted example1 ∧ OneKey example1 ∧ ¬ SlowKey example1 := (C96_silent rfl).mp (by decide +kernel)

theorem example1_listing : Listing [py! "id", py! "part"] (py! " id,  part ") :=
  .more (n := py! "id") (a := py! " ") (b := []) (s := py! "  part ") (by decide) (by decide) (by decide)
    (.one (n := py! "part") (a := py! "  ") (b := py! " ") (by decide) (by decide) (by decide))

theorem example1_key : KeyClause [py! "id", py! "part"] (py! "primary key ( id,  part )") :=
  ⟨py! "primary", py! " ", py! "key", py! " ", py! " id,  part ", by decide, by unfold Spelled; decide, by decide, by decide,
    by unfold Spelled; decide, by decide, example1_listing⟩

theorem notIn_nil (word rest : PyStr) : NotIn word [] rest := by
  intro a b h hb
  exact absurd (List.append_eq_nil_iff.mp h.symm).2 hb

example : ∀ n ∈ [py! "id", py! "part"], ∃ c ∈ example1.columns, c.name = n :=
  C96_key_text (ws := []) (pre := []) (post := py! ", UNIQUE(text)") (by decide +kernel) rfl (by decide) example1_key (notIn_nil _ _)

example : ∃ e, check { example1 with columns := example1.columns.tail } = .error e :=
  C96_key_refused (n := py! "id") (pre := []) (post := py! ", UNIQUE(text)") rfl (by decide) example1_key (notIn_nil _ _) (by decide)
    (by decide)

example : check { example1 with constraint := none } = .error .noPrimaryKey := by decide +kernel

example : ∃ text, example1.constraint = some text ∧ ¬ NotIn (py! "PRIMARY") text [] :=
  C96_without_rowid (ws := []) (by decide +kernel) rfl rfl (by
    intro c hc text ht h
    rw [← isPrimaryKey_iff, ← ht] at h
    have key : ∀ c ∈ example1.columns, isPrimaryKey c.constraint = false := by decide +kernel
    rw [key c hc] at h
    cases h)

/-- the word UNIQUE is not in the text before the clause -/
theorem example1_notIn : NotIn (py! "UNIQUE") (py! "primary key ( id,  part ), ") (py! "UNIQUE(text)") := by
  intro a b h hb hp
  have key : ∀ k < (py! "primary key ( id,  part ), ").length,
      ¬ (py! "UNIQUE").map lower <+: ((py! "primary key ( id,  part ), ").drop k ++ py! "UNIQUE(text)").map lower := by decide +kernel
  have hl := congrArg List.length h
  rw [List.length_append] at hl
  have : 0 < b.length := List.length_pos_iff.mpr hb
  refine key a.length (by omega) ?_
  rw [h, List.drop_left]
  exact hp

example : ∀ n ∈ [py! "text"], ∃ c ∈ example1.columns, c.name = n :=
  C96_unique_text_partial (ws := []) (pre := py! "primary key ( id,  part ), ") (clause := py! "UNIQUE(text)") (post := []) (by decide +kernel) rfl (by decide)
    ⟨py! "UNIQUE", [], py! "text", by decide, by unfold Spelled; decide, by decide,
      .one (n := py! "text") (a := []) (b := []) (by decide) (by decide) (by decide)⟩ (by
      rw [List.append_nil]; exact example1_notIn)

example : TwoWords (py! "NOT") (py! "NULL") (py! "DEFAULT 1 not\n null") :=
  isNullAllowed_iff.mp (by decide +kernel)

example : Sql.Named ⟨{ columns := example1.columns.map fun c => { name := c.name, kind := .plain, sqlType := py! "TEXT", constraint := c.constraint }, constraint := example1.constraint, withoutRowId := true }, py! "t", none⟩ :=
  (C96_named (ws := []) (D := example1) (by decide +kernel)
    ⟨by simp [example1], rfl, rfl, rfl⟩ (by decide +kernel) (by decide +kernel)).1

example : checkDatabase [{ name := py! "a", isTable := true }, { name := py! "b", isTable := true }] = .ok () := by decide

/-! ### Deviations -/

/-- Only the first clause UNIQUE is checked: a table whose second clause names a column which does not exist is accepted without a
warning. -/
theorem C96_unique_deviates : ∃ T : TableDecl, check T = .ok [] ∧ T.module = none ∧ ∃ pre clause post,
    T.constraint = some (pre ++ clause ++ post) ∧ UniqueClause [py! "b"] clause ∧ ∀ c ∈ T.columns, c.name ≠ py! "b" := by
  refine ⟨{ columns := [{ name := py! "a", constraint := some (py! "PRIMARY KEY NOT NULL") }],
            constraint := some (py! "UNIQUE(a), UNIQUE(b)") }, by decide +kernel, rfl, py! "UNIQUE(a), ", py! "UNIQUE(b)", [], by decide,
    ⟨py! "UNIQUE", [], py! "b", by decide, by unfold Spelled; decide, by decide,
      .one (n := py! "b") (a := []) (b := []) (by decide) (by decide) (by decide)⟩, by decide⟩

/-- Two columns which are primary keys, which SQLite refuses, are only warned about. -/
theorem C96_two_keys_deviates : ∃ T : TableDecl, (∃ ws, check T = .ok ws) ∧ T.module = none ∧ ∃ c d cs, T.columns = c :: d :: cs ∧
    isPrimaryKey c.constraint = true ∧ isPrimaryKey d.constraint = true := by
  refine ⟨{ columns := [{ name := py! "a", constraint := some (py! "PRIMARY KEY") }, { name := py! "b", constraint := some (py! "PRIMARY KEY") }] },
    ⟨[.canBeNull (py! "a"), .duplicatedKey (py! "b"), .canBeNull (py! "b")], by decide +kernel⟩, rfl, _, _, [], rfl, by decide +kernel, by decide +kernel⟩

/-- Tables which SQLite takes are refused: with a direction behind the name of a column of the key, and with a name of a column written in
another case. -/
theorem C96_refused_deviates :
    check { columns := [{ name := py! "id" }], constraint := some (py! "PRIMARY KEY (id ASC)") } = .error (.keyNotFound (py! "id ASC")) ∧
    check { columns := [{ name := py! "id" }], constraint := some (py! "PRIMARY KEY (ID)") } = .error (.keyNotFound (py! "ID")) := by
  decide +kernel

/-- A column is accepted whose name is a key word of SQL: its declaration is taken for a constraint of the table. -/
theorem C96_keyword_deviates : ∃ T : TableDecl, (∃ ws, check T = .ok ws) ∧ T.module = none ∧
    ∃ c ∈ T.columns, isName c.name = true ∧ c.name.map lower ∈ Sql.constraintWords :=
  ⟨{ columns := [{ name := py! "id", constraint := some (py! "PRIMARY KEY NOT NULL") }, { name := py! "check" }] },
    ⟨[], by decide +kernel⟩, rfl, { name := py! "check" }, by decide, by decide, by decide⟩

/-- The words PRIMARY KEY in a text of a CHECK count as the key of the table without row id, so that a table without a key is accepted. -/
theorem C96_text_deviates : ∃ T : TableDecl, check T = .ok [] ∧ T.module = none ∧ T.withoutRowId = true ∧ T.constraint = none ∧
    ∃ c, T.columns = [c] ∧ c.constraint = some (py! "NOT NULL CHECK (a <> 'primary key')") :=
  ⟨{ columns := [{ name := py! "a", constraint := some (py! "NOT NULL CHECK (a <> 'primary key')") }], withoutRowId := true },
    by decide +kernel, rfl, rfl, rfl, _, rfl, rfl⟩

end Zserio.SqlCheck
