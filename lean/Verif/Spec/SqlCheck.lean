import Verif.Model.SqlCheck
/-
What SQLite demands of the tables of a schema, and how columns are named in constraints.
-/
namespace Zserio.SqlCheck

open Sql (lower isName)

/-- the word, in small or capital letters -/
def Spelled (word s : PyStr) : Prop := s.map lower = word.map lower

/-- only spaces and line breaks -/
def Blank (s : PyStr) : Prop := ∀ c ∈ s, c ∈ [9, 10, 11, 12, 13, 32]

instance (s : PyStr) : Decidable (Blank s) := inferInstanceAs (Decidable (∀ c ∈ s, c ∈ [9, 10, 11, 12, 13, 32]))

/-- names with commas between them, and spaces anywhere around the names -/
inductive Listing : List PyStr → PyStr → Prop
  | one {n a b} : isName n = true → Blank a → Blank b → Listing [n] (a ++ n ++ b)
  | more {n ns a b s} : isName n = true → Blank a → Blank b → Listing ns s → Listing (n :: ns) (a ++ n ++ b ++ ch! ',' :: s)

/-- `PRIMARY KEY(names)` -/
def KeyClause (names : List PyStr) (s : PyStr) : Prop :=
  ∃ w a w' b l, s = w ++ a ++ w' ++ b ++ ch! '(' :: l ++ [ch! ')'] ∧ Spelled (py! "PRIMARY") w ∧ Blank a ∧ a ≠ [] ∧
    Spelled (py! "KEY") w' ∧ Blank b ∧ Listing names l

/-- `UNIQUE(names)` -/
def UniqueClause (names : List PyStr) (s : PyStr) : Prop :=
  ∃ w b l, s = w ++ b ++ ch! '(' :: l ++ [ch! ')'] ∧ Spelled (py! "UNIQUE") w ∧ Blank b ∧ Listing names l

/-- the word does not begin in the first part of the text -/
def NotIn (word before rest : PyStr) : Prop :=
  ∀ a b, before = a ++ b → b ≠ [] → ¬ word.map lower <+: (b ++ rest).map lower

/-- the two words somewhere in the text, with spaces between them -/
def TwoWords (first second s : PyStr) : Prop :=
  ∃ pre w b w' post, s = pre ++ w ++ b ++ w' ++ post ∧ Spelled first w ∧ Blank b ∧ b ≠ [] ∧ Spelled second w'

/-- The rules for tables: a table has columns, their names differ not only in case, no column is a table, and explicit parameters of
the same name have the same type. The keys of an ordinary table consist of its columns, and it has a key if it has no row id. -/
def Accepted (T : TableDecl) : Prop :=
  T.columns ≠ [] ∧ (T.columns.map fun c => c.name.map lower).Nodup ∧ (∀ c ∈ T.columns, c.isTable = false) ∧
    (∀ c ∈ T.columns, ∀ c' ∈ T.columns, ∀ n t t', (n, t) ∈ c.arguments → (n, t') ∈ c'.arguments → t = t') ∧
    (T.module = none → (∀ c ∈ T.columns, c.isVirtual = false) ∧
      (∀ n ∈ keyColumns T.constraint, ∃ c ∈ T.columns, c.name = n) ∧
      (∀ n ∈ uniqueColumns T.constraint, ∃ c ∈ T.columns, c.name = n) ∧
      (T.withoutRowId = true → keyColumns T.constraint ≠ [] ∨ ∃ c ∈ T.columns, isPrimaryKey c.constraint = true))

/-- The table has one primary key: the first column, or the first columns, which cannot be NULL. -/
def OneKey (T : TableDecl) : Prop :=
  (∃ c cs, T.columns = c :: cs ∧ isPrimaryKey c.constraint = true ∧ isNullAllowed c.constraint = false ∧
    (∀ d ∈ cs, isPrimaryKey d.constraint = false) ∧ keyColumns T.constraint = []) ∨
  (∃ cs ds, T.columns = cs ++ ds ∧ cs ≠ [] ∧ keyColumns T.constraint = cs.map (·.name) ∧ (∀ c ∈ cs, isNullAllowed c.constraint = false) ∧
    ∀ c ∈ T.columns, isPrimaryKey c.constraint = false)

end Zserio.SqlCheck
