import Verif.Model.SqlDatabase
import Verif.Spec.Sql
/-
Vocabulary for the statements about SQL databases.
-/
namespace Zserio.Sql

/-- The file to which a table belongs: that of the relocation map, if there is one, or else the file of the database. -/
def fileOf (filename : PyStr) (relocation : List (PyStr × PyStr)) (table : PyStr) : PyStr := (relocation.lookup table).getD filename

/-- The names of the database, of its tables and of their columns are names of SQL, and the tables have different names. -/
structure DatabaseDef.Sound (D : DatabaseDef) : Prop where
  name : isName D.name = true
  tables : ∀ f ∈ D.fields, Named ⟨f.2, f.1, none⟩
  distinct : (D.fields.map (·.1)).Nodup

/-- The relocation map is a dictionary of names of SQL and names of files without quotes. -/
structure Relocation (relocation : List (PyStr × PyStr)) : Prop where
  tables : ∀ p ∈ relocation, isName p.1 = true
  files : ∀ p ∈ relocation, ch! '\'' ∉ p.2
  distinct : (relocation.map (·.1)).Nodup

/-- The tables of a database can be created: their declarations are in order, they have different names, and `place T` is the file of the
database which `T` names. -/
structure Placed (E : Engine) (c : Connection) (tables : List SqlTable) (place : SqlTable → PyStr) : Prop where
  named : ∀ T ∈ tables, Named T
  declared : ∀ T ∈ tables, Declared T
  distinct : (tables.map (·.tableName)).Nodup
  target : ∀ T ∈ tables, c.target (refOf T) = some (place T)
  columns : ∀ T ∈ tables, ∀ columns, CreatedWith E T columns → columns ≠ [] ∧ columns.Nodup

end Zserio.Sql
