import Verif.Model.SqlTable
/-
Model of the classes generated for SQL databases (SqlDatabase.py.ftl).

Dictionaries are lists of pairs in the order of insertion.  A file name stands for a file: names with a special meaning for SQLite
(`:memory:`, the empty name, URIs) and several names of one file are not represented, nor are errors when a file is opened.
-/
namespace Zserio.Sql

/-- An SQL database type, SqlDatabaseEmitterTemplateData.java:19-58: its name and the names and types of its tables. -/
structure DatabaseDef where
  name : PyStr
  fields : List (PyStr × TableDef)

/-- An object of the class of a database, SqlDatabase.py.ftl:43-46, 212-216.  The connection is the state of the methods;
`connected` is whether `_connection` is not `None`. -/
structure Database where
  tables : List SqlTable
  attached : List PyStr
  isExternal : Bool
  connected : Bool

namespace Database

/-- SqlDatabase.py.ftl:212-216 `_init_tables` -/
def initTables (D : DatabaseDef) (attachedNames : List (PyStr × PyStr)) : List SqlTable :=
  D.fields.map fun (name, type) => ⟨type, name, attachedNames.lookup name⟩

/-- SqlDatabase.py.ftl:30-46 `__init__` -/
def init (D : DatabaseDef) (attachedNames : List (PyStr × PyStr)) : Database := ⟨initTables D attachedNames, [], true, true⟩

/-- SqlDatabase.py.ftl:219-224 `_attach_database` -/
def attachDatabase (E : Engine) (file name : PyStr) : M Connection Unit :=
  SqlTable.exec E (py! "ATTACH DATABASE '" ++ file ++ py! "' AS " ++ name) []

/-- SqlDatabase.py.ftl:69-76: the loop over the relocation map; `tables` and `files` are the maps built so far.  A table name is a key
of a dictionary, so it is new for `tables`. -/
def attachLoop (E : Engine) (D : DatabaseDef) : List (PyStr × PyStr) → List (PyStr × PyStr) → List (PyStr × PyStr) →
    M Connection (List (PyStr × PyStr) × List (PyStr × PyStr))
  | [], tables, files => pure (tables, files)
  | (table, file) :: rest, tables, files =>
    match files.lookup file with
    | some name => attachLoop E D rest (tables ++ [(table, name)]) files
    | none => do
      let name := D.name ++ py! "_" ++ table
      attachDatabase E file name
      attachLoop E D rest (tables ++ [(table, name)]) (files ++ [(file, name)])

/-- `apsw.Connection(filename, ...)`, SqlDatabase.py.ftl:62-63 -/
def openFile (files : Files) (filename : PyStr) : Connection := ⟨[(py! "main", filename)], files, none, true, [files]⟩

/-- SqlDatabase.py.ftl:48-82 `from_file`: the object or the exception, and the connection (which nobody can close in case of an exception) -/
def fromFile (E : Engine) (D : DatabaseDef) (files : Files) (filename : PyStr) (relocation : List (PyStr × PyStr)) :
    Except Err Database × Connection :=
  match attachLoop E D relocation [] [] (openFile files filename) with
  | (.error e, c) => (.error e, c)
  | (.ok (tables, attached), c) => (.ok { init D tables with attached := attached.map (·.2), isExternal := false }, c)

/-- SqlDatabase.py.ftl:226-230 `_detach_databases` -/
def detachDatabases (E : Engine) : List PyStr → M Connection Unit
  | [] => pure ()
  | name :: names => do
    SqlTable.exec E (py! "DETACH DATABASE " ++ name) []
    detachDatabases E names

/-- SqlDatabase.py.ftl:107-119 `close`: the exception, if any, the object and the connection.  When the connection is `None`, there is an
`AttributeError`, which is represented by `.type`. -/
def close (E : Engine) (d : Database) (c : Connection) : Except Err Unit × Database × Connection :=
  if !d.isExternal then
    if !d.connected then (.error .type, d, c)
    else
      match detachDatabases E d.attached c with
      | (.error e, c) => (.error e, d, (Sql.close c).2)
      | (.ok (), c) =>
        match Sql.close c with
        | (.error e, c) => (.error e, d, c)
        | (.ok (), c) => (.ok (), { d with connected := false }, c)
  else (.ok (), { d with connected := false }, c)

/-- SqlDatabase.py.ftl:179-186: one table -/
def createOne (E : Engine) (blacklist : List PyStr) (T : SqlTable) : M Connection Unit :=
  if T.type.withoutRowId then
    if T.tableName ∈ blacklist then T.createOrdinaryRowidTable E
    else T.createTable E
  else T.createTable E

/-- SqlDatabase.py.ftl:178-187: all tables -/
def createLoop (E : Engine) (blacklist : List PyStr) : List SqlTable → M Connection Unit
  | [] => pure ()
  | T :: Ts => do
    createOne E blacklist T
    createLoop E blacklist Ts

/-- SqlDatabase.py.ftl:157-190 `create_schema`; without an argument the list is empty -/
def createSchema (E : Engine) (d : Database) (blacklist : List PyStr) : M Connection Unit := do
  if !d.connected then M.throw .type
  let hasAutocommit ← getAutocommit
  if hasAutocommit then SqlTable.exec E (py! "BEGIN") []
  createLoop E blacklist d.tables
  if hasAutocommit then SqlTable.exec E (py! "COMMIT") []

/-- SqlDatabase.py.ftl:204-206: all tables -/
def deleteLoop (E : Engine) : List SqlTable → M Connection Unit
  | [] => pure ()
  | T :: Ts => do
    T.deleteTable E
    deleteLoop E Ts

/-- SqlDatabase.py.ftl:192-209 `delete_schema` -/
def deleteSchema (E : Engine) (d : Database) : M Connection Unit := do
  if !d.connected then M.throw .type
  let hasAutocommit ← getAutocommit
  if hasAutocommit then SqlTable.exec E (py! "BEGIN") []
  deleteLoop E d.tables
  if hasAutocommit then SqlTable.exec E (py! "COMMIT") []

end Database
end Zserio.Sql
