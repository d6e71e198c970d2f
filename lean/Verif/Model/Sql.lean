import Verif.Model.JsonText
import Verif.Model.Schema
/-
The part of SQLite and of its Python binding `apsw` which the generated classes for SQL tables and databases use.  This is not
code of zserio, so it belongs to the trusted base: a connection executes the text of a statement.

The texts of statements are those of a small part of SQL; every other text is a syntax error.  What the conditions and constraints
of the user mean is left open (`Engine`).  Not represented: the conversions of values to the declared type of their column (the generated
classes write values of this type), default values of columns and automatic row ids (a column which is not given is NULL), several
connections, and rows which are read while the table is changed.
-/
namespace Zserio.Sql

/-- the values which SQLite stores -/
inductive SqlValue where
  | null
  | int (x : Int)
  | real (x : PyFloat)
  | text (s : PyStr)
  | blob (b : List UInt8)
  deriving DecidableEq

/-- a row of a table: the values of its columns -/
abbrev Row := List SqlValue

/-- a table; `withoutRowId` says that it has been created WITHOUT ROWID -/
structure Table where
  columns : List PyStr
  rows : List Row
  withoutRowId : Bool
  deriving DecidableEq

/-- a database file: the tables by name -/
abbrev Tables := PyStr → Option Table

/-- What SQLite does with the texts which are passed through, and in which order it returns rows.

* `condition`: the meaning of the condition of a WHERE clause for a row, or `none` if the text is no condition
* `valid`: whether the content of the table of this name respects the constraints of the table
* `arrange`: the order in which rows are returned
* `real`: what is stored for a floating point number
* `moduleColumns`: the columns which the module of a virtual table (its name, its arguments) adds to those declared -/
structure Engine where
  condition : PyStr → Option (List (PyStr × SqlValue) → Bool)
  valid : PyStr → Table → Bool
  arrange : List Row → List Row
  real : PyFloat → SqlValue
  moduleColumns : PyStr → PyStr → List PyStr

/-- the meaning of a WHERE clause which may be missing -/
def Engine.meaning (E : Engine) : Option PyStr → Option (List (PyStr × SqlValue) → Bool)
  | none => some fun _ => true
  | some text => E.condition text

/-- rows are returned in some order -/
structure Engine.Lawful (E : Engine) : Prop where
  arrange : ∀ rows, (E.arrange rows).Perm rows

/-! ### Texts of statements -/

/-- the name of a table, perhaps with the name of its database -/
structure TableRef where
  db : Option PyStr
  name : PyStr
  deriving DecidableEq

/-- statements -/
inductive Statement where
  | begin
  | commit
  | insert (table : TableRef) (columns : List PyStr) (parameters : Nat)
  | select (columns : List PyStr) (table : TableRef) (condition : Option PyStr)
  | update (table : TableRef) (columns : List PyStr) (condition : PyStr)
  | create (table : TableRef) (columns : List PyStr) (modArgs : Option (PyStr × PyStr)) (withoutRowId : Bool)
  | drop (table : TableRef)
  | attach (file name : PyStr)
  | detach (name : PyStr)
  deriving DecidableEq

/-- the text after a prefix -/
def after : PyStr → PyStr → Option PyStr
  | [], s => some s
  | _ :: _, [] => none
  | c :: p, d :: s => if c = d then after p s else none

/-- the text up to a character which is in `stop`, and the rest -/
def upTo (stop : List Nat) : PyStr → PyStr × PyStr
  | [] => ([], [])
  | c :: s => if c ∈ stop then ([], c :: s) else (c :: (upTo stop s).1, (upTo stop s).2)

/-- the parts of a text between separators -/
def split (sep : Nat) : PyStr → List PyStr
  | [] => [[]]
  | c :: s =>
    if c = sep then [] :: split sep s
    else
      match split sep s with
      | [] => [[c]]
      | w :: ws => (c :: w) :: ws

/-- letters, digits and underscores -/
def isNameChar (c : Nat) : Bool :=
  (ch! 'a' ≤ c && c ≤ ch! 'z') || (ch! 'A' ≤ c && c ≤ ch! 'Z') || (ch! '0' ≤ c && c ≤ ch! '9') || c == ch! '_'

/-- a name which needs no quotes (key words are not represented) -/
def isName (s : PyStr) : Bool := !s.isEmpty && s.all isNameChar

/-- `name` or `db.name` -/
def parseTable (s : PyStr) : Option TableRef :=
  match split (ch! '.') s with
  | [n] => if isName n then some ⟨none, n⟩ else none
  | [d, n] => if isName d && isName n then some ⟨some d, n⟩ else none
  | _ => none

/-- names separated by commas -/
def parseNames (s : PyStr) : Option (List PyStr) :=
  let names := split (ch! ',') s
  if names.all isName then some names else none

/-- question marks separated by commas -/
def parseMarks (s : PyStr) : Option Nat :=
  let marks := split (ch! ',') s
  if marks.all (· == py! "?") then some marks.length else none

/-- `name=?` -/
def parseAssignment (s : PyStr) : Option PyStr :=
  match upTo [ch! '='] s with
  | (n, rest) => if isName n && rest == py! "=?" then some n else none

/-- assignments separated by commas -/
def parseAssignments (s : PyStr) : Option (List PyStr) := (split (ch! ',') s).mapM parseAssignment

/-- `INSERT INTO table(columns) VALUES (marks)` -/
def parseInsert (s : PyStr) : Option Statement := do
  let (table, s) := upTo [ch! '('] s
  let s ← after (py! "(") s
  let (columns, s) := upTo [ch! ')'] s
  let s ← after (py! ") VALUES (") s
  let (marks, s) := upTo [ch! ')'] s
  if s = py! ")" then
    some (.insert (← parseTable table) (← parseNames columns) (← parseMarks marks))
  else none

/-- `SELECT columns FROM table [WHERE condition]` -/
def parseSelect (s : PyStr) : Option Statement := do
  let (columns, s) := upTo [ch! ' '] s
  let s ← after (py! " FROM ") s
  let (table, s) := upTo [ch! ' '] s
  if s = [] then some (.select (← parseNames columns) (← parseTable table) none)
  else
    let condition ← after (py! " WHERE ") s
    some (.select (← parseNames columns) (← parseTable table) (some condition))

/-- `UPDATE table SET assignments WHERE condition` -/
def parseUpdate (s : PyStr) : Option Statement := do
  let (table, s) := upTo [ch! ' '] s
  let s ← after (py! " SET ") s
  let (assignments, s) := upTo [ch! ' '] s
  let condition ← after (py! " WHERE ") s
  some (.update (← parseTable table) (← parseAssignments assignments) condition)

/-- The parts of a text between commas which are not within parentheses; `none` if the parentheses do not match. -/
def items : Nat → PyStr → Option (List PyStr)
  | depth, [] => if depth = 0 then some [[]] else none
  | depth, c :: s =>
    if c = ch! ',' ∧ depth = 0 then (items 0 s).map ([] :: ·)
    else
      match if c = ch! '(' then some (depth + 1) else if c = ch! ')' then if depth = 0 then none else some (depth - 1) else some depth with
      | none => none
      | some depth =>
        match items depth s with
        | none => none
        | some [] => some [[c]]
        | some (w :: ws) => some ((c :: w) :: ws)

/-- without the blanks at the beginning -/
def trim (s : PyStr) : PyStr := s.dropWhile (· == ch! ' ')

/-- a lower case letter for a letter -/
def lower (c : Nat) : Nat := if ch! 'A' ≤ c ∧ c ≤ ch! 'Z' then c + 32 else c

/-- the key words at the beginning of constraints of tables -/
def constraintWords : List PyStr := [py! "primary", py! "unique", py! "check", py! "foreign", py! "constraint"]

/-- an item of the definition of a table: the column it defines, or nothing for a constraint; `none` if it is neither -/
def parseItem (s : PyStr) : Option (Option PyStr) :=
  match upTo [ch! ' ', ch! '('] (trim s) with
  | (word, _) => if !isName word then none else if word.map lower ∈ constraintWords then some none else some (some word)

/-- the text between parentheses at the end of the text -/
def body (s : PyStr) : Option PyStr := do
  let s ← after (py! "(") s
  let r ← after (py! ")") s.reverse
  some r.reverse

/-- the columns of the definition of a table -/
def parseColumns (s : PyStr) : Option (List PyStr) := do
  let is ← items 0 (← body s)
  let cs ← is.mapM parseItem
  some (cs.filterMap id)

/-- `CREATE TABLE table(items) [WITHOUT ROWID]` -/
def parseCreate (s : PyStr) : Option Statement := do
  let (table, s) := upTo [ch! '('] s
  match after (py! " WITHOUT ROWID").reverse s.reverse with
  | some r => some (.create (← parseTable table) (← parseColumns r.reverse) none true)
  | none => some (.create (← parseTable table) (← parseColumns s) none false)

/-- an argument of a module: the column it defines, or nothing for an empty argument and for an option -/
def parseArgument (s : PyStr) : Option (Option PyStr) :=
  if (trim s).isEmpty then some none
  else
    match upTo [ch! ' ', ch! '(', ch! '='] (trim s) with
    | (word, rest) => if !isName word then none else if rest.head? = some (ch! '=') then some none else some (some word)

/-- the columns of the arguments of a module -/
def parseArguments (s : PyStr) : Option (List PyStr) := do
  let is ← items 0 s
  let cs ← is.mapM parseArgument
  some (cs.filterMap id)

/-- `CREATE VIRTUAL TABLE table USING module[(arguments)]` -/
def parseCreateVirtual (s : PyStr) : Option Statement := do
  let (table, s) := upTo [ch! ' '] s
  let s ← after (py! " USING ") s
  let (modName, s) := upTo [ch! '('] s
  if !isName modName then none
  else if s = [] then some (.create (← parseTable table) [] (some (modName, [])) false)
  else
    let arguments ← body s
    some (.create (← parseTable table) (← parseArguments arguments) (some (modName, arguments)) false)

/-- `ATTACH DATABASE 'file' AS name` -/
def parseAttach (s : PyStr) : Option Statement := do
  let (file, s) := upTo [ch! '\''] s
  let name ← after (py! "' AS ") s
  if isName name then some (.attach file name) else none

/-- the statement with this text -/
def parse (sql : PyStr) : Option Statement :=
  if sql = py! "BEGIN" then some .begin
  else if sql = py! "COMMIT" then some .commit
  else
    match after (py! "INSERT INTO ") sql with
    | some s => parseInsert s
    | none =>
    match after (py! "SELECT ") sql with
    | some s => parseSelect s
    | none =>
    match after (py! "UPDATE ") sql with
    | some s => parseUpdate s
    | none =>
    match after (py! "CREATE TABLE ") sql with
    | some s => parseCreate s
    | none =>
    match after (py! "CREATE VIRTUAL TABLE ") sql with
    | some s => parseCreateVirtual s
    | none =>
    match after (py! "DROP TABLE ") sql with
    | some s => (parseTable s).map .drop
    | none =>
    match after (py! "ATTACH DATABASE '") sql with
    | some s => parseAttach s
    | none =>
    match after (py! "DETACH DATABASE ") sql with
    | some s => if isName s then some (.detach s) else none
    | none => none

/-! ### Connections -/

/-- the content of all database files -/
abbrev Files := PyStr → Tables

/-- A connection: its databases with their names and files (the one with the name `main` first), the files as the connection sees
them, the files as they were before the current transaction if there is one, and whether the connection is open.  `disk` is there
for statements about crashes only: what the files would contain after a crash at any moment so far, the latest first. -/
structure Connection where
  schemas : List (PyStr × PyStr)
  files : Files
  saved : Option Files
  isOpen : Bool
  disk : List Files

namespace Connection

/-- what the files contain after a crash -/
def committed (c : Connection) : Files := c.saved.getD c.files

/-- the first database, in the order of the list, which has the table -/
def findTable (files : Files) (name : PyStr) : List (PyStr × PyStr) → Option (PyStr × Table)
  | [] => none
  | (_, file) :: ss =>
    match files file name with
    | some t => some (file, t)
    | none => findTable files name ss

/-- the file and the content of a table -/
def table (c : Connection) (t : TableRef) : Option (PyStr × Table) :=
  match t.db with
  | none => findTable c.files t.name c.schemas
  | some db =>
    match c.schemas.lookup db with
    | none => none
    | some file => (c.files file t.name).map fun x => (file, x)

/-- the file in which a table is created: that of `main` if no database is named -/
def target (c : Connection) (t : TableRef) : Option PyStr := c.schemas.lookup (t.db.getD (py! "main"))

/-- the files after a change of a table -/
def setTable (files : Files) (file name : PyStr) (t : Option Table) : Files := fun f n =>
  if f = file ∧ n = name then t else files f n

end Connection

/-- the value of a column -/
def valueOf (columns : List PyStr) (row : Row) (column : PyStr) : SqlValue := ((columns.zip row).lookup column).getD .null

/-- the row with the values of some columns changed -/
def assign (columns : List PyStr) (values : List (PyStr × SqlValue)) (row : Row) : Row :=
  (columns.zip row).map fun (c, v) => (values.lookup c).getD v

/-- the row with the values of some columns changed, if it meets the condition -/
def updateRow (columns : List PyStr) (values : List (PyStr × SqlValue)) (f : List (PyStr × SqlValue) → Bool) (row : Row) : Row :=
  if f (columns.zip row) then assign columns values row else row

/-- the effect of a statement with its parameters -/
def run (E : Engine) (values : Row) : Statement → M Connection (List Row)
  | .begin => fun c => if c.saved.isSome then (.error .sql, c) else (.ok [], { c with saved := some c.files })
  | .commit => fun c => if c.saved.isNone then (.error .sql, c) else (.ok [], { c with saved := none })
  | .insert table columns n => fun c =>
    match c.table table with
    | none => (.error .sql, c)
    | some (file, t) =>
      if columns.length ≠ n ∨ values.length ≠ n ∨ columns.any (· ∉ t.columns) then (.error .sql, c)
      else
        let t := { t with rows := t.rows ++ [t.columns.map (valueOf columns values)] }
        if E.valid table.name t then (.ok [], { c with files := Connection.setTable c.files file table.name (some t) })
        else (.error .sql, c)
  | .select columns table condition => fun c =>
    match c.table table with
    | none => (.error .sql, c)
    | some (_, t) =>
      match E.meaning condition with
      | none => (.error .sql, c)
      | some f =>
        if values.length ≠ 0 ∨ columns.any (· ∉ t.columns) then (.error .sql, c)
        else
          let rows := t.rows.filter fun row => f (t.columns.zip row)
          (.ok (E.arrange (rows.map fun row => columns.map (valueOf t.columns row))), c)
  | .update table columns condition => fun c =>
    match c.table table with
    | none => (.error .sql, c)
    | some (file, t) =>
      match E.condition condition with
      | none => (.error .sql, c)
      | some f =>
        if values.length ≠ columns.length ∨ columns.any (· ∉ t.columns) then (.error .sql, c)
        else
          let t := { t with rows := t.rows.map (updateRow t.columns (columns.zip values) f) }
          if E.valid table.name t then (.ok [], { c with files := Connection.setTable c.files file table.name (some t) })
          else (.error .sql, c)
  | .create table columns modArgs withoutRowId => fun c =>
    match c.target table with
    | none => (.error .sql, c)
    | some file =>
      if (c.files file table.name).isSome then (.error .sql, c)
      else
        let columns := match modArgs with
          | none => columns
          | some (m, arguments) => columns ++ E.moduleColumns m arguments
        if columns.isEmpty ∨ ¬ columns.Nodup then (.error .sql, c)
        else (.ok [], { c with files := Connection.setTable c.files file table.name (some ⟨columns, [], withoutRowId⟩) })
  | .drop table => fun c =>
    match c.table table with
    | none => (.error .sql, c)
    | some (file, _) => (.ok [], { c with files := Connection.setTable c.files file table.name none })
  | .attach file name => fun c =>
    if c.saved.isSome ∨ (c.schemas.lookup name).isSome then (.error .sql, c)
    else (.ok [], { c with schemas := c.schemas ++ [(name, file)] })
  | .detach name => fun c =>
    if c.saved.isSome ∨ name = py! "main" ∨ (c.schemas.lookup name).isNone then (.error .sql, c)
    else (.ok [], { c with schemas := c.schemas.filter fun s => s.1 ≠ name })

/-- the value bound to a parameter: an `OverflowError` for integers of more than 64 bits, a `TypeError` for other objects; NaN is
stored as NULL, if `real` says so -/
def bind (E : Engine) : Val → Except Err SqlValue
  | .none => .ok .null
  | .int x => if -2 ^ 63 ≤ x ∧ x < 2 ^ 63 then .ok (.int x) else .error .overflow
  | .bool b => .ok (.int (if b then 1 else 0))
  | .float x => .ok (E.real x)
  | .str s => .ok (.text s)
  | .bytes b => .ok (.blob b)
  | _ => .error .type

/-- the values bound to all parameters -/
def bindAll (E : Engine) : List Val → Except Err Row
  | [] => .ok []
  | v :: vs => do
    let x ← bind E v
    let xs ← bindAll E vs
    .ok (x :: xs)

/-- a value of a row as a Python object -/
def SqlValue.toVal : SqlValue → Val
  | .null => .none
  | .int x => .int x
  | .real x => .float x
  | .text s => .str s
  | .blob b => .bytes b

/-- `cursor.execute(sql, bindings)`: the rows -/
def execute (E : Engine) (sql : PyStr) (bindings : List Val) : M Connection (List (List Val)) := fun c =>
  if !c.isOpen then (.error .sql, c)
  else
    match parse sql with
    | none => (.error .sql, c)
    | some st =>
      match bindAll E bindings with
      | .error e => (.error e, c)
      | .ok values =>
        match run E values st c with
        | (r, c) => (r.map (·.map (·.map SqlValue.toVal)), { c with disk := c.committed :: c.disk })

/-- `connection.getautocommit()` -/
def getAutocommit : M Connection Bool := fun c => if !c.isOpen then (.error .sql, c) else (.ok c.saved.isNone, c)

/-- `connection.close()`: a transaction which has not been committed is undone -/
def close : M Connection Unit := fun c =>
  (.ok (), { c with files := c.committed, saved := none, isOpen := false, disk := c.committed :: c.disk })

end Zserio.Sql
