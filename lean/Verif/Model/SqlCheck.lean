import Verif.Model.Sql
/-
The checks of the compiler for SQL tables and SQL databases: SqlTableType.java, SqlDatabaseType.java, SqlConstraint.java,
SqlIdentifierValidator.java and CompoundType.java.

Simplifications: the constraints have been evaluated to texts (SqlConstraint.java:99-102); a warning is a value, and the warnings which are
printed before an error are dropped; names consist of ASCII characters.
-/
namespace Zserio.SqlCheck

open Sql (lower split)

/-- A field of a table. `arguments` are the explicit arguments of its type: the name and the type of the parameter. -/
structure ColumnDecl where
  name : PyStr
  isVirtual : Bool := false
  constraint : Option PyStr := none
  isTable : Bool := false
  isInteger : Bool := false
  arguments : List (PyStr × PyStr) := []
  deriving DecidableEq

/-- A table, SqlTableType.java:21-40 -/
structure TableDecl where
  columns : List ColumnDecl
  module : Option PyStr := none
  constraint : Option PyStr := none
  withoutRowId : Bool := false

/-- the errors -/
inductive TableError where
  | notUnique (name : PyStr)
  | isTable (name : PyStr)
  | isNoTable (name : PyStr)
  | parameterType (name : PyStr)
  | empty
  | virtualColumn (name : PyStr)
  | noPrimaryKey
  | keyNotFound (name : PyStr)
  | uniqueNotFound (name : PyStr)
  deriving DecidableEq

/-- the warnings -/
inductive Warning where
  | duplicatedKey (name : PyStr)
  | notFirst (name : PyStr)
  | canBeNull (name : PyStr)
  | multipleKeys
  | noKey
  | badOrder (name : PyStr)
  | performance
  deriving DecidableEq

/-! ### Texts of constraints, SqlConstraint.java:97-151 -/

/-- `\s` of java.util.regex -/
def isSpace (c : Nat) : Bool := c == 32 || (9 ≤ c && c ≤ 13)

/-- letters of a regular expression with CASE_INSENSITIVE: the text behind them -/
def literal : PyStr → PyStr → Option PyStr
  | [], s => some s
  | _ :: _, [] => none
  | c :: w, d :: s => if lower c = lower d then literal w s else none

/-- `\s*` -/
def spaces (s : PyStr) : PyStr := s.dropWhile isSpace

/-- `\s+` -/
def spaces1 : PyStr → Option PyStr
  | [] => none
  | c :: s => if isSpace c then some (spaces s) else none

/-- `\s*\(([^\)]+)\)`: the group. (No backtracking is needed, since each part ends at a character which it does not match.) -/
def groupAt (s : PyStr) : Option PyStr :=
  match spaces s with
  | [] => none
  | c :: r =>
    if c = ch! '(' ∧ r.takeWhile (· != ch! ')') ≠ [] ∧ r.dropWhile (· != ch! ')') ≠ [] then some (r.takeWhile (· != ch! ')'))
    else none

/-- PRIMARY_KEY_FIELD_CONSTRAINT_REGEX, SqlConstraint.java:150 -/
def keyAt (s : PyStr) : Option PyStr := (literal (py! "PRIMARY") s).bind fun s => (spaces1 s).bind fun s => literal (py! "KEY") s

/-- PRIMARY_KEY_TABLE_CONSTRAINT_REGEX, SqlConstraint.java:148 -/
def primaryKeyAt (s : PyStr) : Option PyStr := (keyAt s).bind groupAt

/-- UNIQUE_TABLE_CONSTRAINT_REGEX, SqlConstraint.java:149 -/
def uniqueAt (s : PyStr) : Option PyStr := (literal (py! "UNIQUE") s).bind groupAt

/-- NOT_NULL_FIELD_CONSTRAINT_REGEX, SqlConstraint.java:151 -/
def notNullAt (s : PyStr) : Option PyStr := (literal (py! "NOT") s).bind fun s => (spaces1 s).bind fun s => literal (py! "NULL") s

/-- java.util.regex.Matcher.find: the first match -/
def find (at_ : PyStr → Option PyStr) : PyStr → Option PyStr
  | [] => at_ []
  | c :: s =>
    match at_ (c :: s) with
    | some g => some g
    | none => find at_ s

/-- java.lang.String.trim -/
def trim (s : PyStr) : PyStr := ((s.dropWhile (· ≤ 32)).reverse.dropWhile (· ≤ 32)).reverse

/-- spaces at both ends -/
def strip (s : PyStr) : PyStr := ((s.dropWhile isSpace).reverse.dropWhile isSpace).reverse

/-- `split("\\s*,\\s*")` of a trimmed text: without a comma it is the text itself, otherwise empty texts at the end are left out.
(Spaces at both ends of all parts can be removed since there are none at the ends of the text.) -/
def splitColumns (s : PyStr) : List PyStr :=
  match split (ch! ',') s with
  | [_] => [s]
  | parts => ((parts.map strip).reverse.dropWhile (·.isEmpty)).reverse

/-- SqlConstraint.extractColumnsFromConstraint, SqlConstraint.java:128-139 -/
def extractColumns (at_ : PyStr → Option PyStr) (s : PyStr) : List PyStr :=
  match find at_ s with
  | none => []
  | some group => splitColumns (trim group)

/-- SqlConstraint.isPrimaryKey, SqlConstraint.java:107, 141-146 -/
def isPrimaryKey : Option PyStr → Bool
  | none => false
  | some s => (find keyAt s).isSome

/-- SqlConstraint.isNullAllowed, SqlConstraint.java:89-92, 108 -/
def isNullAllowed : Option PyStr → Bool
  | none => true
  | some s => (find notNullAt s).isNone

/-- SqlTableType.java:276-277 with SqlConstraint.java:104-105 -/
def keyColumns : Option PyStr → List PyStr
  | none => []
  | some s => extractColumns primaryKeyAt s

/-- SqlTableType.java:331-333 with SqlConstraint.java:106 -/
def uniqueColumns : Option PyStr → List PyStr
  | none => []
  | some s => extractColumns uniqueAt s

/-! ### Checks -/

/-- CompoundType.checkSqlSymbolNames, CompoundType.java:187-192, with SqlIdentifierValidator.java:22-33 -/
def checkNames (seen : List PyStr) : List PyStr → Except TableError Unit
  | [] => .ok ()
  | n :: ns => if seen.contains (n.map lower) then .error (.notUnique n) else checkNames (n.map lower :: seen) ns

/-- CompoundType.checkSqlTableFields, CompoundType.java:197-209 -/
def checkNoTables : List ColumnDecl → Except TableError Unit
  | [] => .ok ()
  | c :: cs => if c.isTable then .error (.isTable c.name) else checkNoTables cs

/-- the arguments of one field, SqlTableType.java:177-210; `seen` is `paramTypeMap` -/
def checkArguments (seen : List (PyStr × PyStr)) : List (PyStr × PyStr) → Except TableError (List (PyStr × PyStr))
  | [] => .ok seen
  | (n, t) :: rest =>
    match seen.lookup n with
    | some t' => if t' ≠ t then .error (.parameterType n) else checkArguments seen rest
    | none => checkArguments ((n, t) :: seen) rest

/-- SqlTableType.checkExplicitParameters, SqlTableType.java:163-212 -/
def checkExplicit (seen : List (PyStr × PyStr)) : List ColumnDecl → Except TableError Unit
  | [] => .ok ()
  | c :: cs =>
    match checkArguments seen c.arguments with
    | .error e => .error e
    | .ok seen => checkExplicit seen cs

/-- SqlTableType.checkOrdinaryTableFields without the first check, SqlTableType.java:219-227 -/
def checkNotVirtual : List ColumnDecl → Except TableError Unit
  | [] => .ok ()
  | c :: cs => if c.isVirtual then .error (.virtualColumn c.name) else checkNotVirtual cs

/-- SqlTableType.checkPrimaryKeyColumn, SqlTableType.java:353-363: the warnings -/
def keyColumnWarnings (c : ColumnDecl) : List Warning := if isNullAllowed c.constraint then [.canBeNull c.name] else []

/-- the loop of SqlTableType.checkPrimaryKeyConstraint, SqlTableType.java:238-268: the warnings, whether a key has been found, and the
names of the columns in `sqlPrimaryKeyFields` -/
def checkKeyFields (first found : Bool) : List ColumnDecl → List Warning × Bool × List PyStr
  | [] => ([], found, [])
  | c :: cs =>
    if isPrimaryKey c.constraint then
      let (ws, found', keys) := checkKeyFields false true cs
      ((if found then [.duplicatedKey c.name] else if !first then [.notFirst c.name] else []) ++ keyColumnWarnings c ++ ws, found',
        c.name :: keys)
    else checkKeyFields false found cs

/-- SqlTableType.checkPrimaryKeyByColumnName, SqlTableType.java:365-393, for the columns from `index` on -/
def checkKeyNames (columns : List ColumnDecl) (index : Nat) : List PyStr → Except TableError (List Warning)
  | [] => .ok []
  | n :: ns =>
    match columns.findIdx? (·.name == n), columns.find? (·.name == n) with
    | some i, some c =>
      match checkKeyNames columns (index + 1) ns with
      | .error e => .error e
      | .ok ws => .ok (keyColumnWarnings c ++ (if i ≠ index then [.badOrder n] else []) ++ ws)
    | _, _ => .error (.keyNotFound n)

/-- SqlTableType.checkUniqueConstraint, SqlTableType.java:329-351 -/
def checkUnique (columns : List ColumnDecl) : List PyStr → Except TableError Unit
  | [] => .ok ()
  | n :: ns => if columns.any (·.name == n) then checkUnique columns ns else .error (.uniqueNotFound n)

/-- the beginning of SqlTableType.checkPrimaryKeyInSqlConstraint, SqlTableType.java:276-300 -/
def checkKeyCount (T : TableDecl) (found : Bool) : Except TableError (List Warning) :=
  if found then .ok (if keyColumns T.constraint ≠ [] then [.multipleKeys] else [])
  else if keyColumns T.constraint = [] then (if T.withoutRowId then .error .noPrimaryKey else .ok [.noKey])
  else .ok []

/-- SqlTableType.checkPrimaryKeyForWithoutRowId, SqlTableType.java:310-327; `keys` are the names of the columns of the key, which is a
set -/
def checkWithoutRowId (T : TableDecl) (keys : List PyStr) : List Warning :=
  match keys.eraseDups with
  | [n] => if T.withoutRowId && T.columns.any (fun c => c.name == n && c.isInteger) then [.performance] else []
  | _ => []

/-- SqlTableType.checkPrimaryKeyConstraint, SqlTableType.java:236-272 and 302-307 -/
def checkPrimaryKey (T : TableDecl) : Except TableError (List Warning) :=
  let (ws, found, keys) := checkKeyFields true false T.columns
  match checkKeyCount T found with
  | .error e => .error e
  | .ok ws' =>
    match checkKeyNames T.columns 0 (keyColumns T.constraint) with
    | .error e => .error e
    | .ok ws'' => .ok (ws ++ ws' ++ ws'' ++ checkWithoutRowId T (keys ++ keyColumns T.constraint))

/-- SqlTableType.check, SqlTableType.java:137-156, 214-217 and 230-234; the result are the warnings -/
def check (T : TableDecl) : Except TableError (List Warning) :=
  match checkNames [] (T.columns.map (·.name)) with
  | .error e => .error e
  | .ok _ =>
    match checkNoTables T.columns with
    | .error e => .error e
    | .ok _ =>
      match checkExplicit [] T.columns with
      | .error e => .error e
      | .ok _ =>
        if T.columns = [] then .error .empty
        else
          match T.module with
          | some _ => .ok []
          | none =>
            match checkNotVirtual T.columns with
            | .error e => .error e
            | .ok _ =>
              match checkPrimaryKey T with
              | .error e => .error e
              | .ok ws =>
                match checkUnique T.columns (uniqueColumns T.constraint) with
                | .error e => .error e
                | .ok _ => .ok ws

/-- CompoundType.checkNonSqlTableFields, CompoundType.java:214-226 -/
def checkAllTables : List ColumnDecl → Except TableError Unit
  | [] => .ok ()
  | c :: cs => if c.isTable then checkAllTables cs else .error (.isNoTable c.name)

/-- SqlDatabaseType.check, SqlDatabaseType.java:36-42, for the fields of the database -/
def checkDatabase (fields : List ColumnDecl) : Except TableError Unit :=
  match checkNames [] (fields.map (·.name)) with
  | .error e => .error e
  | .ok _ => checkAllTables fields

end Zserio.SqlCheck
