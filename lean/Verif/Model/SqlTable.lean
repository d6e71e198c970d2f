import Verif.Model.Sql
import Verif.Model.Service
import Verif.Model.Bitmask
import Verif.Model.Enumeration
/-
Model of the classes generated for SQL tables (SqlTable.py.ftl).

Python objects are values `Val`; an item of an enumeration and a bitmask are their values there, so the distinction between an item and
its value in a row which is written (SqlTable.py.ftl:422) is not represented, and likewise an object is an object of the right class.
Row iterators are lists.
-/
namespace Zserio.Sql

/-- an argument of a parameterized type of a column, SqlTable.py.ftl:103-109: an explicit parameter, which the parameter provider is asked
for, or an expression of the columns before it (`UnboundLocalError` for a column which is not before it) -/
inductive ColumnArg where
  | explicit (name : PyStr)
  | expr (f : List Val → Except Err Int)

/-- what `_read_row` and `_write_row` do with the values of a column, SqlTable.py.ftl:99-117, 412-428; `k` is the class of the blob -/
inductive ColumnKind where
  | plain
  | blob (k : Codec) (args : List ColumnArg)
  | enum (e : EnumClass)
  | bitmask (d : BitmaskDef)

/-- A field of an SQL table, SqlTableEmitterTemplateData.java:130-270.  `sqlType` is the name of the SQL type. -/
structure Column where
  name : PyStr
  kind : ColumnKind
  sqlType : PyStr
  isVirtual : Bool := false
  constraint : Option PyStr := none

/-- An SQL table type, SqlTableEmitterTemplateData.java:33-70. -/
structure TableDef where
  columns : List Column
  virtualUsing : Option PyStr := none
  needsTypes : Bool := true
  constraint : Option PyStr := none
  withoutRowId : Bool := false

/-- An object of the class of a table, SqlTable.py.ftl:153-166, without its connection. -/
structure SqlTable where
  type : TableDef
  tableName : PyStr
  attachedDbName : Option PyStr := none

/-- `IParameterProvider`, SqlTable.py.ftl:130-150: the value of an explicit parameter for a row of the database -/
abbrev Provider := PyStr → List Val → Except Err Int

/-! ### Rows -/

namespace ColumnKind

/-- whether a column makes a conversion of rows necessary, SqlTable.py.ftl:10-27 -/
def converts : ColumnKind → Bool
  | .plain => false
  | _ => true

/-- the arguments of a blob, SqlTable.py.ftl:103-109 -/
def evalArgs (provider : Provider) (row earlier : List Val) : List ColumnArg → Except Err (List Int)
  | [] => .ok []
  | a :: as => do
    let x ← match a with
      | .explicit name => provider name row
      | .expr f => f earlier
    let xs ← evalArgs provider row earlier as
    .ok (x :: xs)

/-- SqlTable.py.ftl:98-117: the value of a column which has been read; `earlier` are the values of the columns before it -/
def readValue (provider : Provider) (row earlier : List Val) (kind : ColumnKind) (v : Val) : Except Err Val :=
  match kind with
  | .plain => .ok v
  | .blob k args =>
    match v with
    | .none => .ok .none
    | .bytes b => do
      let r ← Reader.make b
      let xs ← evalArgs provider row earlier args
      (k.fromReader xs r).1
    | _ => .error .type
  | .enum e =>
    match v with
    | .none => .ok .none
    | .int x => (EnumClass.call (e := e) x).map fun r => .int (EnumClass.value r.1)
    | _ => .error .enumValue
  | .bitmask d =>
    match v with
    | .none => .ok .none
    | .int x => (Bitmask.fromValue (d := d) x).map fun b => .int b.value
    | _ => .error .type

/-- SqlTable.py.ftl:412-428: the value which is written for a column.  Everything but an object is passed on as it is. -/
def writeValue (kind : ColumnKind) (v : Val) : Except Err Val :=
  match kind, v with
  | .blob k _, .obj ps n t fs => (bytesOf k (.obj ps n t fs)).map .bytes
  | _, v => .ok v

end ColumnKind

namespace TableDef

/-- SqlTable.py.ftl:27 `needsRowConversion` -/
def needsRowConversion (T : TableDef) : Bool := T.columns.any (·.kind.converts)

/-- SqlTable.py.ftl:94-123 `_read_row`: the loop over the columns; `i` counts those which have been read -/
def readRowLoop (provider : Provider) (row : List Val) : List Column → List Bool → Nat → List Val → Except Err (List Val)
  | [], _, _, vs => .ok vs
  | _ :: _, [], _, _ => .error .index
  | c :: cs, selected :: ms, i, vs =>
    if selected then
      match row[i]? with
      | none => .error .index
      | some v => do
        let w ← c.kind.readValue provider row vs v
        readRowLoop provider row cs ms (i + 1) (vs ++ [w])
    else readRowLoop provider row cs ms i (vs ++ [.none])

/-- SqlTable.py.ftl:89-91 `__iter__` of the rows, 94-123 `_read_row`: one row -/
def readRow (T : TableDef) (provider : Provider) (columnMap : List Bool) (row : List Val) : Except Err (List Val) :=
  if T.needsRowConversion then readRowLoop provider row T.columns columnMap 0 [] else .ok row

/-- SqlTable.py.ftl:403-431 `_write_row`: the loop over the columns -/
def writeRowLoop (row : List Val) : List Column → List Bool → Nat → Except Err (List Val)
  | [], _, _ => .ok []
  | _ :: _, [], _ => .error .index
  | c :: cs, selected :: ms, i =>
    if selected then
      match row[i]? with
      | none => .error .index
      | some v => do
        let w ← c.kind.writeValue v
        let ws ← writeRowLoop row cs ms (i + 1)
        .ok (w :: ws)
    else writeRowLoop row cs ms (i + 1)

/-- SqlTable.py.ftl:310, 344: the values bound to the parameters of INSERT and UPDATE; without a conversion it is the row itself -/
def writeRow (T : TableDef) (columnMap : List Bool) (row : List Val) : Except Err (List Val) :=
  if T.needsRowConversion then writeRowLoop row T.columns columnMap 0 else .ok row

/-- `str.index`: the first position of a text in another text -/
def findText (text : PyStr) : PyStr → Nat → Option Nat
  | [], i => if text = [] then some i else none
  | c :: s, i => if (after text (c :: s)).isSome then some i else findText text s (i + 1)

/-- `list.index`: the first position of a name -/
def findName (name : PyStr) : List Column → Nat → Option Nat
  | [], _ => none
  | c :: cs, i => if c.name = name then some i else findName name cs (i + 1)

/-- SqlTable.py.ftl:354 `self.COLUMN_NAMES.index(col)`.  `COLUMN_NAMES` (SqlTable.py.ftl:440-443) of a table with a single column is
no tuple but the name of the column, as there is no comma between the parentheses. -/
def columnIndex (T : TableDef) (name : PyStr) : Option Nat :=
  match T.columns with
  | [c] => findText name c.name 0
  | cs => findName name cs 0

/-- SqlTable.py.ftl:352-357: the loop over the column names; a `ValueError` for a name which is not found -/
def columnMapLoop (T : TableDef) : List PyStr → List Bool → Except Err (List Bool)
  | [], m => .ok m
  | name :: names, m =>
    match T.columnIndex name with
    | none => .error .sql
    | some i => if i < m.length then columnMapLoop T names (m.set i true) else .error .index

/-- SqlTable.py.ftl:347-359 `_create_column_mapping` -/
def columnMap (T : TableDef) : Option (List PyStr) → Except Err (List Bool)
  | none => .ok (T.columns.map fun _ => true)
  | some names => columnMapLoop T names (T.columns.map fun _ => false)

end TableDef

/-! ### Texts of queries -/

/-- SqlTable.py.ftl:435-438 `_ColumnFormat` -/
inductive ColumnFormat where
  | name
  | sqlParameter
  | sqlUpdate

/-- SqlTable.py.ftl:369: the text for a column -/
def ColumnFormat.text (c : Column) : ColumnFormat → PyStr
  | .name => c.name
  | .sqlUpdate => c.name ++ py! "=?"
  | .sqlParameter => py! "?"

/-- SqlTable.py.ftl:365-370: the texts for the columns which are selected -/
def columnTexts (fmt : ColumnFormat) : List Column → List Bool → List PyStr
  | c :: cs, selected :: ms => if selected then fmt.text c :: columnTexts fmt cs ms else columnTexts fmt cs ms
  | _, _ => []

/-- `",".join(texts)` -/
def joinComma : List PyStr → PyStr
  | [] => []
  | [s] => s
  | s :: ss => s ++ ch! ',' :: joinComma ss

namespace SqlTable

/-- SqlTable.py.ftl:361-362 `_get_table_name_in_query`; an empty name of a database counts as none -/
def nameInQuery (T : SqlTable) : PyStr :=
  match T.attachedDbName with
  | none => T.tableName
  | some [] => T.tableName
  | some db => db ++ py! "." ++ T.tableName

/-- SqlTable.py.ftl:364-372 `_get_columns_in_query` -/
def columnsInQuery (T : SqlTable) (columnMap : List Bool) (fmt : ColumnFormat) : PyStr := joinComma (columnTexts fmt T.type.columns columnMap)

/-- SqlTable.py.ftl:272-277 -/
def selectText (T : SqlTable) (columnMap : List Bool) (condition : Option PyStr) : PyStr :=
  py! "SELECT " ++ T.columnsInQuery columnMap .name ++ py! " FROM " ++ T.nameInQuery ++
    match condition with
    | none => []
    | some [] => []
    | some text => py! " WHERE " ++ text

/-- SqlTable.py.ftl:296-302 -/
def insertText (T : SqlTable) (columnMap : List Bool) : PyStr :=
  py! "INSERT INTO " ++ T.nameInQuery ++ py! "(" ++ T.columnsInQuery columnMap .name ++ py! ") VALUES (" ++
    T.columnsInQuery columnMap .sqlParameter ++ py! ")"

/-- SqlTable.py.ftl:336-341 -/
def updateText (T : SqlTable) (columnMap : List Bool) (condition : PyStr) : PyStr :=
  py! "UPDATE " ++ T.nameInQuery ++ py! " SET " ++ T.columnsInQuery columnMap .sqlUpdate ++ py! " WHERE " ++ condition

/-- SqlTable.py.ftl:386-387: the definition of a column, followed by a comma if there are further columns -/
def columnDefinition (T : TableDef) (c : Column) (hasNext : Bool) : PyStr :=
  c.name ++ (if T.needsTypes then py! " " ++ c.sqlType else []) ++
    (match c.constraint with
    | some text => py! " " ++ text
    | none => []) ++ if hasNext then py! "," else []

/-- SqlTable.py.ftl:384-389: the definitions of the columns -/
def columnDefinitions (T : TableDef) : List Column → PyStr
  | [] => []
  | c :: cs => (if c.isVirtual then [] else columnDefinition T c (!cs.isEmpty)) ++ columnDefinitions T cs

/-- SqlTable.py.ftl:30-36 `hasNonVirtualField` -/
def hasNonVirtualColumn (T : TableDef) : Bool := T.columns.any (!·.isVirtual)

/-- SqlTable.py.ftl:376-399 `_get_create_table_query` -/
def createText (T : SqlTable) : PyStr :=
  py! "CREATE " ++ (if T.type.virtualUsing.isSome then py! "VIRTUAL " else []) ++ py! "TABLE " ++ T.nameInQuery ++
    (match T.type.virtualUsing with
    | some m => py! " USING " ++ m
    | none => []) ++
    if hasNonVirtualColumn T.type || T.type.constraint.isSome then
      py! "(" ++ columnDefinitions T.type T.type.columns ++
        (if hasNonVirtualColumn T.type && T.type.constraint.isSome then py! ", " else []) ++ T.type.constraint.getD [] ++ py! ")"
    else []

/-! ### Methods -/

/-- `cursor.execute(...)` without looking at the rows -/
def exec (E : Engine) (sql : PyStr) (bindings : List Val) : M Connection Unit := do
  let _ ← execute E sql bindings

/-- SqlTable.py.ftl:209-221 `create_table` -/
def createTable (E : Engine) (T : SqlTable) : M Connection Unit :=
  exec E (T.createText ++ if hasNonVirtualColumn T.type && T.type.withoutRowId then py! " WITHOUT ROWID" else []) []

/-- SqlTable.py.ftl:224-235 `create_ordinary_rowid_table` -/
def createOrdinaryRowidTable (E : Engine) (T : SqlTable) : M Connection Unit := exec E T.createText []

/-- SqlTable.py.ftl:238-248 `delete_table` -/
def deleteTable (E : Engine) (T : SqlTable) : M Connection Unit := exec E (py! "DROP TABLE " ++ T.nameInQuery) []

/-- SqlTable.py.ftl:255-282 `read_columns`, 251-253 `read` (which passes `None` for the columns), and an iteration over all rows -/
def read (E : Engine) (T : SqlTable) (provider : Provider) (columns : Option (List PyStr)) (condition : Option PyStr) :
    M Connection (List (List Val)) := do
  let columnMap ← M.lift (T.type.columnMap columns)
  let rows ← execute E (T.selectText columnMap condition) []
  M.lift (rows.mapM (T.type.readRow provider columnMap))

/-- SqlTable.py.ftl:309-310: the loop over the rows -/
def writeLoop (E : Engine) (T : SqlTable) (columnMap : List Bool) : List (List Val) → M Connection Unit
  | [] => pure ()
  | row :: rows => do
    let values ← M.lift (T.type.writeRow columnMap row)
    exec E (T.insertText columnMap) values
    writeLoop E T columnMap rows

/-- SqlTable.py.ftl:285-313 `write` -/
def write (E : Engine) (T : SqlTable) (rows : List (List Val)) (columns : Option (List PyStr)) : M Connection Unit := do
  let columnMap ← M.lift (T.type.columnMap columns)
  let hasAutocommit ← getAutocommit
  if hasAutocommit then exec E (py! "BEGIN") []
  writeLoop E T columnMap rows
  if hasAutocommit then exec E (py! "COMMIT") []

/-- SqlTable.py.ftl:324-344 `update_columns`, 315-322 `update` (which passes `None` for the columns) -/
def update (E : Engine) (T : SqlTable) (row : List Val) (columns : Option (List PyStr)) (condition : PyStr) : M Connection Unit := do
  let columnMap ← M.lift (T.type.columnMap columns)
  let values ← M.lift (T.type.writeRow columnMap row)
  exec E (T.updateText columnMap condition) values

end SqlTable
end Zserio.Sql
