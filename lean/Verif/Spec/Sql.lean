import Verif.Model.SqlTable
import Verif.Spec.Compound
import Verif.Spec.Bitmask
/-
Vocabulary for the statements about SQL tables.
-/
namespace Zserio.Sql

/-- The table which the object of the class stands for: an empty name of an attached database counts as none. -/
def refOf (T : SqlTable) : TableRef :=
  ⟨match T.attachedDbName with
    | none => none
    | some [] => none
    | some db => some db, T.tableName⟩

/-- The names are names of SQL, and the columns have different names. -/
structure Named (T : SqlTable) : Prop where
  table : isName T.tableName = true
  db : ∀ d, T.attachedDbName = some d → d = [] ∨ isName d = true
  columns : ∀ c ∈ T.type.columns, isName c.name = true
  nonempty : T.type.columns ≠ []
  distinct : (T.type.columns.map (·.name)).Nodup

/-- The connection is open, and the table exists in a file with the columns of its type. -/
structure Holds (c : Connection) (T : SqlTable) (file : PyStr) (t : Table) : Prop where
  isOpen : c.isOpen = true
  table : c.table (refOf T) = some (file, t)
  columns : ∀ x ∈ T.type.columns, x.name ∈ t.columns
  rows : ∀ row ∈ t.rows, row.length = t.columns.length

/-- The parentheses of the text match, and it has no comma outside of parentheses. -/
def Clause (text : PyStr) : Prop := items 0 text = some [text]

/-- The texts in the declaration of a table are in order: types and constraints of columns are clauses, and the constraint of the table is
what SQLite expects there. -/
structure Declared (T : SqlTable) : Prop where
  types : ∀ c ∈ T.type.columns, Clause c.sqlType
  constraints : ∀ c ∈ T.type.columns, ∀ text, c.constraint = some text → Clause text
  ordinary : T.type.virtualUsing = none → (∀ c ∈ T.type.columns, c.isVirtual = false ∧ c.name.map lower ∉ constraintWords) ∧
    ∀ text, T.type.constraint = some text → ∃ parts, items 0 text = some parts ∧ ∀ p ∈ parts, parseItem p = some none
  virtualTable : ∀ m, T.type.virtualUsing = some m → isName m = true ∧ T.type.withoutRowId = false ∧
    ∀ text, T.type.constraint = some text → ∃ parts, items 0 text = some parts ∧ ∀ p ∈ parts, parseArgument p = some none

/-- the names of the columns which are declared to SQLite -/
def declaredNames (T : SqlTable) : List PyStr := (T.type.columns.filter (!·.isVirtual)).map (·.name)

/-- `columns` are the columns of a new table: those which are declared and those which the module of a virtual table adds -/
def CreatedWith (E : Engine) (T : SqlTable) (columns : List PyStr) : Prop :=
  match T.type.virtualUsing with
  | none => columns = declaredNames T
  | some m => ∃ arguments, columns = declaredNames T ++ E.moduleColumns m arguments

/-- the condition of a query: an empty text counts as none -/
def conditionOf : Option PyStr → Option PyStr
  | none => none
  | some [] => none
  | some text => some text

/-- whether a column is meant by the argument `columns` of a method: all are without the argument -/
def chosen (columns : Option (List PyStr)) (c : Column) : Bool :=
  match columns with
  | none => true
  | some names => decide (c.name ∈ names)

/-- the columns which are meant, in the order of the table -/
def chosenColumns (T : SqlTable) (columns : Option (List PyStr)) : List Column := T.type.columns.filter (chosen columns)

/-- The argument `columns` of a method names columns of the table, and at least one. -/
def ColumnsOf (T : SqlTable) : Option (List PyStr) → Prop
  | none => True
  | some names => names ≠ [] ∧ ∀ n ∈ names, ∃ c ∈ T.type.columns, c.name = n

/-- The value of an argument of a blob: `raw` is the row of the database and `earlier` are the values of the columns before it. -/
def ColumnArg.Means (provider : Provider) (raw earlier : List Val) (a : ColumnArg) (x : Int) : Prop :=
  match a with
  | .explicit name => provider name raw = .ok x
  | .expr f => f earlier = .ok x

/-- `Fits E provider raw earlier kind v r w`: the value `v` can be written to a column, SQLite hands it out as `r` and a row which
is read has `w` there.  Booleans become numbers, floating point numbers what SQLite stores for them, objects what the format stores. -/
inductive Fits (E : Engine) (provider : Provider) (raw earlier : List Val) : ColumnKind → Val → Val → Val → Prop where
  | null (kind : ColumnKind) : Fits E provider raw earlier kind .none .none .none
  | int {x : Int} : -2 ^ 63 ≤ x → x < 2 ^ 63 → Fits E provider raw earlier .plain (.int x) (.int x) (.int x)
  | bool (b : Bool) : Fits E provider raw earlier .plain (.bool b) (.int b.toNat) (.int b.toNat)
  | float (x : PyFloat) : Fits E provider raw earlier .plain (.float x) (E.real x).toVal (E.real x).toVal
  | str (s : PyStr) : Fits E provider raw earlier .plain (.str s) (.str s) (.str s)
  | bytes (b : List UInt8) : Fits E provider raw earlier .plain (.bytes b) (.bytes b) (.bytes b)
  | enum {e : EnumClass} {i : EnumItem} : i ∈ e.items → -2 ^ 63 ≤ i.value → i.value < 2 ^ 63 →
    Fits E provider raw earlier (.enum e) (.int i.value) (.int i.value) (.int i.value)
  | bitmask {d : BitmaskDef} {x : Int} : d.lowerBound ≤ x → x ≤ d.upperBound → -2 ^ 63 ≤ x → x < 2 ^ 63 →
    Fits E provider raw earlier (.bitmask d) (.int x) (.int x) (.int x)
  | object {defs : Schema} {closed : Nat → Bool} {n id : Nat} {args : List ColumnArg} {params : List Int} {m : Nat} {t : Int}
      {fs : List Val} {w : Writer} {x' : Val} : defs.Layout closed →
    (defs.codec n id).writeTo (.obj params m t fs) Writer.init = (.ok (), w) → (closed id = true ∨ w.pos % 8 = 0) → defs.StoredAs n id (.obj params m t fs) x' →
    List.Forall₂ (ColumnArg.Means provider raw earlier) args params →
    Fits E provider raw earlier (.blob (defs.codec n id) args) (.obj params m t fs) (.bytes w.bytes) x'

/-- the entries of a row for the columns which are meant -/
def only (sel : Column → Bool) : List Column → List Val → List Val
  | c :: cs, v :: vs => if sel c then v :: only sel cs vs else only sel cs vs
  | _, _ => []

/-- the row with `None` for the columns which are not meant -/
def mask (sel : Column → Bool) : List Column → List Val → List Val
  | c :: cs, v :: vs => (if sel c then v else .none) :: mask sel cs vs
  | _, _ => []

/-- The table has neither blobs nor enumerations nor bitmasks. -/
def isPlain (T : SqlTable) : Bool :=
  T.type.columns.all fun c =>
    match c.kind with
    | .plain => true
    | _ => false

/-- How a row is passed to `write` and `update_columns`: the values of all columns, even if only some of them are meant, except that
for tables without blobs, enumerations and bitmasks it is the values of the columns which are meant. -/
def passed (T : SqlTable) (columns : Option (List PyStr)) (row : List Val) : List Val :=
  if isPlain T then only (chosen columns) T.type.columns row else row

/-- How a row is returned by `read_columns`: with `None` for the columns which are not meant, except that for tables without blobs,
enumerations and bitmasks these columns are left out. -/
def returned (T : SqlTable) (columns : Option (List PyStr)) (row : List Val) : List Val :=
  if isPlain T then only (chosen columns) T.type.columns row else row

/-- `RowFits E provider raw sel earlier cs vs rs ws`: when the values `vs` have been written to the columns `cs` and the columns
which satisfy `sel` are read, SQLite hands out the values `rs` and the result is `ws`.  `raw` are the values handed out for the whole row. -/
inductive RowFits (E : Engine) (provider : Provider) (raw : List Val) (sel : Column → Bool) :
    List Val → List Column → List Val → List Val → List Val → Prop where
  | nil {earlier : List Val} : RowFits E provider raw sel earlier [] [] [] []
  | chosen {earlier : List Val} {c : Column} {cs : List Column} {v r w : Val} {vs rs ws : List Val} : sel c = true →
    Fits E provider raw earlier c.kind v r w → RowFits E provider raw sel (earlier ++ [w]) cs vs rs ws →
    RowFits E provider raw sel earlier (c :: cs) (v :: vs) (r :: rs) (w :: ws)
  | other {earlier : List Val} {c : Column} {cs : List Column} {v : Val} {vs rs ws : List Val} : sel c = false →
    RowFits E provider raw sel (earlier ++ [.none]) cs vs rs ws →
    RowFits E provider raw sel earlier (c :: cs) (v :: vs) rs (.none :: ws)

/-- A row which is written with the argument `wcols` gives the row `ws` when it is read with the argument `rcols`; columns which
are not written are NULL. -/
def ReadsAs (E : Engine) (provider : Provider) (T : SqlTable) (wcols rcols : Option (List PyStr)) (row ws : List Val) : Prop :=
  row.length = T.type.columns.length ∧
    ∃ raw, RowFits E provider raw (chosen rcols) [] T.type.columns (mask (chosen wcols) T.type.columns row) raw ws

/-- the rows of a table with what they are read as -/
def Pairs (t : Table) (rows : List (List Val)) (R : List (Row × List Val)) : Prop := R.map (·.1) = t.rows ∧ rows.Perm (R.map (·.2))

/-- The methods of the objects of tables which a user can call. -/
inductive TableCall where
  | create (T : SqlTable)
  | createOrdinaryRowid (T : SqlTable)
  | delete (T : SqlTable)
  | write (T : SqlTable) (rows : List (List Val)) (columns : Option (List PyStr))
  | update (T : SqlTable) (row : List Val) (columns : Option (List PyStr)) (condition : PyStr)
  | read (T : SqlTable) (provider : Provider) (columns : Option (List PyStr)) (condition : Option PyStr)

/-- The connection after a call, whatever the call returns or raises. -/
def TableCall.run (E : Engine) (c : Connection) : TableCall → Connection
  | .create T => (T.createTable E c).2
  | .createOrdinaryRowid T => (T.createOrdinaryRowidTable E c).2
  | .delete T => (T.deleteTable E c).2
  | .write T rows columns => (T.write E rows columns c).2
  | .update T row columns condition => (T.update E row columns condition c).2
  | .read T provider columns condition => (T.read E provider columns condition c).2

end Zserio.Sql
