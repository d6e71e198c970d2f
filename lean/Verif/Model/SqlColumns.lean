import Verif.Model.SqlTable
import Verif.Model.ClashCheckers
/-
How the generator makes the columns of an SQL table from the fields of a schema: SqlNativeTypeMapper.java, SqlTableEmitterTemplateData.java,
the parts of NativeTypeInfoTemplateData.java and PythonNativeMapper.java which it uses, the conditions of SqlTable.py.ftl and
`checkExplicitParameters` of PythonScopeSymbolClashChecker.java.

Simplifications: names are ASCII; the fields of other SQL types, services and Pub/Sub types are left out (SqlCheck.lean models the check
for tables); the expressions of arguments which are not explicit are left out (they are the subject of SqlTable.lean).
-/
namespace Zserio.SqlColumns

/-- the types a field may have in the end: the classes of ZserioType in compiler/core/src/zserio/ast with the visitors of
SqlNativeTypeMapper.java:67-150 -/
inductive BaseType where
  | boolean
  | stdInteger
  | varInteger
  | fixedBitField
  | dynamicBitField
  | float
  | string
  | bytes
  | extern
  | enum
  | bitmask
  | struct
  | choice
  | union
  deriving DecidableEq

/-- A type as it is referred to: a type with the name which Python has for it (PythonNativeMapper.java:134-243) or a subtype with its own
name (PythonNativeMapper.java:245-258), Subtype.java -/
inductive TypeRef where
  | base (b : BaseType) (name : PyStr)
  | subtype (name : PyStr) (target : TypeRef)
  deriving DecidableEq

/-- `getBaseType`, `getBaseTypeReference().getType()`: resolved through all subtypes (TypeReference.java) -/
def TypeRef.baseType : TypeRef → BaseType
  | .base b _ => b
  | .subtype _ t => t.baseType

/-- `typeFullName` (NativeTypeInfoTemplateData.java:86, PythonNativeMapper.java:77-87): subtypes are not resolved -/
def TypeRef.fullName : TypeRef → PyStr
  | .base _ n => n
  | .subtype n _ => n

/-- An argument of a parameterized type (InstantiatedParameter.java): `explicit` is the name behind the keyword `explicit`, `type` the type of
the parameter -/
structure Argument where
  explicit : Option PyStr
  type : TypeRef
  deriving DecidableEq

/-- A field of an SQL table (Field.java) -/
structure FieldDecl where
  name : PyStr
  type : TypeRef
  arguments : List Argument := []
  deriving DecidableEq

/-- the exception of SqlNativeTypeMapper.java:54-59 -/
inductive Error where
  | unexpectedElement (name : PyStr)
  deriving DecidableEq

/-- the visitor of SqlNativeTypeMapper.java:64-150; a type without a visitor leaves `sqlType` null.  `NAME` of the classes in
extension/common/sql/types -/
def visitType : BaseType → Option PyStr
  | .boolean => some (py! "INTEGER")
  | .choice => some (py! "BLOB")
  | .enum => some (py! "INTEGER")
  | .bitmask => some (py! "INTEGER")
  | .float => some (py! "REAL")
  | .stdInteger => some (py! "INTEGER")
  | .varInteger => some (py! "INTEGER")
  | .fixedBitField => some (py! "INTEGER")
  | .dynamicBitField => some (py! "INTEGER")
  | .string => some (py! "TEXT")
  | .struct => some (py! "BLOB")
  | .union => some (py! "BLOB")
  | .bytes => none
  | .extern => none

/-- `getSqlType` (SqlNativeTypeMapper.java:42-62) -/
def getSqlType (t : TypeRef) : Except Error PyStr :=
  match visitType t.baseType with
  | none => .error (.unexpectedElement t.fullName)
  | some s => .ok s

/-- `ParameterTemplateData` (SqlTableEmitterTemplateData.java:276-298): `method` is the formatted expression of an explicit argument
(PythonExpressionFormattingPolicy.java:476-480) -/
structure ParameterData where
  method : Option PyStr
  typeName : PyStr
  deriving DecidableEq

/-- `FieldTemplateData` (SqlTableEmitterTemplateData.java:155-195, 251-273) -/
structure ColumnData where
  name : PyStr
  typeName : PyStr
  sqlType : PyStr
  isBlob : Bool
  isEnum : Bool
  isBitmask : Bool
  parameters : List ParameterData
  deriving DecidableEq

/-- the constructor of `ParameterTemplateData` (SqlTableEmitterTemplateData.java:278-298) -/
def parameterData (a : Argument) : ParameterData :=
  { method := a.explicit.map Names.toLowerSnakeCase, typeName := a.type.fullName }

/-- the constructors of `FieldTemplateData` and `SqlTypeTemplateData` (SqlTableEmitterTemplateData.java:157-195, 253-260) and
NativeTypeInfoTemplateData.java:91-94 -/
def columnData (f : FieldDecl) : Except Error ColumnData := do
  let s ← getSqlType f.type
  .ok { name := f.name
        typeName := f.type.fullName
        sqlType := s
        isBlob := s = py! "BLOB"
        isEnum := f.type.baseType = .enum
        isBitmask := f.type.baseType = .bitmask
        parameters := f.arguments.map parameterData }

/-- `compareTo` of `ExplicitParameterTemplateData` (SqlTableEmitterTemplateData.java:122-129) as an order -/
def before (a b : PyStr × PyStr) : Bool := if a.1 = b.1 then a.2 < b.2 else a.1 < b.1

/-- `TreeSet<ExplicitParameterTemplateData>.add` -/
def treeAdd (a : PyStr × PyStr) : List (PyStr × PyStr) → List (PyStr × PyStr)
  | [] => [a]
  | b :: r => if a = b then b :: r else if before a b then a :: b :: r else b :: treeAdd a r

/-- the inner loop of SqlTableEmitterTemplateData.java:54-60 -/
def addExplicit (set : List (PyStr × PyStr)) : List ParameterData → List (PyStr × PyStr)
  | [] => set
  | p :: ps =>
    match p.method with
    | none => addExplicit set ps
    | some m => addExplicit (treeAdd (m, p.typeName) set) ps

/-- the loop over the fields in the constructor of `SqlTableEmitterTemplateData` (SqlTableEmitterTemplateData.java:50-61) -/
def tableData (set : List (PyStr × PyStr)) : List FieldDecl → Except Error (List ColumnData × List (PyStr × PyStr))
  | [] => .ok ([], set)
  | f :: fs => do
    let c ← columnData f
    let (cs, set) ← tableData (addExplicit set c.parameters) fs
    .ok (c :: cs, set)

/-- the code for the values of a column; the text is the name of the class in it -/
inductive Conversion where
  | plain
  | blob (cls : PyStr)
  | enum (cls : PyStr)
  | bitmask (cls : PyStr)
  deriving DecidableEq

/-- SqlTable.py.ftl:99-117 (`_read_row`) -/
def readConversion (c : ColumnData) : Conversion :=
  if c.isBlob then .blob c.typeName
  else if c.isEnum then .enum c.typeName
  else if c.isBitmask then .bitmask c.typeName
  else .plain

/-- SqlTable.py.ftl:412-429 (`_write_row`); the branch of enumerations and bitmasks is the same -/
def writeConversion (c : ColumnData) : Conversion :=
  if c.isBlob then .blob c.typeName
  else if c.isEnum || c.isBitmask then (if c.isEnum then .enum c.typeName else .bitmask c.typeName)
  else .plain

/-- `needsRowConversion` (SqlTable.py.ftl:8-27) -/
def needsRowConversion (cs : List ColumnData) : Bool := cs.any (·.isBlob) || cs.any (·.isEnum) || cs.any (·.isBitmask)

/-- the methods of the parameter provider which `_read_row` calls for a column (SqlTable.py.ftl:103-106) -/
def calls (c : ColumnData) : List PyStr := if c.isBlob then c.parameters.filterMap (·.method) else []

/-- the methods of `IParameterProvider` in the order of their definitions (SqlTable.py.ftl:137-149); it exists if there are any
(SqlTable.py.ftl:28) -/
def providerMethods (set : List (PyStr × PyStr)) : List PyStr := set.map (·.1)

/-- SqlTable.py.ftl:386: the declared type in CREATE TABLE, `needsTypesInSchema` (SqlTableType.java:90-97) -/
def declaredType (using? : Option PyStr) (c : ColumnData) : PyStr :=
  if using? = some (py! "fts5") then [] else c.sqlType

/-- the loop of `checkExplicitParameters` (PythonScopeSymbolClashChecker.java:125-161) over the explicit arguments of all fields: `seen` is
`explicitParameters`, `keys` the keys of `snakeCaseExplicitParamMap`.  The result says whether no exception is thrown. -/
def checkExplicit (seen keys : List PyStr) : List PyStr → Bool
  | [] => true
  | n :: ns =>
    if n ∈ seen then checkExplicit seen keys ns
    else if Names.toLowerSnakeCase n ∈ keys then false
    else checkExplicit (n :: seen) (Names.toLowerSnakeCase n :: keys) ns

/-- the explicit arguments in the order of the loops of PythonScopeSymbolClashChecker.java:130-142 -/
def explicitNames (fs : List FieldDecl) : List PyStr := fs.flatMap fun f => f.arguments.filterMap (·.explicit)

end Zserio.SqlColumns
