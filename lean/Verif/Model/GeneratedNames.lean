import Verif.Model.SymbolConverter
import Verif.Spec.PyClass
/-
Model of the names of the classes generated for structures, choices and unions: AccessorNameFormatter.java and the
skeleton of Structure.py.ftl, Choice.py.ftl and Union.py.ftl. The bodies of the generated functions are modelled elsewhere
(Model/Compound.lean); here they are only tags.
-/
namespace Zserio.Names

/-- A field of a compound type, as far as names depend on it (core/src/zserio/ast/Field.java). -/
structure FieldDecl where
  name : PyStr
  /-- `field.isOptional()` -/
  isOptional : Bool := false
  /-- `field.isExtended()` -/
  isExtended : Bool := false
  /-- an array with an offset which contains `@index` (CompoundField.inc.ftl:438) -/
  hasIndexedOffset : Bool := false
  /-- an array whose elements need a factory (CompoundField.inc.ftl:463) -/
  hasElementFactory : Bool := false

/-- The kinds of compound types with own Python template. -/
inductive CompoundKind where
  | structure | choice | union
  deriving DecidableEq, Repr

/-- A compound type, as far as names depend on it (core/src/zserio/ast/CompoundType.java). -/
structure CompoundDecl where
  kind : CompoundKind
  params : List PyStr := []
  fields : List FieldDecl := []
  functions : List PyStr := []

/-- The options of the generator the members of a class depend on: `withWriterCode`, `withTypeInfoCode`, and
`isPackable && usedInPackedArray`. -/
structure GenOptions where
  writer : Bool := true
  typeInfo : Bool := true
  packed : Bool := true

/-- What the definitions in the body of a generated class are. -/
inductive Part where
  /-- a definition which does not depend on the names of the schema -/
  | api (name : PyStr)
  | paramGetter (param : PyStr)
  | fieldGetter (field : PyStr)
  | fieldSetter (field : PyStr)
  | isPresent (field : PyStr)
  | isUsed (field : PyStr)
  | isSet (field : PyStr)
  | resetter (field : PyStr)
  | function (function : PyStr)
  | offsetChecker (field : PyStr)
  | offsetSetter (field : PyStr)
  | elementFactory (field : PyStr)
  | choiceTag (field : PyStr)
  deriving DecidableEq, Repr

/-- `AccessorNameFormatter.getPropertyName`, both variants (AccessorNameFormatter.java:49-57) -/
def propertyName (s : PyStr) : PyStr := toLowerSnakeCase s

/-- `AccessorNameFormatter.getFunctionName` (AccessorNameFormatter.java:39-42) -/
def functionName (s : PyStr) : PyStr := toLowerSnakeCase s

/-- `AccessorNameFormatter.getIsUsedIndicatorName` (AccessorNameFormatter.java:15-19) -/
def isUsedName (s : PyStr) : PyStr := py! "is_" ++ toLowerSnakeCase s ++ py! "_used"

/-- `AccessorNameFormatter.getIsSetIndicatorName` (AccessorNameFormatter.java:21-25) -/
def isSetName (s : PyStr) : PyStr := py! "is_" ++ toLowerSnakeCase s ++ py! "_set"

/-- `AccessorNameFormatter.getIsPresentIndicatorName` (AccessorNameFormatter.java:27-31) -/
def isPresentName (s : PyStr) : PyStr := py! "is_" ++ toLowerSnakeCase s ++ py! "_present"

/-- `AccessorNameFormatter.getResetterName` (AccessorNameFormatter.java:33-37) -/
def resetterName (s : PyStr) : PyStr := py! "reset_" ++ toLowerSnakeCase s

/-- `field_member_name` of fields of structures (CompoundField.inc.ftl:527-529), `parameter_member_name`
(CompoundParameter.inc.ftl:56-58) -/
def memberName (s : PyStr) : PyStr := py! "_" ++ toLowerSnakeCase s ++ py! "_"

/-- `field_argument_name` (CompoundField.inc.ftl:531-533), `parameter_argument_name` (CompoundParameter.inc.ftl:60-62) -/
def argumentName (s : PyStr) : PyStr := toLowerSnakeCase s ++ py! "_"

/-- `offset_checker_name` (CompoundField.inc.ftl:433-435) -/
def offsetCheckerName (s : PyStr) : PyStr := py! "_offset_checker_" ++ toLowerSnakeCase s

/-- `offset_setter_name` (CompoundField.inc.ftl:445-447) -/
def offsetSetterName (s : PyStr) : PyStr := py! "_offset_setter_" ++ toLowerSnakeCase s

/-- `element_factory_name` (CompoundField.inc.ftl:458-460) -/
def elementFactoryName (s : PyStr) : PyStr := py! "_ZserioElementFactory_" ++ toLowerSnakeCase s

/-- `choice_tag_name` (CompoundField.inc.ftl:52-54): the snake case name of the field in upper case -/
def choiceTagName (s : PyStr) : PyStr := py! "CHOICE_" ++ toUpper (toLowerSnakeCase s)

/-- A definition without decorator whose name does not depend on the schema. -/
def apiDef (name : PyStr) : ClassStmt Part := .defn none name (.api name)

/-- Statements which are only generated under a condition. -/
def cond (b : Bool) (l : List (ClassStmt Part)) : List (ClassStmt Part) := if b then l else []

/-- The beginning of the class up to `__hash__` (Structure.py.ftl:35-214, Choice.py.ftl:54-233, Union.py.ftl:31-212). The
constructor of a structure is only generated if it has a parameter or a field (Structure.py.ftl:35). -/
def classHead (o : GenOptions) (c : CompoundDecl) : List (ClassStmt Part) :=
  cond (c.kind ≠ .structure || !c.params.isEmpty || !c.fields.isEmpty) [apiDef (py! "__init__")]
  ++ [.defn (some .classMethod) (py! "from_reader") (.api (py! "from_reader"))]
  ++ cond o.packed [.defn (some .classMethod) (py! "from_reader_packed") (.api (py! "from_reader_packed"))]
  ++ cond o.typeInfo [.defn (some .staticMethod) (py! "type_info") (.api (py! "type_info"))]
  ++ [apiDef (py! "__eq__"), apiDef (py! "__hash__")]

/-- The property of a parameter (Structure.py.ftl:216-235, Choice.py.ftl:235-254, Union.py.ftl:213-231) -/
def paramStmts (p : PyStr) : List (ClassStmt Part) :=
  [.defn (some .property) (propertyName p) (.paramGetter p)]

/-- The property of a field, and the indicators and the resetter of a field of a structure (Structure.py.ftl:236-332,
Choice.py.ftl:255-295, Union.py.ftl:232-272). -/
def fieldStmts (o : GenOptions) (k : CompoundKind) (f : FieldDecl) : List (ClassStmt Part) :=
  [.defn (some .property) (propertyName f.name) (.fieldGetter f.name)]
  ++ cond o.writer [.defn (some (.setterOf (propertyName f.name))) (propertyName f.name) (.fieldSetter f.name)]
  ++ cond (k = .structure && f.isExtended) [.defn none (isPresentName f.name) (.isPresent f.name)]
  ++ cond (k = .structure && f.isOptional) [.defn none (isUsedName f.name) (.isUsed f.name)]
  ++ cond (k = .structure && f.isOptional && o.writer)
      [.defn none (isSetName f.name) (.isSet f.name), .defn none (resetterName f.name) (.resetter f.name)]

/-- A function (Structure.py.ftl:333-351, Choice.py.ftl:296-314, Union.py.ftl:273-291) -/
def functionStmts (f : PyStr) : List (ClassStmt Part) := [.defn none (functionName f) (.function f)]

/-- The methods after the functions (Structure.py.ftl:352-635, Choice.py.ftl:328-609, Union.py.ftl:293-547). -/
def classTail (o : GenOptions) (k : CompoundKind) : List (ClassStmt Part) :=
  cond (k ≠ .structure) [.defn (some .property) (py! "choice_tag") (.api (py! "choice_tag"))]
  ++ cond o.packed [apiDef (py! "init_packing_context")]
  ++ [apiDef (py! "bitsizeof")]
  ++ cond o.packed [apiDef (py! "bitsizeof_packed")]
  ++ cond o.writer [apiDef (py! "initialize_offsets")]
  ++ cond (o.writer && o.packed) [apiDef (py! "initialize_offsets_packed")]
  ++ [apiDef (py! "read")]
  ++ cond o.packed [apiDef (py! "read_packed")]
  ++ cond o.writer [apiDef (py! "write")]
  ++ cond (o.writer && o.packed) [apiDef (py! "write_packed")]
  ++ cond o.packed [.innerClass (py! "ZserioPackingContext") (.api (py! "ZserioPackingContext"))]

/-- The helpers of a field at the end of the class (Structure.py.ftl:636-642, Choice.py.ftl:610-612, Union.py.ftl:548-550, the
latter two without offsets). -/
def helperStmts (o : GenOptions) (k : CompoundKind) (f : FieldDecl) : List (ClassStmt Part) :=
  cond (k = .structure && f.hasIndexedOffset) [.defn none (offsetCheckerName f.name) (.offsetChecker f.name)]
  ++ cond (k = .structure && f.hasIndexedOffset && o.writer)
      [.defn none (offsetSetterName f.name) (.offsetSetter f.name)]
  ++ cond f.hasElementFactory [.innerClass (elementFactoryName f.name) (.elementFactory f.name)]

/-- The constants of a union (Union.py.ftl:552-559) -/
def unionConstants (c : CompoundDecl) : List (ClassStmt Part) :=
  if c.kind = .union then
    c.fields.map (fun f => .assign (choiceTagName f.name) (.choiceTag f.name))
      ++ [.assign (py! "UNDEFINED_CHOICE") (.api (py! "UNDEFINED_CHOICE"))]
  else []

/-- The body of the class generated for a compound type. -/
def classBody (o : GenOptions) (c : CompoundDecl) : List (ClassStmt Part) :=
  classHead o c ++ c.params.flatMap paramStmts ++ c.fields.flatMap (fieldStmts o c.kind)
    ++ c.functions.flatMap functionStmts ++ classTail o c.kind ++ c.fields.flatMap (helperStmts o c.kind)
    ++ unionConstants c

/-- The attributes of the objects: parameters (CompoundParameter.inc.ftl:18-22), the number of extended fields
(Structure.py.ftl:57-59) and the fields of a structure, or the chosen value of a choice and of a union and the tag of a union
(CompoundField.inc.ftl:527-529, Union.py.ftl:57). -/
def attributes (c : CompoundDecl) : List PyStr :=
  c.params.map memberName ++
    match c.kind with
    | .structure =>
      (if c.fields.any (·.isExtended) then [py! "_num_extended_fields"] else []) ++ c.fields.map (memberName ·.name)
    | .choice => [py! "_choice"]
    | .union => [py! "_choice_tag", py! "_choice"]

/-- The arguments of the constructor (Structure.py.ftl:36-44, Choice.py.ftl:54-67, Union.py.ftl:31-45). -/
def constructorArguments (c : CompoundDecl) : List PyStr :=
  py! "self" :: (c.params.map argumentName ++ c.fields.map (argumentName ·.name))

/-- The arguments of `from_reader_packed` (Structure.py.ftl:92-96). -/
def fromReaderPackedArguments (c : CompoundDecl) : List PyStr :=
  [py! "cls", py! "zserio_context", py! "zserio_reader"] ++ c.params.map argumentName

end Zserio.Names
