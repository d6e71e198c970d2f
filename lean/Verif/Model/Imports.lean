import Verif.Spec.PyModules

/-!
The statements of the generated modules which are executed when a module is imported: the import statements collected
by `PythonTemplateData` and what the templates evaluate outside of functions.

Paths below are relative to compiler/extensions/python. Annotations are not evaluated (`from __future__ import
annotations`, freemarker/FileHeader.inc.ftl:5-9). Each expression is represented by the names in it which are defined in
other modules; all of them count as evaluated (Python skips an operand of `and`, `or` and `if ... else`).
-/

namespace Zserio.Imports

open Zserio

/-- a symbol of the schema: `PythonNativeSymbol` (src/zserio/extension/python/symbols/PythonNativeSymbol.java) -/
structure Name where
  package : List PyStr
  module : PyStr
  name : PyStr
  deriving DecidableEq, Repr

/-- `getModuleFullName` (src/zserio/extension/python/PythonFullNameFormatter.java:18-27) -/
def Name.path (n : Name) : Path := n.package ++ [n.module]

/-- the classes derived from `PythonNativeType` (src/zserio/extension/python/types/) -/
inductive NativeType where
  /-- `NativeBuiltinType`: `int`, `str`, `bytes`, ... -/
  | builtin
  /-- `NativeBitBufferType`: `zserio.bitbuffer.BitBuffer` -/
  | bitBuffer
  /-- `NativeArrayType` -/
  | array
  /-- `NativeUserType` -/
  | user (n : Name)
  /-- `NativeSubtype`; whether its `nativeTargetBaseType` is a `NativeBuiltinType` -/
  | subtype (n : Name) (builtinBase : Bool)
  deriving DecidableEq, Repr

/-- the names in an expression which are defined in other modules -/
structure ExprNames where
  /-- enumerations, bitmasks and other types (src/zserio/extension/python/PythonExpressionFormattingPolicy.java:396-433) -/
  types : List Name := []
  /-- constants (PythonExpressionFormattingPolicy.java:483-488) -/
  symbols : List Name := []
  /-- functions of `zserio.builtin` (PythonExpressionFormattingPolicy.java:181, 211, 354) -/
  runtime : List PyStr := []
  deriving DecidableEq, Repr

/-- `getFullName` of a type: the module and the name in it, nothing for the builtin types
(PythonFullNameFormatter.java:12-16; `getFullName` of arrays is not used where an expression is evaluated) -/
def NativeType.fullName : NativeType → Option (Path × PyStr)
  | .builtin => none
  | .bitBuffer => some ([py! "zserio", py! "bitbuffer"], py! "BitBuffer")
  | .array => none
  | .user n => some (n.path, n.name)
  | .subtype n _ => some (n.path, n.name)

/-- `NativeTypeInfoTemplateData.isBuiltin` (src/zserio/extension/python/NativeTypeInfoTemplateData.java:89-92) -/
def NativeType.isBuiltin : NativeType → Bool
  | .builtin => true
  | .subtype _ b => b
  | _ => false

/-- the sets of `PythonTemplateData` (src/zserio/extension/python/PythonTemplateData.java:80-84) -/
structure Collector where
  packages : List PyStr := []
  types : List Path := []
  symbols : List Path := []

/-- the dotted name of a module -/
def dotted : Path → PyStr
  | [] => []
  | [a] => a
  | a :: r => a ++ ch! '.' :: dotted r

/-- `TreeSet<String>.add` -/
def treeAdd (p : Path) : List Path → List Path
  | [] => [p]
  | q :: r => if p = q then q :: r else if dotted p < dotted q then p :: q :: r else q :: treeAdd p r

/-- `importPackage` (PythonTemplateData.java:58-62), `LinkedHashSet<String>.add` -/
def Collector.importPackage (c : Collector) (p : PyStr) : Collector :=
  if p ∈ c.packages then c else { c with packages := c.packages ++ [p] }

/-- `importSymbol` (PythonTemplateData.java:64-69) -/
def Collector.importSymbol (c : Collector) (n : Name) : Collector := { c with symbols := treeAdd n.path c.symbols }

/-- `importType` (PythonTemplateData.java:71-79): user types and subtypes, which are user types too -/
def Collector.importType (c : Collector) : NativeType → Collector
  | .user n => { c with types := treeAdd n.path c.types }
  | .subtype n _ => { c with types := treeAdd n.path c.types }
  | _ => c

/-- `formatGetter` of an expression, as far as imports are concerned -/
def Collector.format (c : Collector) (e : ExprNames) : Collector :=
  let c := e.types.foldl (fun c n => c.importType (.user n)) c
  let c := e.symbols.foldl Collector.importSymbol c
  e.runtime.foldl (fun c _ => c.importPackage (py! "zserio")) c

/-- a field of a compound type -/
structure FieldDecl where
  type : NativeType
  /-- the type of the elements if the field is an array -/
  element : Option NativeType := none
  /-- alignment, optional clause, constraint, offset, lengths of arrays and bit fields, arguments -/
  exprs : List ExprNames := []
  /-- the types of the parameters of the type of the field -/
  parameters : List NativeType := []
  initializer : Option ExprNames := none
  optional : Bool := false
  deriving DecidableEq, Repr

/-- a structure, choice or union -/
structure CompoundDecl where
  parameters : List NativeType := []
  functions : List (NativeType × ExprNames) := []
  fields : List FieldDecl := []
  /-- the selector and the cases of a choice -/
  selectors : List ExprNames := []
  /-- the arguments of the template which is instantiated -/
  templateArguments : List NativeType := []
  deriving DecidableEq, Repr

/-- a column of a table; the types of its arguments -/
structure ColumnDecl where
  type : NativeType
  parameters : List NativeType := []
  /-- arguments, constraint, width of a bit field -/
  exprs : List ExprNames := []
  /-- the column is stored as a blob -/
  isBlob : Bool := false
  deriving DecidableEq, Repr

/-- what a symbol of the schema is -/
inductive Decl where
  | constant (value : ExprNames)
  | subtype (target : NativeType)
  | enumeration (underlying : NativeType) (width : ExprNames) (deprecated : Bool)
  | bitmask (underlying : NativeType) (width : ExprNames)
  | structure (c : CompoundDecl)
  /-- a choice or a union -/
  | alternative (c : CompoundDecl)
  | service (methods : List (NativeType × NativeType))
  | pubsub (messages : List (NativeType × ExprNames))
  | sqlTable (constraint : Option ExprNames) (columns : List ColumnDecl) (templateArguments : List NativeType)
  | sqlDatabase (tables : List NativeType)
  deriving DecidableEq, Repr

/-- the constructor of `CompoundFieldTemplateData`
(src/zserio/extension/python/CompoundFieldTemplateData.java:29-67, 343-364, 457-496) -/
def Collector.field (c : Collector) (f : FieldDecl) : Collector :=
  let c := c.importType f.type
  let c := f.exprs.foldl Collector.format c
  let c := f.initializer.toList.foldl Collector.format c
  let c := f.element.toList.foldl Collector.importType c
  f.parameters.foldl Collector.importType c

/-- the constructor of `TemplateInstantiationTemplateData`
(src/zserio/extension/python/TemplateInstantiationTemplateData.java:20-40) -/
def Collector.templateArguments (c : Collector) (withTypeInfo : Bool) (ts : List NativeType) : Collector :=
  if withTypeInfo then ts.foldl Collector.importType c else c

/-- `CompoundTypeTemplateData.init` and `ChoiceEmitterTemplateData.init`
(src/zserio/extension/python/CompoundTypeTemplateData.java:21-42, ChoiceEmitterTemplateData.java:37-60) -/
def Collector.compound (c : Collector) (withTypeInfo : Bool) (d : CompoundDecl) : Collector :=
  let c := (c.importPackage (py! "typing")).importPackage (py! "zserio")
  let c := d.parameters.foldl Collector.importType c
  let c := d.functions.foldl (fun c f => (c.importType f.1).format f.2) c
  let c := d.fields.foldl Collector.field c
  let c := c.templateArguments withTypeInfo d.templateArguments
  d.selectors.foldl Collector.format c

/-- the constructor of `SqlTableEmitterTemplateData.FieldTemplateData`
(src/zserio/extension/python/SqlTableEmitterTemplateData.java:158-200, 280-305) -/
def Collector.column (c : Collector) (f : ColumnDecl) : Collector :=
  let c := c.importType f.type
  let c := f.parameters.foldl Collector.importType c
  f.exprs.foldl Collector.format c

/-- what the constructors of the template data collect: ConstEmitterTemplateData.java:13-24, SubtypeEmitterTemplateData.java:13-22,
EnumerationEmitterTemplateData.java:20-47, BitmaskEmitterTemplateData.java:23-45, ServiceEmitterTemplateData.java:17-36, 51-70,
PubsubEmitterTemplateData.java:18-41, 57-74, SqlTableEmitterTemplateData.java:33-64, SqlDatabaseEmitterTemplateData.java:19-31, 41-60 -/
def collect (withTypeInfo : Bool) : Decl → Collector
  | .constant value => ({} : Collector).format value
  | .subtype target => ({} : Collector).importType target
  | .enumeration underlying width _ =>
    let c := (({} : Collector).importPackage (py! "typing")).importPackage (py! "zserio")
    let c := if withTypeInfo then c.importType underlying else c
    c.format width
  | .bitmask underlying width =>
    let c := (({} : Collector).importPackage (py! "typing")).importPackage (py! "zserio")
    let c := if withTypeInfo then c.importType underlying else c
    c.format width
  | .structure d => ({} : Collector).compound withTypeInfo d
  | .alternative d => ({} : Collector).compound withTypeInfo d
  | .service methods =>
    let c := (({} : Collector).importPackage (py! "typing")).importPackage (py! "zserio")
    methods.foldl (fun c m => (c.importType m.1).importType m.2) c
  | .pubsub messages =>
    let c := (({} : Collector).importPackage (py! "typing")).importPackage (py! "zserio")
    messages.foldl (fun c m => (c.importType m.1).format m.2) c
  | .sqlTable constraint columns args =>
    let c := (({} : Collector).importPackage (py! "typing")).importPackage (py! "apsw")
    let c := constraint.toList.foldl Collector.format c
    let c := columns.foldl Collector.column c
    c.templateArguments withTypeInfo args
  | .sqlDatabase tables =>
    let c := (({} : Collector).importPackage (py! "typing")).importPackage (py! "apsw")
    tables.foldl Collector.importType c

/-- `all_imports` (freemarker/FileHeader.inc.ftl:29-43); the templates call it with the symbols in the place of the types, so
the types come first -/
def Collector.stmts (c : Collector) : List Stmt :=
  c.packages.map (fun p => .imp [p]) ++ c.types.map .imp ++ c.symbols.map .imp

/-- an expression of the generated code is evaluated -/
def ExprNames.evals (e : ExprNames) : List Stmt :=
  (e.types ++ e.symbols).map (fun n => .eval n.path n.name) ++ e.runtime.map (fun f => .eval [py! "zserio", py! "builtin"] f)

/-- the name of a type is evaluated -/
def NativeType.evals (t : NativeType) : List Stmt := t.fullName.toList.map fun x => .eval x.1 x.2

/-- the default value of the argument of the constructor of a structure (`field_default_value`, freemarker/Structure.py.ftl:21-34);
default values are evaluated when the function is defined -/
def FieldDecl.defaultEvals (f : FieldDecl) : List Stmt :=
  match f.initializer with
  | some e => e.evals
  | none => if f.optional then [] else if f.type.isBuiltin then f.type.evals else []

/-- the module generated for a symbol: Constant.py.ftl:4-6, Subtype.py.ftl:4-6, Enumeration.py.ftl:7-21, Bitmask.py.ftl:7-11,
Structure.py.ftl:8-46, Choice.py.ftl, Union.py.ftl, Service.py.ftl:7-28, 56, Pubsub.py.ftl, SqlTable.py.ftl:6-44, 435-455,
SqlDatabase.py.ftl:6-25 -/
def moduleBody (withTypeInfo : Bool) (name : PyStr) (d : Decl) : List Stmt :=
  let imports := (collect withTypeInfo d).stmts
  match d with
  | .constant value => imports ++ value.evals ++ [.define name]
  | .subtype target => imports ++ target.evals ++ [.define name]
  | .enumeration _ _ deprecated =>
    imports ++ [.eval [py! "zserio"] (py! "Enum")]
      ++ (if deprecated then [.eval [py! "zserio"] (py! "DeprecatedItem")] else []) ++ [.define name]
  | .bitmask .. => imports ++ [.define name]
  | .structure c => imports ++ c.fields.flatMap FieldDecl.defaultEvals ++ [.define name]
  | .alternative _ => imports ++ [.define name]
  | .service _ => imports ++ [.eval [py! "zserio"] (py! "ServiceInterface")] ++ [.define name]
  | .pubsub _ => imports ++ [.define name]
  | .sqlTable _ columns _ =>
    [.fromImp [py! "enum"] (py! "Enum"), .fromImp [py! "enum"] (py! "IntEnum")] ++ imports
      ++ (if columns.any (·.isBlob) || withTypeInfo then [.imp [py! "zserio"]] else [])
      ++ [.eval [py! "typing"] (py! "Tuple")] ++ columns.flatMap (·.type.evals) ++ [.define name]
  | .sqlDatabase _ => imports ++ (if withTypeInfo then [.imp [py! "zserio"]] else []) ++ [.define name]

/-- the module `api` of a package (freemarker/api.py.ftl, see `Model/Packages.lean`) -/
structure ApiDecl where
  package : List PyStr
  /-- the packages inside -/
  subpackages : List (List PyStr) := []
  symbols : List Name := []
  deriving DecidableEq, Repr

def apiPath (package : List PyStr) : Path := package ++ [py! "api"]

/-- `import a.b.api as b` for the packages inside and `from a.c import C` for the symbols -/
def apiBody (a : ApiDecl) : List Stmt :=
  a.subpackages.map (fun p => .imp (apiPath p)) ++ a.symbols.map (fun n => .fromImp n.path n.name)

/-- a schema as the generator of Python sees it -/
structure Schema where
  decls : List (Name × Decl)
  apis : List ApiDecl := []

/-- the modules outside of the generated code and what generated code evaluates of them while it is imported
(runtime/src/zserio/__init__.py) -/
def libraries : List (Path × List Stmt) :=
  [([py! "typing"], [.define (py! "Tuple")]),
   ([py! "enum"], [.define (py! "Enum"), .define (py! "IntEnum")]),
   ([py! "apsw"], []),
   ([py! "zserio", py! "bitbuffer"], [.define (py! "BitBuffer")]),
   ([py! "zserio", py! "builtin"],
     [.define (py! "lengthof_string"), .define (py! "numbits"), .define (py! "isset")]),
   ([py! "zserio"], [.imp [py! "zserio", py! "bitbuffer"], .imp [py! "zserio", py! "builtin"], .define (py! "Enum"),
     .define (py! "DeprecatedItem"), .define (py! "ServiceInterface")])]

/-- all modules which can be found -/
def modules (withTypeInfo : Bool) (s : Schema) : List (Path × List Stmt) :=
  libraries ++ s.decls.map (fun d => (d.1.path, moduleBody withTypeInfo d.1.name d.2))
    ++ s.apis.map (fun a => (apiPath a.package, apiBody a))

def program (withTypeInfo : Bool) (s : Schema) : Program := fun p => (modules withTypeInfo s).lookup p

end Zserio.Imports
