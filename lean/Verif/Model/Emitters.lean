import Verif.Model.Packages
import Verif.Model.Templates
/-
Which files the Python generator writes for the symbols of a schema: how the tree of a schema is walked (ast/ZserioAstTreeWalker.java of the
core), and what the emitters do (PythonExtension.java, the classes …Emitter.java of the Python extension).

Simplifications: the contents of the files are not represented, only the template they are made from; exceptions are `none`.
-/
namespace Zserio.Emitters
open Templates (PackageName TypeId InstantiateDecl)

/-- the methods `begin…` of TreeWalker.java which get symbols of packages -/
inductive Kind where
  | const | ruleGroup | subtype | structure | choice | union | enum | bitmask | sqlTable | sqlDatabase | service | pubsub
  deriving DecidableEq

/-- an instantiation of a template: the kind of the template, the package it is made for, the package of its template, its name -/
structure Inst where
  kind : Kind
  pkg : PackageName
  templatePkg : PackageName
  name : PyStr
  deriving DecidableEq

/-- a symbol of a package -/
inductive Node where
  | symbol (kind : Kind) (name : PyStr)
  /-- a templatable type with template parameters, and its instantiations (TemplatableType.java:44-47) -/
  | template (kind : Kind) (name : PyStr) (insts : List Inst)
  /-- InstantiateType.java, and the type of its type reference -/
  | instantiateType (name : PyStr) (inst : Inst)
  deriving DecidableEq

/-- a package of a schema -/
structure Package where
  name : PackageName
  nodes : List Node
  deriving DecidableEq

/-- a call of a method of TreeWalker.java: the symbol, and its package -/
structure Symbol where
  kind : Kind
  pkg : PackageName
  name : PyStr
  deriving DecidableEq

/-- the call for an instantiation: `instantiation.accept(this)`; an instantiation has no template parameters -/
def Inst.symbol (i : Inst) : Symbol := ⟨i.kind, i.pkg, i.name⟩

/-- the visit of a symbol, `traverse` is `traverseTemplateInstantiations()`: ZserioAstTreeWalker.java:57-266, `needsVisitInstantiations`,
`visitInstantiations` (ZserioAstTreeWalker.java:256-270). The calls of `beginInstantiateType`, which no emitter implements, are left out. -/
def visit (traverse : Bool) (pkg : PackageName) : Node → List Symbol
  | .symbol k n => [⟨k, pkg, n⟩]
  | .template k n insts => if traverse then (insts.filter fun i => pkg = i.pkg).map Inst.symbol else [⟨k, pkg, n⟩]
  | .instantiateType _ i => if traverse ∧ pkg ≠ i.templatePkg then [i.symbol] else []

/-- the visit of the root and of packages (ZserioAstTreeWalker.java:21-47) -/
def walk (traverse : Bool) (s : List Package) : List Symbol :=
  s.flatMap fun p => p.nodes.flatMap (visit traverse p.name)

/-- the options which switch off code (PythonExtensionParameters.java:22-28) -/
structure Options where
  withSqlCode : Bool := true
  withServiceCode : Bool := true
  withPubsubCode : Bool := true

/-- an emitter of symbols: the only method `begin…` it implements, the name of its template, the condition under which it writes -/
structure Emitter where
  kind : Kind
  template : PyStr
  enabled : Options → Bool

/-- the emitters of symbols in the order of PythonExtension.java:99-112; the conditions are in SqlTableEmitter.java:22, SqlDatabaseEmitter.java:22,
ServiceEmitter.java:22 and PubsubEmitter.java:22 -/
def emitters : List Emitter := [
  ⟨.const, py! "Constant.py.ftl", fun _ => true⟩,
  ⟨.enum, py! "Enumeration.py.ftl", fun _ => true⟩,
  ⟨.bitmask, py! "Bitmask.py.ftl", fun _ => true⟩,
  ⟨.subtype, py! "Subtype.py.ftl", fun _ => true⟩,
  ⟨.structure, py! "Structure.py.ftl", fun _ => true⟩,
  ⟨.choice, py! "Choice.py.ftl", fun _ => true⟩,
  ⟨.union, py! "Union.py.ftl", fun _ => true⟩,
  ⟨.sqlTable, py! "SqlTable.py.ftl", fun o => o.withSqlCode⟩,
  ⟨.sqlDatabase, py! "SqlDatabase.py.ftl", fun o => o.withSqlCode⟩,
  ⟨.service, py! "Service.py.ftl", fun o => o.withServiceCode⟩,
  ⟨.pubsub, py! "Pubsub.py.ftl", fun o => o.withPubsubCode⟩]

/-- a file which is written: directory, name without extension, and the template with the symbol it is made from -/
structure File where
  dir : PackageName
  root : PyStr
  template : PyStr
  symbol : Symbol
  deriving DecidableEq

/-- `PythonNativeSymbol.getName` (PythonNativeMapper.java:66-72, 429-620) -/
def Symbol.pythonName (x : Symbol) : PyStr := if x.kind = .const then Names.constantToSymbol x.name else x.name

/-- `PythonNativeSymbol.getModuleName` -/
def Symbol.moduleName (x : Symbol) : PyStr := Names.symbolToModule x.pythonName

/-- a method `begin…` of an emitter with `processSourceTemplate` (PythonDefaultEmitter.java:66-79) -/
def Emitter.emit (o : Options) (e : Emitter) (x : Symbol) : Option File :=
  if x.kind = e.kind ∧ e.enabled o then some ⟨x.pkg, x.moduleName, e.template, x⟩ else none

/-- the loop over the emitters in `PythonExtension.process` (PythonExtension.java:114-116) for the emitters of symbols -/
def files (o : Options) (s : List Package) : List File :=
  emitters.flatMap fun e => (walk true s).filterMap (e.emit o)

/-- the methods `begin…` of ApiEmitter.java which call `addTypeMapping` or `addConstantMapping` (ApiEmitter.java:60-128) -/
def apiWants (o : Options) : Kind → Bool
  | .choice | .const | .enum | .bitmask | .subtype | .union | .structure => true
  | .sqlTable | .sqlDatabase => o.withSqlCode
  | .service => o.withServiceCode
  | .pubsub => o.withPubsubCode
  | .ruleGroup => false

/-- `addEmptyPackageMapping`, `addPackageMapping` (ApiEmitter.java:130-161): the keys of `packageMapping`; the error for a default package
which is not first is left to Model/Packages.lean -/
def mapPackage (mapped : List PackageName) (name : PackageName) : List PackageName :=
  if name = [] then mapped ++ [[]] else mapped ++ name.inits.tail

/-- `addPythonSymbolMapping` for the symbols which a walk through a package reaches (ApiEmitter.java:177-185); `none` is the exception "Package
not yet mapped!" -/
def addSymbols (o : Options) (mapped : List PackageName) : List Symbol → Option (List Symbol)
  | [] => some []
  | x :: xs =>
    if apiWants o x.kind then
      if x.pkg ∈ mapped then (addSymbols o mapped xs).map (x :: ·) else none
    else addSymbols o mapped xs

/-- the walk of ApiEmitter.java: the symbols in the order in which they are added to the data of their packages -/
def apiWalk (o : Options) (mapped : List PackageName) : List Package → Option (List Symbol)
  | [] => some []
  | p :: ps => do
    let mapped := mapPackage mapped p.name
    let xs ← addSymbols o mapped (p.nodes.flatMap (visit true p.name))
    let rest ← apiWalk o mapped ps
    some (xs ++ rest)

/-- the symbols which the module `api` of a package imports (ApiEmitterTemplateData.java:84-88) -/
def apiSymbols (all : List Symbol) (pkg : PackageName) : List Symbol := all.filter fun x => x.pkg = pkg

/-- the walk of PythonModuleClashChecker.java through a package (PythonModuleClashChecker.java:31-140): all methods `begin…` but that for rule
groups put the name of the module into a map, which is cleared after the package -/
def checkModules : List Package → Except Names.PackageError Unit
  | [] => .ok ()
  | p :: ps => do
    Names.checkUnique .moduleClash [] (((p.nodes.flatMap (visit true p.name)).filter fun x => x.kind ≠ .ruleGroup).map Symbol.moduleName)
    checkModules ps

/-! ### The tree after the instantiation of templates -/

/-- a symbol of a package as it is written in the schema; `index` is the instantiation to which the type reference of an `instantiate` has been
resolved (ZserioAstTemplator.java:105-108) -/
inductive Source where
  | symbol (kind : Kind) (name : PyStr)
  | template (kind : Kind) (id : TypeId)
  | instantiate (d : InstantiateDecl) (index : Nat)

/-- an instantiation made by the templator; `kindOf` gives the kinds of templates -/
def instOf (kindOf : TypeId → Kind) (res : Templates.Result) (i : Nat) : Inst :=
  match res.state.entries[i]? with
  | some e => ⟨kindOf e.template, e.pkg, e.template.pkg, res.names.getD i []⟩
  | none => ⟨.structure, [], [], []⟩

/-- `getInstantiations` of a template (TemplatableType.java:110), by their indices -/
def instancesOf (res : Templates.Result) (id : TypeId) : List Nat :=
  (List.range res.state.entries.length).filter fun i =>
    match res.state.entries[i]? with
    | some e => e.template = id
    | none => false

/-- the node of the tree -/
def Source.node (kindOf : TypeId → Kind) (res : Templates.Result) : Source → Node
  | .symbol k n => .symbol k n
  | .template k id => .template k id.name ((instancesOf res id).map (instOf kindOf res))
  | .instantiate d i => .instantiateType d.id.name (instOf kindOf res i)

/-- the tree -/
def tree (kindOf : TypeId → Kind) (res : Templates.Result) (ps : List (PackageName × List Source)) : List Package :=
  ps.map fun p => ⟨p.1, p.2.map (Source.node kindOf res)⟩

end Zserio.Emitters
