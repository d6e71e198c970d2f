import Verif.Model.ClashCheckers
import Verif.Spec.PyImport
/-
Model of the files generated for the packages of a schema: the checks of names of packages and of what they contain
(ast/Package.java and ast/PackageSymbolValidator.java of the core, PythonTopLevelPackageClashChecker.java,
PythonModuleClashChecker.java, PythonPackageWithModuleClashChecker.java, PythonApiClashChecker.java), the names of modules
(PythonNativeMapper.java), and what InitPyEmitter.java, ApiEmitter.java and PythonDefaultEmitter.java write where.
-/
namespace Zserio.Names

/-- The symbols of a package, as far as names depend on it. -/
inductive SymbolKind where
  | const
  /-- a type which is no template, or an instantiation of a template by `instantiate` -/
  | type
  /-- an instantiation of a template without `instantiate`; its name is made by the compiler -/
  | instance
  /-- a template: nothing is generated for it -/
  | template
  deriving DecidableEq, Repr

/-- A symbol of a package (ast/PackageSymbol.java). -/
structure SymbolDecl where
  name : PyStr
  kind : SymbolKind := .type
  /-- false for SQL types, services and pubsubs if the generation of their code is switched off -/
  emitted : Bool := true
  deriving DecidableEq

/-- A package (ast/Package.java): the list of identifiers of its name, empty for the default package, and its symbols in
the order in which they are walked (ZserioAstTreeWalker.java: instantiations belong to the package they are located in). -/
structure PackageDecl where
  name : List PyStr
  symbols : List SymbolDecl := []
  deriving DecidableEq

/-- The errors of the checkers and of the emitters. -/
inductive PackageError where
  | reservedPrefix | upperCasePackage | lowerCaseSymbol | notUnique | keyword | topLevelClash | moduleClash
  | packageWithModuleClash | apiClash | emptyPackageNotFirst
  deriving DecidableEq, Repr

/-- Walks over a list, the first error counts. -/
def checkEach {α : Type} (e : PackageError) (bad : α → Bool) (l : List α) : Except PackageError Unit :=
  if l.any bad then .error e else .ok ()

/-- A loop which puts keys into a map and fails if the key is there already. -/
def checkUnique (e : PackageError) (seen : List PyStr) : List PyStr → Except PackageError Unit
  | [] => .ok ()
  | k :: rest => if k ∈ seen then .error e else checkUnique e (k :: seen) rest

/-- `PythonNativeSymbol.getName`: constants (PythonNativeMapper.java:66-72), types (PythonNativeMapper.java:429-620) -/
def SymbolDecl.pythonName (s : SymbolDecl) : PyStr :=
  if s.kind = .const then constantToSymbol s.name else s.name

/-- `PythonNativeSymbol.getModuleName`: constants (PythonNativeMapper.java:70), types (NativeUserType.java:
`PythonSymbolConverter.symbolToModule(name)`) -/
def SymbolDecl.moduleName (s : SymbolDecl) : PyStr := symbolToModule s.pythonName

/-- The symbols written in the schema: `localSymbols` of Package.java. -/
def PackageDecl.declared (p : PackageDecl) : List SymbolDecl := p.symbols.filter (·.kind ≠ .instance)

/-- The symbols a walker which traverses instantiations of templates gets (ZserioAstTreeWalker.java:296-311). -/
def PackageDecl.walked (p : PackageDecl) : List SymbolDecl := p.symbols.filter (·.kind ≠ .template)

/-- `Character.isUpperCase(name.charAt(0))` (PackageSymbolValidator.java:18) -/
def startsUpper : PyStr → Bool
  | [] => false
  | c :: _ => isUpper c

/-- `IdentifierValidator.validate` (IdentifierValidator.java:21-28) for all identifiers of the schema. -/
def checkIdentifiers (p : PackageDecl) : Except PackageError Unit :=
  checkEach .reservedPrefix (fun id => (py! "zserio").isPrefixOf (toLower id)) (p.name ++ p.declared.map (·.name))

/-- `Package.check` (Package.java:251-262) and `PackageSymbolValidator.validate` (PackageSymbolValidator.java:16-34).
Simplification: all first letters are checked before all duplicates. -/
def Package.check (p : PackageDecl) : Except PackageError Unit := do
  checkEach .upperCasePackage (fun id => id ≠ toLower id) p.name
  checkEach .lowerCaseSymbol (fun s : SymbolDecl => !startsUpper s.name) p.declared
  checkUnique .notUnique [] (p.declared.map fun s => toLower s.name)

/-- `ReservedKeywordsClashChecker`: `beginPackage`, and `checkId` of the symbols (ReservedKeywordsClashChecker.java:64-68,
76-179) -/
def checkPackageKeywords (p : PackageDecl) : Except PackageError Unit :=
  checkEach .keyword (fun id => id ∈ extensionKeywords) (p.name ++ p.declared.map (·.name))

/-- `PythonTopLevelPackageClashChecker.beginPackage` (PythonTopLevelPackageClashChecker.java:24-39) -/
def checkTopLevel (p : PackageDecl) : Except PackageError Unit :=
  match p.name with
  | [] => .ok ()
  | id :: _ => if id = py! "typing" then .error .topLevelClash else .ok ()

/-- `PythonModuleClashChecker` for one package: `addSymbol` and `endPackage` (PythonModuleClashChecker.java:38-41,
118-140) -/
def checkModules (p : PackageDecl) : Except PackageError Unit :=
  checkUnique .moduleClash [] (p.walked.map (·.moduleName))

/-- `PythonPackageWithModuleClashChecker.beginPackage` (PythonPackageWithModuleClashChecker.java:69-87): the entries of
`packageToChildPackageIdMap` a package adds, beginning at `prev` -/
def childPackages (prev : List PyStr) : List PyStr → List (List PyStr × PyStr)
  | [] => []
  | id :: rest => (prev, id) :: childPackages (prev ++ [id]) rest

/-- `PythonPackageWithModuleClashChecker.endRoot` (PythonPackageWithModuleClashChecker.java:39-66) -/
def checkPackageWithModule (ps : List PackageDecl) : Except PackageError Unit :=
  let children := ps.flatMap fun p => childPackages [] p.name
  checkEach .packageWithModuleClash
    (fun p : PackageDecl => p.walked.any fun s => (p.name, s.moduleName) ∈ children) ps

/-- `PythonApiClashChecker.checkPythonSymbolName` (PythonApiClashChecker.java:147-169): instantiations without
`instantiate` are not walked, templates are not checked. `outputFileName` is the name followed by `.py`. -/
def clashesWithApi (s : SymbolDecl) : Bool :=
  (s.kind = .const ∨ s.kind = .type) && toLower (s.pythonName ++ py! ".py") = toLower (py! "api" ++ py! ".py")

/-- `PythonApiClashChecker.beginPackage` (PythonApiClashChecker.java:38-63) and the checks of symbols, for the packages in
the order of the walk; `checkTopLevelPackageId` is the state of the checker. -/
def checkApi (checkTopLevelPackageId : Bool) : List PackageDecl → Except PackageError Unit
  | [] => .ok ()
  | p :: rest => do
    let top := checkTopLevelPackageId || p.name.isEmpty
    checkEach .apiClash (fun id => id = py! "api") (p.name.drop (if top then 0 else 1))
    checkEach .apiClash clashesWithApi p.symbols
    checkApi top rest

/-- A walk of a checker over all packages. -/
def checkPackages (check : PackageDecl → Except PackageError Unit) : List PackageDecl → Except PackageError Unit
  | [] => .ok ()
  | p :: rest => do
    check p
    checkPackages check rest

/-- The checks in the order in which they are executed: the parser, the core, `PythonExtension.check`
(PythonExtension.java:51-88). -/
def checkSchema (ps : List PackageDecl) : Except PackageError Unit := do
  checkPackages checkIdentifiers ps
  checkPackages Package.check ps
  checkPackages checkPackageKeywords ps
  checkPackages checkTopLevel ps
  checkPackages checkModules ps
  checkPackageWithModule ps
  checkApi false ps

/-- What a generated file contains. -/
inductive FileContent where
  /-- `__init__.py.ftl`: no statements -/
  | init
  /-- `api.py.ftl` -/
  | api (stmts : List ImportStmt)
  /-- the code of a symbol of a package -/
  | symbol (package : List PyStr) (s : SymbolDecl)
  deriving DecidableEq

/-- The emitters of symbols: `PythonDefaultEmitter.processSourceTemplate` (PythonDefaultEmitter.java:72-78). Simplification:
one walk instead of one for each kind of symbols; the files are different ones. -/
def emitSymbols (p : PackageDecl) : PyTree FileContent :=
  (p.walked.filter (·.emitted)).map fun s => { dir := p.name, root := s.moduleName, content := .symbol p.name s }

/-- `InitPyEmitter.beginPackage` for the rest of the identifiers of a package: the packages it adds to
`processedPackages` (InitPyEmitter.java:37-48) -/
def newInits (processed : List (List PyStr)) (built : List PyStr) : List PyStr → List (List PyStr)
  | [] => processed
  | id :: rest =>
    let b := built ++ [id]
    newInits (if b ∈ processed then processed else processed ++ [b]) b rest

/-- `InitPyEmitter.beginPackage` (InitPyEmitter.java:26-50): the packages for which `processPackage` is called. The default
package is not put into `processedPackages`; there is only one. -/
def initPackages : List (List PyStr) → List PackageDecl → List (List PyStr)
  | processed, [] => processed
  | processed, p :: rest => initPackages (if p.name = [] then processed ++ [[]] else newInits processed [] p.name) rest

/-- The content of an `api` module: the template data (ApiEmitterTemplateData.java). -/
structure ApiData where
  /-- `subpackages`, a set; the order, which is sorted in the code, makes no difference as the names are different -/
  subpackages : List ImportStmt := []
  packageSymbols : List ImportStmt := []

/-- `packageMapping` of ApiEmitter.java -/
abbrev PackageMapping := List (List PyStr × ApiData)

/-- `packageMapping.get(name)`, and a change of the value found -/
def PackageMapping.modify (m : PackageMapping) (name : List PyStr) (f : ApiData → ApiData) : PackageMapping :=
  m.map fun e => if e.1 = name then (e.1, f e.2) else e

/-- `packageMapping.get(name) != null` -/
def PackageMapping.contains (m : PackageMapping) (name : List PyStr) : Bool := m.any (·.1 = name)

/-- `ApiEmitterTemplateData.addSubpackage` (ApiEmitterTemplateData.java:76-82): `subpackages` is a set -/
def ApiData.addSubpackage (name : List PyStr) (d : ApiData) : ApiData :=
  let stmt := ImportStmt.importAs (name ++ [py! "api"]) (name.getLast?.getD [])
  if stmt ∈ d.subpackages then d else { d with subpackages := d.subpackages ++ [stmt] }

/-- `ApiEmitterTemplateData.addPythonSymbol` (ApiEmitterTemplateData.java:84-88) -/
def ApiData.addPythonSymbol (package : List PyStr) (s : SymbolDecl) (d : ApiData) : ApiData :=
  { d with packageSymbols := d.packageSymbols ++ [.fromImport (package ++ [s.moduleName]) s.pythonName] }

/-- The loop of `ApiEmitter.addPackageMapping` (ApiEmitter.java:146-160); `prev` is the package of
`prevPackageTemplateData`, `none` if that is null -/
def addPackageMapping (m : PackageMapping) (prev : Option (List PyStr)) (current : List PyStr) : List PyStr → PackageMapping
  | [] => m
  | id :: rest =>
    let name := current ++ [id]
    let m := if m.contains name then m else m ++ [(name, {})]
    let m := match prev with
      | some q => m.modify q (ApiData.addSubpackage name)
      | none => m
    addPackageMapping m (some name) name rest

/-- `ApiEmitter.beginPackage` (ApiEmitter.java:48-58, 130-146) -/
def beginPackage (m : PackageMapping) (name : List PyStr) : Except PackageError PackageMapping :=
  if name = [] then
    if m.isEmpty then .ok [([], {})] else .error .emptyPackageNotFirst
  else .ok (addPackageMapping m (if m.contains [] then some [] else none) [] name)

/-- The walk of `ApiEmitter` over all packages (ApiEmitter.java:48-128, 163-185). `packageMapping` always contains the package
which is walked, so that the error "Package not yet mapped!" cannot occur. -/
def apiMapping (m : PackageMapping) : List PackageDecl → Except PackageError PackageMapping
  | [] => .ok m
  | p :: rest => do
    let m ← beginPackage m p.name
    apiMapping ((p.walked.filter (·.emitted)).foldl (fun m s => m.modify p.name (ApiData.addPythonSymbol p.name s)) m) rest

/-- All files which are generated for a schema (PythonExtension.java:91-118), if its packages pass the checks. -/
def generate (ps : List PackageDecl) : Except PackageError (PyTree FileContent) := do
  checkSchema ps
  let m ← apiMapping [] ps
  return ps.flatMap emitSymbols
    ++ (initPackages [] ps).map (fun d => { dir := d, root := py! "__init__", content := .init })
    ++ m.map (fun e => { dir := e.1, root := py! "api", content := .api (e.2.subpackages ++ e.2.packageSymbols) })

end Zserio.Names
