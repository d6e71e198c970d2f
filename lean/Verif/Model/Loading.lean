import Verif.Model.Visibility
import Verif.Model.GeneratedNames
/-
Which source files the compiler reads, and which packages it knows afterwards: `parse`, `parsePackage` and `parseImportedPackages` of
tools/ZserioTool.java, tools/InputFileManager.java, `visitPackageDeclaration`, `visitPackageNameDefinition` and `visitImportDeclaration` of
ast/ZserioAstBuilder.java, ast/ZserioAstImporter.java, and the warnings about imports of ast/Package.java.

The content of a file is given by what the parser finds in it; the lexer and the parser themselves are modelled elsewhere.
Times of files are the subject of Model/Regenerate.lean.
-/
namespace Zserio.Loading
open Zserio.Visibility (Name PackageName Import Package Root Imported)

/-- the name of a file: its characters -/
abbrev Path := List Nat

/-- What is written in a source file: `package`, the `import`s (names as written, without the package of the command line) and the names of the
types and constants which are defined -/
structure Source where
  package : Option PackageName
  imports : List Import
  symbols : List Name
  deriving DecidableEq

/-- the files which exist and can be parsed, with their content.  Simplification: a file which cannot be opened, has a syntax error, is refused
by ZserioParseTreeChecker or defines a symbol twice is one which is not there: in all these cases an exception ends the compiler. -/
abbrev Files := List (Path × Source)

/-- the content of a file -/
def Files.get (fs : Files) (p : Path) : Option Source := (fs.find? fun e => e.1 = p).map (·.2)

/-- the command line: `-src`, the input file, `-setTopLevelPackage`.  Simplification: `-src` is no root directory and written without slash at its
end, and no path contains two slashes behind each other: java.io.File would remove them. -/
structure Config where
  src : Option Path
  input : Path
  top : PackageName

/-- Why the compiler stops -/
inductive Problem where
  /-- the file cannot be opened or parsed -/
  | unreadable
  /-- Package does not match to the source file name! -/
  | wrongFile
  /-- Multiple default packages are not allowed! -/
  | multipleDefault
  /-- Default package cannot be compiled with path! -/
  | defaultWithPath
  /-- Default package cannot be imported!, Unresolved import -/
  | resolve (p : Visibility.Problem)
  /-- the bound of the recursion of the model; it is never reached (`C110_bound`) -/
  | tooDeep
  deriving DecidableEq

/-! ### Names of files -/

/-- InputFileManager.java:112-117 `getInputFileFullName` -/
def Config.full (cfg : Config) (name : Path) : Path :=
  match cfg.src with
  | none => name
  | some s => s ++ py! "/" ++ name

/-- the part of a name from its last dot; none if there is no dot -/
def fromLastDot : Path → Option Path
  | [] => none
  | c :: cs =>
    match fromLastDot cs with
    | some e => some e
    | none => if c = 46 then some (c :: cs) else none

/-- InputFileManager.java:33-36: `inputFileExtension`; a dot at the beginning does not count -/
def extension (name : Path) : Path :=
  match fromLastDot name with
  | some e => if e.length < name.length then e else []
  | none => []

/-- StringJoinUtil.joinStrings with the separator of the file system -/
def joinPath : List Name → Path
  | [] => []
  | [id] => id
  | id :: rest => id ++ py! "/" ++ joinPath rest

/-- InputFileManager.java:49-62 `getFileFullName` of a package; the package contains the identifiers of the command line -/
def Config.fileOf (cfg : Config) (q : PackageName) : Path :=
  cfg.full (joinPath (q.drop cfg.top.length) ++ extension cfg.input)

/-- ZserioTool.java:175: the file full name of the input -/
def Config.inputFile (cfg : Config) : Path := cfg.full cfg.input

/-- `new File(inputFileName).getParent() != null` -/
def hasParent (name : Path) : Bool := name.contains 47

/-! ### Parsing of all files -/

/-- ZserioAstBuilder.java:1164-1172 `createPackageName` for the package of an import (ZserioAstBuilder.java:149-169 `visitImportDeclaration`) -/
def fullImport (top : PackageName) : Import → Import
  | .all q => .all (top ++ q)
  | .single q n => .single (top ++ q) n

/-- Import.java:63-66 `getImportedPackageName` -/
def target : Import → PackageName
  | .all q => q
  | .single q _ => q

/-- A file which has been read and its package: an entry of `inputFiles` and one of `packageNameMap`.  (The former is made after the latter, but
nothing happens between except errors.) -/
structure Loaded where
  file : Path
  package : Package

/-- ZserioTool.java:206-235 `parsePackage` with ZserioAstBuilder.java:75-134 `visitPackageDeclaration`, `visitPackageNameDefinition` -/
def parsePackage (cfg : Config) (fs : Files) (st : List Loaded) (file : Path) : Except Problem (List Loaded × Package) :=
  match fs.get file with
  | none => .error .unreadable
  | some src =>
    let name := cfg.top ++ src.package.getD []
    if src.package.isSome ∧ cfg.fileOf name ≠ file then .error .wrongFile
    else if name ∈ st.map (·.package.name) then .error .multipleDefault
    else if name = [] ∧ hasParent cfg.input then .error .defaultWithPath
    else
      let p : Package := ⟨name, src.symbols, src.imports.map (fullImport cfg.top)⟩
      .ok (st ++ [⟨file, p⟩], p)

/-- ZserioTool.java:239-249: the loop of `parseImportedPackages`; `visit` is what is done with a file which is not registered -/
def forImports (cfg : Config) (visit : List Loaded → Path → Except Problem (List Loaded)) (st : List Loaded) :
    List Import → Except Problem (List Loaded)
  | [] => .ok st
  | i :: rest =>
    let file := cfg.fileOf (target i)
    if file ∈ st.map (·.file) then forImports cfg visit st rest
    else match visit st file with
      | .error e => .error e
      | .ok st' => forImports cfg visit st' rest

/-- ZserioTool.java:237-250 `parseImportedPackages`; the number bounds the depth of the recursion -/
def parseImported (cfg : Config) (fs : Files) : Nat → List Loaded → List Import → Except Problem (List Loaded)
  | 0 => forImports cfg fun _ _ => .error .tooDeep
  | n + 1 => forImports cfg fun st file =>
    match parsePackage cfg fs st file with
    | .error e => .error e
    | .ok (st', p) => parseImported cfg fs n st' p.imports

/-- a loop which stops at the first error -/
def each {α : Type} (f : α → Except Visibility.Problem Unit) : List α → Except Problem Unit
  | [] => .ok ()
  | a :: rest =>
    match f a with
    | .error e => .error (.resolve e)
    | .ok () => each f rest

/-- ZserioAstImporter.java:25-45: `resolveImport` of all imports of all packages -/
def resolveAll (root : Root) : Except Problem Unit := each (Import.resolve root) (root.flatMap (·.imports))

/-- ZserioTool.java:167-182: the beginning of `parse`, until the imports have been resolved -/
def load (cfg : Config) (fs : Files) : Except Problem (List Loaded) :=
  match parsePackage cfg fs [] cfg.inputFile with
  | .error e => .error e
  | .ok (st, p) =>
    match parseImported cfg fs fs.length st p.imports with
    | .error e => .error e
    | .ok st' =>
      match resolveAll (st'.map (·.package)) with
      | .error e => .error e
      | .ok () => .ok st'

/-! ### Warnings about imports -/

/-- A warning about an import -/
inductive Warning where
  | duplicatedPackage (q : PackageName)
  | overwrites (q : PackageName) (n : Name)
  | covered (q : PackageName) (n : Name)
  | duplicated (q : PackageName) (n : Name)
  deriving DecidableEq

/-- Package.java:180-246 `resolveImports`: the warnings about one import -/
def importWarnings (st : Imported) : Import → List Warning
  | .all q =>
    (if q ∈ st.packages then [Warning.duplicatedPackage q] else []) ++
      (st.symbols.filter fun s => s.package = q).map fun s => Warning.overwrites q s.name
  | .single q n =>
    if q ∈ st.packages then [Warning.covered q n]
    else if ⟨q, n⟩ ∈ st.symbols then [Warning.duplicated q n]
    else []

/-- Package.java:180-246 `resolveImports`: the warnings -/
def warnings (st : Imported) : List Import → List Warning
  | [] => []
  | i :: rest => importWarnings st i ++ warnings (st.add i) rest

end Zserio.Loading
