import Verif.Model.PyInt
/-
Which symbol of which package a name in a schema means: Package.java, Import.java, SymbolReference.java and the identifiers and dots
of Expression.java in compiler/core/src/zserio/ast.

A symbol of a package (a type or a constant) is given by the name of its package and its own name; names of packages are lists of
identifiers.  (Java compares the identifiers joined by dots, which is the same, because identifiers contain no dot.)
Warnings are not modelled.
-/
namespace Zserio.Visibility

/-- an identifier: its characters -/
abbrev Name := List Nat

/-- PackageName.java:14 `PackageName`; `[]` is `PackageName.EMPTY` -/
abbrev PackageName := List Name

/-- PackageSymbol.java: a symbol, given by its package and its name -/
structure Symbol where
  package : PackageName
  name : Name
  deriving DecidableEq

/-- Import.java:16-26 `Import`: `import q.*;` or `import q.n;` -/
inductive Import where
  | all (q : PackageName)
  | single (q : PackageName) (n : Name)
  deriving DecidableEq

/-- Package.java:20-60 `Package`: what has been parsed of a package -/
structure Package where
  name : PackageName
  locals : List Name
  imports : List Import

/-- Root.java:97 `packageNameMap` -/
abbrev Root := List Package

/-- `packageNameMap.get(packageName)` -/
def Root.get (root : Root) (q : PackageName) : Option Package := root.find? (fun d => d.name = q)

/-- Why a name is refused -/
inductive Problem where
  | alreadyDefined
  | defaultImported
  | unresolvedImport
  | ambiguous
  | unresolved
  deriving DecidableEq

/-- Package.java:116-127 `addSymbol`, for all symbols in the order of the source -/
def addSymbols (done : List Name) : List Name → Except Problem Unit
  | [] => .ok ()
  | n :: ns => if n ∈ done then .error .alreadyDefined else addSymbols (n :: done) ns

/-- Import.java:69-94 `resolveImport` -/
def Import.resolve (root : Root) : Import → Except Problem Unit
  | .all q => match root.get q with
    | none => .error .defaultImported
    | some _ => .ok ()
  | .single q n => match root.get q with
    | none => .error .defaultImported
    | some d => if n ∈ d.locals then .ok () else .error .unresolvedImport

/-- Package.java:435-436 `importedPackages`, `importedSymbols` -/
structure Imported where
  packages : List PackageName
  symbols : List Symbol

/-- Package.java:182-245 `resolveImports`, one import.  A whole package removes the single imports from it; a single import from a
package which is imported as a whole is left out. -/
def Imported.add (st : Imported) : Import → Imported
  | .all q =>
    { packages := if q ∈ st.packages then st.packages else st.packages ++ [q],
      symbols := st.symbols.filter (fun s => s.package ≠ q) }
  | .single q n =>
    if q ∈ st.packages then st
    else if ⟨q, n⟩ ∈ st.symbols then st
    else { st with symbols := st.symbols ++ [⟨q, n⟩] }

/-- Package.java:180-247 `resolveImports` -/
def Package.imported (d : Package) : Imported := d.imports.foldl Imported.add ⟨[], []⟩

/-- Package.java:372-378 `getLocalSymbol` -/
def Package.localSymbol (d : Package) (q : PackageName) (n : Name) : Option Symbol :=
  if q ≠ [] ∧ q ≠ d.name then none else if n ∈ d.locals then some ⟨d.name, n⟩ else none

/-- Package.java:354-370 `getSymbolsFromSingleImports` -/
def Package.fromSingles (d : Package) (q : PackageName) (n : Name) : List Symbol :=
  d.imported.symbols.filter (fun s => n = s.name ∧ (q = [] ∨ q = s.package))

/-- Package.java:340-352 `getSymbolsFromImportedPackages` -/
def Package.fromPackages (root : Root) (d : Package) (q : PackageName) (n : Name) : List Symbol :=
  d.imported.packages.filterMap (fun p => (root.get p).bind (fun d' => d'.localSymbol q n))

/-- Package.java:323-338 `getAllVisibleSymbols` -/
def Package.allVisible (root : Root) (d : Package) (q : PackageName) (n : Name) : List Symbol :=
  let found := (d.localSymbol q n).toList ++ d.fromSingles q n
  if found.isEmpty then d.fromPackages root q n else found

/-- Package.java:149-163 `getVisibleSymbol`: `none` is `null`, an unknown symbol -/
def Package.visible (root : Root) (d : Package) (q : PackageName) (n : Name) : Except Problem (Option Symbol) :=
  match d.allVisible root q n with
  | [] => .ok none
  | [s] => .ok (some s)
  | _ => .error .ambiguous

/-- ZserioAstBuilder.java:1007-1016 `visitQualifiedName`: the package a qualified name of a type refers to; `top` is the package
given on the command line -/
def qualifiedPackage (top : PackageName) (ids : List Name) : PackageName := if ids = [] then [] else top ++ ids

/-- TypeReference.java:127-150 `resolve`, for a name which is not a template parameter: the type a qualified name means -/
def Package.resolveType (root : Root) (d : Package) (top : PackageName) (ids : List Name) (n : Name) : Except Problem Symbol :=
  match d.visible root (qualifiedPackage top ids) n with
  | .error e => .error e
  | .ok none => .error .unresolved
  | .ok (some s) => .ok s

/-- What the beginning of a dotted name in an expression has been resolved to: a symbol of the scope (a field, a parameter, …) or a
symbol of a package; the identifiers after it are members of it -/
inductive Start where
  | scope (n : Name)
  | symbol (s : Symbol)
  deriving DecidableEq

/-- Expression.java:1100-1136 `evaluatePackageDotExpression` for the dots after identifiers which are not resolved yet -/
def Package.resolveDots (root : Root) (d : Package) (top : PackageName) (unresolved : List Name) :
    List Name → Except Problem (Start × List Name)
  | [] => .error .unresolved
  | n :: rest => match d.visible root (top ++ unresolved) n with
    | .error e => .error e
    | .ok (some s) => .ok (.symbol s, rest)
    | .ok none => d.resolveDots root top (unresolved ++ [n]) rest

/-- Expression.java:1618-1658 `evaluateIdentifier` and the dots after it: an expression `ids` joined by dots in a scope with the
names `scope`.  The result is what the beginning means, and the members that are accessed. -/
def Package.resolveExpr (root : Root) (d : Package) (top : PackageName) (scope : List Name) :
    List Name → Except Problem (Start × List Name)
  | [] => .error .unresolved
  | n :: rest =>
    if n ∈ scope then .ok (.scope n, rest)
    else match d.visible root [] n with
      | .error e => .error e
      | .ok (some s) => .ok (.symbol s, rest)
      | .ok none => d.resolveDots root top [n] rest

/-- Package.java:252-262 `check` (names of packages) and PackageSymbolValidator.java:20-26 (names of symbols): package names have no
upper case letters, symbols start with one -/
def isUpper (c : Nat) : Bool := 65 ≤ c && c ≤ 90

def Package.checkNames (d : Package) : Bool :=
  d.name.all (fun id => id.all (fun c => !isUpper c)) &&
    d.locals.all (fun n => match n with
      | [] => false
      | c :: _ => isUpper c)

end Zserio.Visibility
