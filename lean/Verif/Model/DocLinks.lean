import Verif.Model.Visibility
import Verif.Model.SymbolConverter
import Verif.Model.JsonText
/-
The links which `@see` tags of documentation comments become: SymbolReference.java, DocTagSee.java and ZserioAstSymbolResolver.java of the core
compiler, DocTagSeeData of DocCommentsTemplateData.java, and getPythonSymbol of PythonNativeMapper.java.

Simplifications: a full name is the list of its identifiers (they are joined by dots; identifiers have no dots, DocComment.g4:60-62);
additional scopes are not represented, because they are added only to scopes of expressions (Expression.java:525-540,
ZserioAstScopeSetter.java:247-256); the texts of warnings are not represented.
-/
namespace Zserio.DocLinks
open Visibility Names

/-- the declarations which are symbols of a scope (ScopeSymbol.java): EnumItem.java, BitmaskValue.java, Field.java, Parameter.java, Function.java,
ServiceMethod.java, PubsubMessage.java -/
inductive MemberKind where
  | enumItem (isRemoved : Bool)
  | bitmaskValue
  | field
  | parameter
  | function
  | method
  | message (isPublished isSubscribed : Bool)
  deriving DecidableEq

structure Member where
  name : Name
  kind : MemberKind
  deriving DecidableEq

/-- the implementations of ZserioScopedType.java; `compound` is StructureType.java, ChoiceType.java and UnionType.java -/
inductive ScopedKind where
  | enum
  | bitmask
  | compound
  | sqlTable
  | sqlDatabase
  | service
  | pubsub
  deriving DecidableEq

/-- the implementations of PackageSymbol.java: ZserioScopedType.java, other types (Subtype.java, InstantiateType.java), Constant.java and
RuleGroup.java -/
inductive DeclKind where
  | scoped (kind : ScopedKind) (members : List Member)
  | otherType
  | constant
  | ruleGroup
  deriving DecidableEq

/-- a declaration; the symbol of an instantiation of a template has the name of the instantiation (CompoundType.java:61-70) -/
structure Decl where
  symbol : Symbol
  kind : DeclKind
  isTemplate : Bool
  deriving DecidableEq

/-- `getScope().findSymbol(name)` (Scope.java:101-115); `none` also for declarations without scope -/
def Decl.find (d : Decl) (n : Name) : Option Member :=
  match d.kind with
  | .scoped _ members => members.find? fun m => m.name = n
  | _ => none

/-- `instanceof ZserioScopedType` -/
def Decl.isScoped (d : Decl) : Bool :=
  match d.kind with
  | .scoped _ _ => true
  | _ => false

/-- the packages, the package of the command line and the declarations of all packages -/
structure Sources where
  root : Root
  top : PackageName
  decls : List Decl

/-- the declaration of a symbol (Package.java `packageSymbols`) -/
def Sources.decl (S : Sources) (s : Symbol) : Option Decl := S.decls.find? fun d => d.symbol = s

/-- what a reference means: `referencedPackage`, `referencedPackageSymbol`, `referencedScopeSymbol` (SymbolReference.java:36-64) -/
inductive Target where
  | package (q : PackageName)
  | symbol (d : Decl)
  | member (d : Decl) (m : Member)
  deriving DecidableEq

/-- `getVisibleSymbol` with the declaration of the symbol -/
def visibleDecl (S : Sources) (pkg : Package) (q : PackageName) (n : Name) : Except Problem (Option Decl) :=
  match pkg.visible S.root q n with
  | .error e => .error e
  | .ok none => .ok none
  | .ok (some s) => .ok (S.decl s)

/-- `resolveScopeSymbol` (SymbolReference.java:94-135), the identifiers are `init`, the one before the last (if there is one) and `last` -/
def resolveScopeSymbol (S : Sources) (pkg : Package) (owner : Option Decl) : List Name → Except Problem (Option Target)
  | [] => .ok none
  | [n] =>
    match owner with
    | none => .ok none
    | some d => .ok ((d.find n).map fun m => .member d m)
  | n :: n' :: rest =>
    let ids := n :: n' :: rest
    match visibleDecl S pkg (qualifiedPackage S.top (ids.take (ids.length - 2))) (ids.getD (ids.length - 2) []) with
    | .error e => .error e
    | .ok none => .ok none
    | .ok (some d) =>
      if d.isScoped then
        match d.find (ids.getD (ids.length - 1) []) with
        | some m => .ok (some (.member d m))
        | none => .error .unresolved
      else .ok none

/-- `resolvePackageSymbol` (SymbolReference.java:137-153) -/
def resolvePackageSymbol (S : Sources) (pkg : Package) (ids : List Name) : Except Problem (Option Target) :=
  if ids.length ≠ 0 then
    match visibleDecl S pkg (qualifiedPackage S.top (ids.take (ids.length - 1))) (ids.getD (ids.length - 1) []) with
    | .error e => .error e
    | .ok d => .ok (d.map .symbol)
  else .ok none

/-- `resolvePackage` (SymbolReference.java:155-166) -/
def resolvePackage (S : Sources) (ids : List Name) : Option Target :=
  (S.root.get (qualifiedPackage S.top ids)).map fun d => .package d.name

/-- `resolve` (SymbolReference.java:72-92) -/
def resolve (S : Sources) (pkg : Package) (owner : Option Decl) (ids : List Name) : Except Problem Target :=
  match resolveScopeSymbol S pkg owner ids with
  | .error e => .error e
  | .ok (some t) => .ok t
  | .ok none =>
    match resolvePackageSymbol S pkg ids with
    | .error e => .error e
    | .ok (some t) => .ok t
    | .ok none =>
      match resolvePackage S ids with
      | some t => .ok t
      | none => .error .unresolved

/-- the fields of a SymbolReference: `resolveCalled` and what has been found -/
structure Reference where
  resolveCalled : Bool
  target : Option Target
  deriving DecidableEq

/-- DocTagSee.java:74-86 and the flag of SymbolReference.java:74-77; an error is a warning and leaves the reference without target -/
def Reference.resolve (r : Reference) (S : Sources) (pkg : Package) (owner : Option Decl) (ids : List Name) : Reference :=
  if r.resolveCalled then r
  else { resolveCalled := true, target := (DocLinks.resolve S pkg owner ids).toOption }

/-- `currentScopedType` while the children of a declaration are visited (ZserioAstSymbolResolver.java:42-88, 104-123): there is no method for
bitmasks, and other declarations have no scope -/
def scopedTypeOf (d : Decl) : Option Decl :=
  match d.kind with
  | .scoped .bitmask _ => none
  | .scoped _ _ => some d
  | _ => none

/-- A `@see` tag in a comment of a declaration or of one of its members, after ZserioAstSymbolResolver.java:104-138 has visited the declaration
and then its instantiations, if it is a template.  The comments of instantiations are those of the template (StructureType.java:58,
Field.java:375, ChoiceType.java:173, UnionType.java:57, SqlTableType.java:70, Function.java:109). -/
def visitTag (S : Sources) (pkg : Package) (d : Decl) (instantiations : List Decl) (ids : List Name) : Reference :=
  (d :: (if d.isTemplate then instantiations else [])).foldl (fun r d => r.resolve S pkg (scopedTypeOf d) ids) ⟨false, none⟩

/-! ### The link in the generated code -/

/-- `getPythonSymbol` and `getFullName` (PythonNativeMapper.java:49-72, NativeUserType.java:18-21, NativeSubtype.java,
PythonFullNameFormatter.java:12-16); `none` is the exception for other symbols -/
def pythonSymbol (d : Decl) : Option (List PyStr) :=
  match d.kind with
  | .constant =>
    let name := constantToSymbol d.symbol.name
    some (d.symbol.package ++ [symbolToModule name, name])
  | .ruleGroup => none
  | _ => some (d.symbol.package ++ [symbolToModule d.symbol.name, d.symbol.name])

/-- `getScopeSymbolSuffix` (DocCommentsTemplateData.java:243-286) -/
def scopeSymbolSuffix (d : Decl) (m : Member) : List PyStr :=
  match m.kind with
  | .enumItem removed => [enumItemToSymbol m.name removed]
  | .bitmaskValue => [py! "Values", bitmaskValueToSymbol m.name]
  | .field =>
    match d.kind with
    | .scoped .sqlTable _ => [py! "Rows", m.name]
    | _ => [toLowerSnakeCase m.name]
  | .parameter => [toLowerSnakeCase m.name]
  | .function => [toLowerSnakeCase m.name]
  | .method => [py! "Client", toLowerSnakeCase m.name]
  | .message _ _ => [py! "publish_" ++ toLowerSnakeCase m.name]

/-- `link` and `isCrossReference` -/
structure Link where
  path : List PyStr
  isCrossReference : Bool
  deriving DecidableEq

/-- the constructor of DocTagSeeData (DocCommentsTemplateData.java:188-226); `none` is the exception, which stops the generator -/
def makeLink (r : Reference) (ids : List Name) : Option Link :=
  match r.target with
  | none => some ⟨ids, false⟩
  | some (.package q) => some ⟨q, false⟩
  | some (.symbol d) => (pythonSymbol d).map fun p => ⟨p, false⟩
  | some (.member d m) => (pythonSymbol d).map fun p =>
      ⟨p ++ scopeSymbolSuffix d m, match d.kind with
        | .scoped .sqlTable _ => true
        | _ => false⟩

end Zserio.DocLinks
