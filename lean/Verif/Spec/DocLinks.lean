import Verif.Model.DocLinks
/-
What the generated code has under which name (the templates in extensions/python/freemarker), and what the language guide says about the
reference of a `see` tag (doc/ZserioLanguageOverview.md:1324-1346).
-/
namespace Zserio.DocLinks
open Visibility Names

/-- the members of the kinds of scoped types -/
def Allowed : ScopedKind → MemberKind → Prop
  | .enum, k => ∃ r, k = .enumItem r
  | .bitmask, k => k = .bitmaskValue
  | .compound, k => k = .field ∨ k = .parameter ∨ k = .function
  | .sqlTable, k => k = .field
  | .sqlDatabase, k => k = .field
  | .service, k => k = .method
  | .pubsub, k => ∃ p s, k = .message p s

/-- the declaration has only members its kind can have (ZserioParser.g4) -/
def Decl.WellFormed (d : Decl) : Prop :=
  match d.kind with
  | .scoped k members => ∀ m ∈ members, Allowed k m.kind
  | _ => True

/-- the declaration is among those whose code is generated: all but templates and groups of rules -/
def Generated (S : Sources) (d : Decl) : Prop := d ∈ S.decls ∧ d.isTemplate = false ∧ d.kind ≠ .ruleGroup

/-- the module and the class of a type -/
def classPath (d : Decl) : List PyStr := d.symbol.package ++ [toLowerSnakeCase d.symbol.name, d.symbol.name]

/-- The objects of the generated code by their full names -/
inductive PyObject (S : Sources) : List PyStr → Prop
  /-- packages are Python packages -/
  | package {q d} : S.root.get q = some d → PyObject S q
  /-- a module for each type (Structure.py.ftl and the other templates of types, Subtype.py.ftl) -/
  | type {d} : Generated S d → d.kind ≠ .constant → PyObject S (classPath d)
  /-- a module for each constant (Constant.py.ftl) -/
  | constant {d} : Generated S d → d.kind = .constant →
      PyObject S (d.symbol.package ++ [toLowerSnakeCase (toUpperSnakeCase d.symbol.name), toUpperSnakeCase d.symbol.name])
  /-- items of enumerations (Enumeration.py.ftl) -/
  | enumItem {d ms n} : Generated S d → d.kind = .scoped .enum ms → ⟨n, .enumItem false⟩ ∈ ms →
      PyObject S (classPath d ++ [toUpperSnakeCase n])
  /-- removed items of enumerations (Enumeration.py.ftl) -/
  | removedItem {d ms n} : Generated S d → d.kind = .scoped .enum ms → ⟨n, .enumItem true⟩ ∈ ms →
      PyObject S (classPath d ++ [py! "ZSERIO_REMOVED_" ++ toUpperSnakeCase n])
  /-- values of bitmasks (Bitmask.py.ftl:287-297) -/
  | bitmaskValue {d ms n} : Generated S d → d.kind = .scoped .bitmask ms → ⟨n, .bitmaskValue⟩ ∈ ms →
      PyObject S (classPath d ++ [py! "Values", toUpperSnakeCase n])
  /-- properties and functions of compound types, tables of databases (SqlDatabase.py.ftl:126) -/
  | property {d k ms n mk} : Generated S d → d.kind = .scoped k ms → k = .compound ∨ k = .sqlDatabase → ⟨n, mk⟩ ∈ ms →
      mk = .field ∨ mk = .parameter ∨ mk = .function → PyObject S (classPath d ++ [toLowerSnakeCase n])
  /-- methods of clients (Service.py.ftl:176) -/
  | clientMethod {d ms n} : Generated S d → d.kind = .scoped .service ms → ⟨n, .method⟩ ∈ ms →
      PyObject S (classPath d ++ [py! "Client", toLowerSnakeCase n])
  /-- publishing (Pubsub.py.ftl:59-61) -/
  | publish {d ms n s} : Generated S d → d.kind = .scoped .pubsub ms → ⟨n, .message true s⟩ ∈ ms →
      PyObject S (classPath d ++ [py! "publish_" ++ toLowerSnakeCase n])
  /-- subscribing (Pubsub.py.ftl:82-84) -/
  | subscribe {d ms n p} : Generated S d → d.kind = .scoped .pubsub ms → ⟨n, .message p true⟩ ∈ ms →
      PyObject S (classPath d ++ [py! "subscribe_" ++ toLowerSnakeCase n])

/-- The labels in the documentation of the generated code: columns of tables (SqlTable.py.ftl:55-59) -/
inductive Label (S : Sources) : List PyStr → Prop
  | column {d ms n} : Generated S d → d.kind = .scoped .sqlTable ms → ⟨n, .field⟩ ∈ ms → Label S (classPath d ++ [py! "Rows", n])

/-- the link leads to something -/
def Link.Valid (S : Sources) (l : Link) : Prop := if l.isCrossReference then Label S l.path else PyObject S l.path

/-- The declaration of a type or constant which a name means in a package, with the package name before it (C88). -/
def Denotes (S : Sources) (pkg : Package) (prefixIds : List Name) (n : Name) (d : Decl) : Prop :=
  ∃ s, pkg.visible S.root (qualifiedPackage S.top prefixIds) n = .ok (some s) ∧ S.decl s = some d

/-- What may be meant by identifiers joined by dots in a comment of the declaration `d` -/
def Named (S : Sources) (pkg : Package) (d : Decl) (ids : List Name) : Target → Prop
  | .member d' m => (∃ n, ids = [n] ∧ d' = d ∧ d.find n = some m) ∨
      ∃ prefixIds T f, ids = prefixIds ++ [T, f] ∧ Denotes S pkg prefixIds T d' ∧ d'.find f = some m
  | .symbol d' => ∃ prefixIds T, ids = prefixIds ++ [T] ∧ Denotes S pkg prefixIds T d'
  | .package q => ∃ p, S.root.get (qualifiedPackage S.top ids) = some p ∧ q = qualifiedPackage S.top ids

end Zserio.DocLinks
