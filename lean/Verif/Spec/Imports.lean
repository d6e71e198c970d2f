import Verif.Model.Imports
import Mathlib.Logic.Relation

/-!
What the properties of imports say about a schema: which symbols a declaration names, and what the front end of the
compiler guarantees.
-/

namespace Zserio.Imports

open Zserio

def NativeType.names : NativeType → List Name
  | .user n => [n]
  | .subtype n _ => [n]
  | _ => []

def ExprNames.names (e : ExprNames) : List Name := e.types ++ e.symbols

def FieldDecl.names (f : FieldDecl) : List Name :=
  f.type.names ++ f.element.toList.flatMap (·.names) ++ f.exprs.flatMap (·.names) ++ f.parameters.flatMap (·.names)
    ++ f.initializer.toList.flatMap (·.names)

def CompoundDecl.names (withTypeInfo : Bool) (c : CompoundDecl) : List Name :=
  c.parameters.flatMap (·.names) ++ c.functions.flatMap (fun f => f.1.names ++ f.2.names) ++ c.fields.flatMap (·.names)
    ++ c.selectors.flatMap (·.names) ++ (if withTypeInfo then c.templateArguments.flatMap (·.names) else [])

/-- The symbols of the schema which a declaration names. The underlying types of enumerations and bitmasks and the arguments
of templates are only described by type information. -/
def Decl.names (withTypeInfo : Bool) : Decl → List Name
  | .constant value => value.names
  | .subtype target => target.names
  | .enumeration underlying width _ => (if withTypeInfo then underlying.names else []) ++ width.names
  | .bitmask underlying width => (if withTypeInfo then underlying.names else []) ++ width.names
  | .structure c => c.names withTypeInfo
  | .alternative c => c.names withTypeInfo
  | .service methods => methods.flatMap fun m => m.1.names ++ m.2.names
  | .pubsub messages => messages.flatMap fun m => m.1.names ++ m.2.names
  | .sqlTable constraint columns args => constraint.toList.flatMap (·.names)
      ++ columns.flatMap (fun c => c.type.names ++ c.parameters.flatMap (·.names) ++ c.exprs.flatMap (·.names))
      ++ (if withTypeInfo then args.flatMap (·.names) else [])
  | .sqlDatabase tables => tables.flatMap (·.names)

/-- the declaration of `a` names `b` -/
def Schema.Refers (s : Schema) (withTypeInfo : Bool) (a b : Name) : Prop :=
  ∃ d, (a, d) ∈ s.decls ∧ b ∈ d.names withTypeInfo

/-- constants, enumerations, bitmasks and other names of these or of builtin types -/
inductive Schema.IsValue (s : Schema) : Name → Prop where
  | constant {a : Name} {e : ExprNames} : (a, .constant e) ∈ s.decls → s.IsValue a
  | enumeration {a : Name} {t : NativeType} {e : ExprNames} {b : Bool} : (a, .enumeration t e b) ∈ s.decls → s.IsValue a
  | bitmask {a : Name} {t : NativeType} {e : ExprNames} : (a, .bitmask t e) ∈ s.decls → s.IsValue a
  | builtin {a : Name} {t : NativeType} : (a, .subtype t) ∈ s.decls → t.names = [] → s.IsValue a
  | subtype {a b : Name} {t : NativeType} : (a, .subtype t) ∈ s.decls → b ∈ t.names → s.IsValue b → s.IsValue a

/-- tables, databases and other names of these -/
inductive Schema.IsSql (s : Schema) : Name → Prop where
  | table {a : Name} {c : Option ExprNames} {fs : List ColumnDecl} {ts : List NativeType} :
      (a, .sqlTable c fs ts) ∈ s.decls → s.IsSql a
  | database {a : Name} {ts : List NativeType} : (a, .sqlDatabase ts) ∈ s.decls → s.IsSql a
  | subtype {a b : Name} {t : NativeType} : (a, .subtype t) ∈ s.decls → b ∈ t.names → s.IsSql b → s.IsSql a

/-- What the front end of the compiler and the checks of the generator guarantee. -/
structure FrontEnd (withTypeInfo : Bool) (s : Schema) : Prop where
  /-- names are resolved (compiler/core/src/zserio/ast/ZserioAstTypeResolver.java, ZserioAstSymbolResolver.java) -/
  resolved : ∀ a d, (a, d) ∈ s.decls → ∀ b ∈ d.names withTypeInfo, ∃ e, (b, e) ∈ s.decls
  /-- the modules of a schema are different and different from the libraries (C69) -/
  distinct : ((s.decls.map fun d => d.1.path) ++ s.apis.map fun a => apiPath a.package).Nodup
  libraries : ∀ p ∈ (s.decls.map fun d => d.1.path) ++ s.apis.map (fun a => apiPath a.package), ∀ x ∈ libraries,
    p.head? ≠ x.1.head?
  /-- values of constants, widths, and initializers refer to constants, enumerations and bitmasks only, and neither constants nor
  subtypes are defined by themselves (ast/Expression.java:563, ast/ZserioAstTypeResolver.java:90-107, ast/Field.java:297) -/
  values : ∃ rank : Name → Nat, ∀ a d, (a, d) ∈ s.decls → s.IsValue a → ∀ b ∈ d.names withTypeInfo, s.IsValue b ∧ rank b < rank a
  initializers : ∀ a c, (a, .structure c) ∈ s.decls → ∀ f ∈ c.fields, ∀ e, f.initializer = some e → ∀ b ∈ e.names, s.IsValue b
  /-- subtypes are marked as builtin if their base types are -/
  builtins : ∀ a c, (a, .structure c) ∈ s.decls → ∀ f ∈ c.fields, ∀ n, f.type = .subtype n true → s.IsValue n
  /-- only databases contain tables (ast/SqlTableType.java, ast/StructureType.java, ...) -/
  tables : ∀ a d, (a, d) ∈ s.decls → ∀ b ∈ d.names withTypeInfo, s.IsSql b → (∃ ts, d = .sqlDatabase ts) ∨ ∃ t, d = .subtype t
  /-- columns are no `extern` (ast/SqlTableType.java, SqlNativeTypeMapper.java:140-143) -/
  columns : ∀ a k cs ts, (a, .sqlTable k cs ts) ∈ s.decls → ∀ c ∈ cs, c.type ≠ .bitBuffer
  /-- the functions of the runtime library which expressions call -/
  runtime : ∀ a d, (a, d) ∈ s.decls → ∀ e, (d = .constant e ∨ ∃ c, d = .structure c ∧ ∃ f ∈ c.fields, f.initializer = some e) →
    ∀ r ∈ e.runtime, r = py! "lengthof_string" ∨ r = py! "numbits" ∨ r = py! "isset"
  /-- what the modules `api` contain (C69) -/
  apis : ∀ a ∈ s.apis, (∀ p ∈ a.subpackages, ∃ b ∈ s.apis, b.package = p) ∧ ∀ n ∈ a.symbols, ∃ d, (n, d) ∈ s.decls

/-- the schema contains no other name for `extern` -/
def NoExtern (s : Schema) : Prop := ∀ a, (a, Decl.subtype .bitBuffer) ∉ s.decls

/-- no type leads to another name for itself, through its fields, parameters, ... -/
def NoSubtypeCycle (w : Bool) (s : Schema) : Prop :=
  ∀ a t b, (a, Decl.subtype t) ∈ s.decls → b ∈ t.names → ¬ Relation.ReflTransGen (s.Refers w) b a

/-- the modules of a schema: one for each symbol and the modules `api` -/
def IsModule (s : Schema) (p : Path) : Prop := (∃ a d, (a, d) ∈ s.decls ∧ p = a.path) ∨ ∃ a ∈ s.apis, p = apiPath a.package

end Zserio.Imports
