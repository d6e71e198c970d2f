import Verif.Model.ParseCheck
/-
Which declarations are accepted by the checks on parse trees, without flags.
-/
namespace Zserio.ParseCheck
open Zserio.ExprParse (Tree Token)

/-- the number of `@index` in an expression -/
def indexes : Tree → Nat
  | .paren _ e _ => indexes e
  | .call e _ _ => indexes e
  | .array e _ i _ => indexes e + indexes i
  | .dot e _ _ => indexes e
  | .isset _ _ a _ b _ => indexes a + indexes b
  | .function _ _ e _ => indexes e
  | .unary _ e => indexes e
  | .binary a _ b => indexes a + indexes b
  | .rshift a _ _ b => indexes a + indexes b
  | .ternary a _ b _ c => indexes a + indexes b + indexes c
  | .atom t => if t.kind = .index then 1 else 0

/-- an expression (if there is one) without `@index` -/
def NoIndex (e : Option Tree) : Prop := ∀ t, e = some t → indexes t = 0

/-- The expressions which say where something is stored: a name, a member of such an expression, and an element `[@index]` of it. -/
inductive Path : Tree → Prop where
  | name (t : Token) : t.kind ≠ .index → (∀ n, t.kind ≠ .lit n) → Path (.atom t)
  | member (e : Tree) (d n : Token) : Path e → Path (.dot e d n)
  | element (e : Tree) (l i r : Token) : Path e → i.kind = .index → Path (.array e l (.atom i) r)

/-- the type of a field: `implicit` and `packed` are for arrays, not both of them, an implicit array has no length -/
def GoodTypeId (allowImplicit : Bool) (t : TypeId) : Prop :=
  (t.implicit = true → allowImplicit = true ∧ t.range = some none) ∧
  (t.packed = true → t.range ≠ none ∧ t.implicit = false)

/-- the arguments of a type: `explicit` only in tables, `@index` only for the elements of arrays; the length of a bit field has no `@index` -/
def GoodType (table array : Bool) (t : TypeUse) : Prop :=
  (∀ a ∈ t.arguments, match a with
    | .explicit => table = true
    | .expr e => array = true ∨ indexes e = 0) ∧
  NoIndex t.length

/-- An offset is a path; `@index` can be used once, for an array which is not implicit. -/
def GoodOffset (f : StructField) : Prop :=
  ∀ e, f.offset = some e → Path e ∧ (indexes e = 0 ∨ indexes e = 1 ∧ f.typeId.range ≠ none ∧ f.typeId.implicit = false)

/-- a field of a structure -/
def GoodStructField (allowImplicit : Bool) (f : StructField) : Prop :=
  ¬ (f.optional = true ∧ f.clause ≠ none) ∧ GoodOffset f ∧ GoodTypeId allowImplicit f.typeId ∧
  GoodType false f.typeId.range.isSome f.typeId.type ∧ NoIndex f.typeId.range.join ∧
  NoIndex f.alignment ∧ NoIndex f.initializer ∧ NoIndex f.clause ∧ NoIndex f.constraint

/-- a field of a choice or a union; `array`: whether `@index` can be used in arguments -/
def GoodBranchField (allowImplicit array : Bool) (f : BranchField) : Prop :=
  GoodTypeId allowImplicit f.typeId ∧ GoodType false array f.typeId.type ∧ NoIndex f.typeId.range.join ∧ NoIndex f.constraint

/-- an SQL table -/
def GoodSqlTable (t : SqlTable) : Prop :=
  ¬ (t.virtual = true ∧ t.withoutRowId = true) ∧ (∀ f ∈ t.fields, GoodType true false f.1 ∧ NoIndex f.2) ∧ NoIndex t.constraint

/-- Which parts of a file are accepted.  `branches`: whether `@index` can be used in the arguments of arrays in choices and unions. -/
def Good (allowImplicit branches : Bool) : Item → Prop
  | .structField f => GoodStructField allowImplicit f
  | .branchField f => GoodBranchField allowImplicit (branches && f.typeId.range.isSome) f
  | .sqlTable t => GoodSqlTable t
  | .type t => GoodType false false t
  | .expr e => indexes e = 0

end Zserio.ParseCheck
