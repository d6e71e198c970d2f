import Verif.Spec.Compound
import Mathlib.Logic.Relation
/-
Which schemas a user can expect the compiler to accept: the words of the language reference on recursion, extended fields and
implicit arrays.
-/
namespace Zserio

/-- the compound declares the field -/
inductive CompoundDef.Declares : CompoundDef → FieldDef → Prop
  | struct {fs : List FieldDef} {f : FieldDef} (h : f ∈ fs) : Declares (.struct fs) f
  | union {fs : List FieldDef} {f : FieldDef} (h : f ∈ fs) : Declares (.union fs) f
  | case {s : Expr Int} {cases : List CaseDef} {d : Option (Option FieldDef)} {k : CaseDef} {f : FieldDef} (h : k ∈ cases)
      (hf : k.field = some f) : Declares (.choice s cases d) f
  | default {s : Expr Int} {cases : List CaseDef} {f : FieldDef} : Declares (.choice s cases (some (some f))) f

namespace Schema

/-- a field of `a`, or the elements of an array field of `a`, are of the type `b` -/
def Contains (defs : Schema) (a b : Nat) : Prop := ∃ f args, (defs a).Declares f ∧ f.type = .compound b args

/-- objects of `b` are inside of objects of `a`, at any depth -/
def Nested (defs : Schema) : Nat → Nat → Prop := Relation.TransGen defs.Contains

/-- The list has all types: what its types contain is in it, and other types are not declared. -/
def Complete (defs : Schema) (types : List Nat) : Prop :=
  (∀ a ∈ types, ∀ b, defs.Contains a b → b ∈ types) ∧ ∀ a, a ∉ types → defs a = .struct []

/-- no two types contain each other -/
def NoIndirectRecursion (defs : Schema) : Prop := ∀ a b, a ≠ b → defs.Nested a b → ¬ defs.Nested b a

end Schema

/-- The field can be left out: it is optional, or it is an array and `lower`, a lower bound of its length, does not exclude the
empty array. -/
def FieldDef.MayBeLeftOut (lower : FieldDef → Option Int) (f : FieldDef) : Prop :=
  f.optional ≠ .required ∨ match f.array with
    | none => False
    | some ⟨.fixed _, _⟩ => ∀ b, lower f = some b → b ≤ 0
    | some _ => True

namespace Schema

/-- a type contains itself only in fields that can be left out -/
def NoDirectRecursion (defs : Schema) (lower : FieldDef → Option Int) : Prop :=
  ∀ a f args, (defs a).Declares f → f.type = .compound a args → f.MayBeLeftOut lower

/-- There are objects of the type: all of its fields can be filled, those that can be left out with nothing, the others with
objects that have been built before. -/
inductive Buildable (defs : Schema) (lower : FieldDef → Option Int) : Nat → Prop
  | mk {a : Nat} (h : ∀ f, (defs a).Declares f → ¬ f.MayBeLeftOut lower → ∀ b args, f.type = .compound b args →
      Buildable defs lower b) : Buildable defs lower a

/-- the type has an extended field -/
def HasExtended (defs : Schema) (a : Nat) : Prop := ∃ f, (defs a).Declares f ∧ f.extended = true

/-- a field after an extended field is extended -/
def ExtendedLast (defs : Schema) : Prop :=
  ∀ a fs, defs a = .struct fs → ∀ (i j : Nat) f g, i < j → fs[i]? = some f → fs[j]? = some g → f.extended = true → g.extended = true

/-- types with extended fields are not used inside of other types -/
def ExtendedOutside (defs : Schema) : Prop := ∀ a b, defs.Nested a b → ¬ defs.HasExtended b

/-- what only fields of structures can have -/
def PlainBranches (defs : Schema) : Prop :=
  ∀ a f, (defs a).Declares f → (∀ fs, defs a ≠ .struct fs) →
    f.extended = false ∧ f.optional = .required ∧ f.alignment = none ∧ f.offset = none

end Schema

/-- the field is an implicit array -/
def FieldDef.IsImplicit (f : FieldDef) : Prop := ∃ isPacked, f.array = some ⟨.implicit, isPacked⟩

namespace Schema

/-- there are no implicit arrays -/
def NoImplicit (defs : Schema) : Prop := ∀ a f, (defs a).Declares f → ¬ f.IsImplicit

/-- Implicit arrays are the last fields of structures, and these structures are not used inside of other types. -/
def ImplicitAtEnd (defs : Schema) : Prop :=
  ∀ a f, (defs a).Declares f → f.IsImplicit →
    (∀ b, ¬ defs.Contains b a) ∧ ∃ fs, defs a = .struct fs ∧ ∀ (i : Nat), fs[i]? = some f → i + 1 = fs.length

/-- the schemas the language allows, without implicit arrays -/
structure WellFormed (defs : Schema) (lower : FieldDef → Option Int) : Prop where
  indirect : defs.NoIndirectRecursion
  direct : defs.NoDirectRecursion lower
  extendedLast : defs.ExtendedLast
  extendedOutside : defs.ExtendedOutside
  branches : defs.PlainBranches
  implicit : defs.NoImplicit

/-! ### Implicit arrays, with the option `-allowImplicitArrays` -/

end Schema

/-- The fields of one branch of the compound satisfy the condition; a branch of a choice can be without field. -/
def CompoundDef.SomeBranch (P : FieldDef → Prop) : CompoundDef → Prop
  | .struct fs => ∀ f ∈ fs, P f
  | .union fs => (∃ f ∈ fs, P f) ∨ fs = []
  | .choice s cases default => (∃ c ∈ cases, c.field = none) ∨ default = some none ∨
    (∃ f, (CompoundDef.choice s cases default).Declares f ∧ P f) ∨ ∀ f, ¬ (CompoundDef.choice s cases default).Declares f

/-- The field of the compound `self` may take no bits: it is optional with a condition, an array that can be empty and has no
length, or of a type whose objects may take no bits.  `implicit`: implicit arrays count as empty. -/
def FieldDef.MayTakeNoBits (lower : FieldDef → Option Int) (implicit : Bool) (empty : Nat → Prop) (self : Nat) (f : FieldDef) : Prop :=
  (∃ e, f.optional = .clause e) ∨
  (f.optional = .required ∧
    ((f.IsImplicit ∧ implicit = true) ∨
    ((∃ e p, f.array = some ⟨.fixed e, p⟩) ∧ ∀ b, lower f = some b → b ≤ 0) ∨
    ((f.array = none ∨ ∃ e p, f.array = some ⟨.fixed e, p⟩) ∧ ∃ c args, f.type = .compound c args ∧ c ≠ self ∧ empty c)))

namespace Schema

/-- Objects of the compound, nested up to a depth, may take no bits; unions have a tag. -/
def MayTakeNoBits (defs : Schema) (lower : FieldDef → Option Int) (implicit : Bool) : Nat → Nat → Prop
  | 0, _ => False
  | k + 1, a => (∀ fs, defs a ≠ .union fs) ∧
    (defs a).SomeBranch fun f => f.MayTakeNoBits lower implicit (MayTakeNoBits defs lower implicit k) a

end Schema

/-- The field may be without an implicit array inside: it may take no bits, is an array that may be empty, or is of a type whose
objects may be without implicit arrays. -/
def FieldDef.MayAvoidImplicit (lower : FieldDef → Option Int) (empty plain : Nat → Prop) (self : Nat) (f : FieldDef) : Prop :=
  f.MayTakeNoBits lower false empty self ∨
  (¬ f.IsImplicit ∧
    ((∃ p, f.array = some ⟨.auto, p⟩) ∨ ((∃ e p, f.array = some ⟨.fixed e, p⟩) ∧ ∀ b, lower f = some b → b ≤ 0) ∨
      ∀ c args, f.type = .compound c args → c = self ∨ plain c))

namespace Schema

/-- Objects of the compound, nested up to a depth, may be without implicit arrays. -/
def MayAvoidImplicit (defs : Schema) (lower : FieldDef → Option Int) : Nat → Nat → Prop
  | 0, _ => False
  | k + 1, a => (defs a).SomeBranch fun f =>
    f.MayAvoidImplicit lower (MayTakeNoBits defs lower false k) (MayAvoidImplicit defs lower k) a

/-- A field after one that always has an implicit array inside may take no bits; the depth is not bounded. -/
def ImplicitRule (defs : Schema) (lower : FieldDef → Option Int) : Prop :=
  ∀ a fs, defs a = .struct fs → ∀ (i j : Nat) f g, i < j → fs[i]? = some f → fs[j]? = some g →
    (¬ ∃ k, f.MayAvoidImplicit lower (defs.MayTakeNoBits lower false k) (defs.MayAvoidImplicit lower k) a) →
    ∃ k, g.MayTakeNoBits lower true (defs.MayTakeNoBits lower true k) a

end Schema

/-- an implicit array has elements with a fixed number of whole bytes, is not packed and has no indexed offsets -/
def FieldDef.GoodImplicit (f : FieldDef) : Prop :=
  (∃ n, 0 < n ∧ n % 8 = 0 ∧ (f.type = .int (.bitField n) ∨ f.type = .int (.signedBitField n) ∨
    (f.type = .other .float16 ∧ n = 16) ∨ (f.type = .other .float32 ∧ n = 32) ∨ (f.type = .other .float64 ∧ n = 64))) ∧
  f.array = some ⟨.implicit, false⟩ ∧ ∀ o, f.offset = some o → o.indexed = false

namespace Schema

/-- the schemas the language allows, with implicit arrays -/
structure WellFormedImplicit (defs : Schema) (lower : FieldDef → Option Int) : Prop where
  indirect : defs.NoIndirectRecursion
  direct : defs.NoDirectRecursion lower
  extendedLast : defs.ExtendedLast
  extendedOutside : defs.ExtendedOutside
  branches : defs.PlainBranches
  implicitFields : ∀ a f, (defs a).Declares f → f.IsImplicit → f.GoodImplicit
  implicitRule : defs.ImplicitRule lower

end Schema
end Zserio
