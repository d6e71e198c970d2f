import Verif.Spec.Compound
/-
Specification vocabulary for valid objects: the objects that satisfy their schema.
-/
namespace Zserio

/-- The values of a built-in type: numbers in the range of the type; strings which can be encoded; blocks whose size can be
stored; `float32` and `float16` values that are not too large for the conversion (C24 shows which these are for `float16`). -/
def Builtin.Writable : (b : Builtin) → b.Elem → Prop
  | .bitField n, x => (IntKind.bitField n).InRange x
  | .signedBitField n, x => (IntKind.signedBitField n).InRange x
  | .var t, x => (IntKind.var t).InRange x
  | .float16, x => ∃ z, floatToUint16 x = .ok z ∧ z < 2 ^ 16
  | .float32, x => ∃ z, floatToUint32 x = .ok z ∧ z < 2 ^ 32
  | .float64, _ => True
  | .bool, _ => True
  | .bytes, x => x.length < 2 ^ 31
  | .string, x => ∃ l, utf8Encode x = .ok l ∧ l.length < 2 ^ 31
  | .bitBuffer, x => 0 ≤ x.bitsize ∧ x.bitsize < 2 ^ 31

/-- The value belongs to the type.  `valid id` are the valid objects of the compound `id`. -/
def ElemType.Valid (valid : Nat → Val → Prop) (env : Env) : ElemType → Val → Prop
  | .int k, v => ∃ x, v = .int x ∧ k.InRange x
  | .bitmask k, v => ∃ x, v = .int x ∧ k.InRange x
  | .dynBits signed length, v => ∃ n k x, length env = .ok n ∧ dynKind signed n = .ok k ∧ v = .int x ∧ k.InRange x
  | .enum e, v => ∃ x, v = .int x ∧ x ∈ e.items ∧ x ∉ e.removed ∧ e.underlying.InRange x
  | .other b, v => ∃ x, b.proj v = .ok x ∧ b.Writable x
  | .compound id _, v => valid id v

/-- The value of an array field: all elements belong to the type, the length is the length the schema says or can be stored.
(For an empty array the width of the elements must still exist.) -/
def FieldDef.ValidArray (valid : Nat → Val → Prop) (f : FieldDef) (a : ArrayDef) (env : Env) (v : Val) : Prop :=
  ∃ xs, v = .arr xs ∧ (∀ x ∈ xs, f.type.Valid valid env x) ∧
    (a.kind = .auto → xs.length < 2 ^ 31) ∧
    (∀ length, a.kind = .fixed length → length env = .ok (xs.length : Int)) ∧
    (∀ signed length, f.type = .dynBits signed length → ∃ n k, length env = .ok n ∧ dynKind signed n = .ok k)

/-- The offset of the field, or the offsets of its elements, are numbers. -/
def FieldDef.HasOffsets (f : FieldDef) (env : Env) (v : Val) : Prop :=
  ∀ o, f.offset = some o →
    if o.indexed then f.array.isSome = true → ∀ xs, v = .arr xs → ∀ i < xs.length,
      ∃ os q, env.fields[o.field]? = some (.arr os) ∧ os[i]? = some (.int q)
    else ∃ q, env.fields[o.field]? = some (.int q)

/-- The value of a used field: it belongs to the type, the constraint holds, and an object has been created with the arguments
the schema gives (for elements of arrays this is not checked). -/
structure FieldDef.ValidValue (valid : Nat → Val → Prop) (f : FieldDef) (env : Env) (v : Val) : Prop where
  value : f.array = none → f.type.Valid valid env v
  elements : ∀ a, f.array = some a → f.ValidArray valid a env v
  constraint : ∀ e, f.constraint = some e → e { env with fields := env.fields ++ [v] } = .ok true
  params : ∀ id args, f.array = none → f.type = .compound id args → args ≠ [] → ∃ ps, v.params = .ok ps ∧ evalArgs args env = .ok ps
  offsets : f.HasOffsets env v
  alignment : f.alignment ≠ some 0

/-- a field: extended fields that are not present and fields that are not used can be anything -/
def FieldDef.Valid (valid : Nat → Val → Prop) (f : FieldDef) (env : Env) (present : Bool) (v : Val) : Prop :=
  (f.extended = true ∧ present = false) ∨ f.isUsed env v = .ok false ∨ (f.isUsed env v = .ok true ∧ f.ValidValue valid env v)

/-- the fields of a structure -/
def Struct.Valid (valid : Nat → Val → Prop) (params : List Int) (numExt base : Nat) :
    List FieldDef → (prior : List Val) → List Val → Prop
  | [], _, [] => True
  | f :: fs, prior, v :: vs =>
    f.Valid valid ⟨params, prior, 0⟩ (isPresent numExt base prior.length) v ∧
    Struct.Valid valid params numExt base fs (prior ++ [v]) vs
  | _, _, _ => False

/-- the objects of a compound: the field chosen by the tag or by the selector counts -/
def CompoundDef.Valid (valid : Nat → Val → Prop) : CompoundDef → Val → Prop
  | .struct fs, .obj ps k _ vs => Struct.Valid valid ps k (Struct.base fs) fs [] vs
  | .union fs, .obj ps _ tag [v] => tag < 2 ^ 31 ∧ ∃ f, Union.select fs tag = .ok f ∧ f.Valid valid ⟨ps, [], 0⟩ true v
  | .choice selector cases default, .obj ps _ _ [v] =>
    ∃ f slot, Choice.select selector cases default ps = .ok (f, slot) ∧ ∀ g, f = some g → g.Valid valid ⟨ps, [], 0⟩ true v
  | _, _ => False

/-- **Valid objects** of the compound `id`, nested at most `n` deep -/
def Schema.Valid (defs : Schema) : (n : Nat) → (id : Nat) → Val → Prop
  | 0, _, _ => False
  | n + 1, id, x => (defs id).Valid (defs.Valid n) x

/-- the fields of a compound -/
def CompoundDef.AllFields (P : FieldDef → Prop) : CompoundDef → Prop
  | .struct fs => ∀ f ∈ fs, P f
  | .union fs => ∀ f ∈ fs, P f
  | .choice _ cases default => (∀ k ∈ cases, ∀ f, k.field = some f → P f) ∧ ∀ f, default = some (some f) → P f

/-- no field of the schema has an offset -/
def Schema.NoOffsets (defs : Schema) : Prop := ∀ id, (defs id).AllFields (·.offset = none)

/-- no array of the schema is packed -/
def Schema.NoPacked (defs : Schema) : Prop :=
  ∀ id, (defs id).AllFields fun f => ∀ a, f.array = some a → f.packable = true → a.isPacked = false

end Zserio
