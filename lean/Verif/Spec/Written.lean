import Verif.Spec.Valid
import Verif.Spec.Rewrite
/-
Specification vocabulary for objects which have been written by generated code with or without packed arrays and with or without
range checks (`-withRangeCheckCode`).
-/
namespace Zserio

/-- The numbers between the bounds of an integral type. -/
def IntKind.Between : IntKind → Int → Prop
  | .bitField n, x => 0 ≤ x ∧ x < 2 ^ n
  | .signedBitField n, x => -(2 ^ (n - 1)) ≤ x ∧ x < 2 ^ (n - 1)
  | .var t, x => t.InRange x

/-- The number of an integral type: if it is not stored as a delta it is in the range, and if it is checked it is between the
bounds. -/
def IntKind.Held (packed checked : Bool) (k : IntKind) (x : Int) : Prop :=
  (packed = false → k.InRange x) ∧ (checked = true → k.Between x)

/-- What is known of a written value.  `packed`: it uses a packing context; `checked`: its range is checked; `held packed id` are
the objects of the compound `id`. -/
def ElemType.Held (held : Bool → Nat → Val → Prop) (env : Env) (packed checked : Bool) : ElemType → Val → Prop
  | .int k, v => ∃ x, v = .int x ∧ k.Held packed checked x
  | .bitmask k, v => ∃ x, v = .int x ∧ k.Held packed false x
  | .dynBits signed length, v => ∃ n k x, length env = .ok n ∧ dynKind signed n = .ok k ∧ v = .int x ∧
      (packed = false ∨ checked = true → k.InRange x)
  | .enum e, v => ∃ x, v = .int x ∧ x ∈ e.items ∧ x ∉ e.removed ∧ e.underlying.Held packed false x
  | .other b, v => ∃ x, b.proj v = .ok x ∧ b.Writable x
  | .compound id _, v => held packed id v

/-- The value of an array field.  Elements are not range checked. -/
def FieldDef.HeldArray (held : Bool → Nat → Val → Prop) (f : FieldDef) (a : ArrayDef) (env : Env) (packed : Bool) (v : Val) : Prop :=
  ∃ xs, v = .arr xs ∧ (∀ x ∈ xs, f.type.Held held env (f.packable && (packed || a.isPacked)) false x) ∧
    (a.kind = .auto → xs.length < 2 ^ 31) ∧
    (∀ length, a.kind = .fixed length → length env = .ok (xs.length : Int)) ∧
    (∀ signed length, f.type = .dynBits signed length → ∃ n k, length env = .ok n ∧ dynKind signed n = .ok k)

/-- The value of a used field: as `FieldDef.ValidValue`. -/
structure FieldDef.HeldValue (held : Bool → Nat → Val → Prop) (f : FieldDef) (env : Env) (packed : Bool) (v : Val) : Prop where
  value : f.array = none → f.type.Held held env (f.packable && packed) f.rangeCheck v
  elements : ∀ a, f.array = some a → f.HeldArray held a env packed v
  constraint : ∀ e, f.constraint = some e → e { env with fields := env.fields ++ [v] } = .ok true
  params : ∀ id args, f.array = none → f.type = .compound id args → args ≠ [] → ∃ ps, v.params = .ok ps ∧ evalArgs args env = .ok ps
  offsets : f.HasOffsets env v
  alignment : f.alignment ≠ some 0

/-- a field: extended fields that are not present and fields that are not used can be anything -/
def FieldDef.Held (held : Bool → Nat → Val → Prop) (f : FieldDef) (env : Env) (present packed : Bool) (v : Val) : Prop :=
  (f.extended = true ∧ present = false) ∨ f.isUsed env v = .ok false ∨ (f.isUsed env v = .ok true ∧ f.HeldValue held env packed v)

/-- the fields of a structure -/
def Struct.Held (held : Bool → Nat → Val → Prop) (params : List Int) (numExt base : Nat) (packed : Bool) :
    List FieldDef → (prior : List Val) → List Val → Prop
  | [], _, [] => True
  | f :: fs, prior, v :: vs =>
    f.Held held ⟨params, prior, 0⟩ (isPresent numExt base prior.length) packed v ∧
    Struct.Held held params numExt base packed fs (prior ++ [v]) vs
  | _, _, _ => False

/-- the objects of a compound -/
def CompoundDef.Held (held : Bool → Nat → Val → Prop) (packed : Bool) : CompoundDef → Val → Prop
  | .struct fs, .obj ps k _ vs => Struct.Held held ps k (Struct.base fs) packed fs [] vs
  | .union fs, .obj ps _ tag [v] =>
    (packed = false → tag < 2 ^ 31) ∧ ∃ f, Union.select fs tag = .ok f ∧ f.Held held ⟨ps, [], 0⟩ true packed v
  | .choice selector cases default, .obj ps _ _ [v] =>
    ∃ f slot, Choice.select selector cases default ps = .ok (f, slot) ∧ ∀ g, f = some g → g.Held held ⟨ps, [], 0⟩ true packed v
  | _, _ => False

/-- **What every written object satisfies**; `packed`: as an element of a packed array -/
def Schema.Held (defs : Schema) : (n : Nat) → (packed : Bool) → (id : Nat) → Val → Prop
  | 0, _, _, _ => False
  | n + 1, packed, id, x => (defs id).Held (defs.Held n) packed x

/-! ### The parts of an object -/

/-- `v` is the value of the used field `f` of the object `x` of the compound `id`, or of an object nested in it to any depth (as
the value of a field or as an element of an array); `env` is what the expressions of the field see. -/
inductive Schema.Part (defs : Schema) : (id : Nat) → (x : Val) → FieldDef → Env → Val → Prop
  | ofStruct {id i k : Nat} {fs : List FieldDef} {ps : List Int} {tag : Int} {vs : List Val} {f : FieldDef} {v : Val}
      (hd : defs id = .struct fs) (hf : fs[i]? = some f) (hv : vs[i]? = some v)
      (hp : f.extended = false ∨ Struct.isPresent k (Struct.base fs) i = true) (hu : f.isUsed ⟨ps, vs.take i, 0⟩ v = .ok true) :
      defs.Part id (.obj ps k tag vs) f ⟨ps, vs.take i, 0⟩ v
  | ofUnion {id k : Nat} {fs : List FieldDef} {ps : List Int} {tag : Int} {f : FieldDef} {v : Val}
      (hd : defs id = .union fs) (hf : Union.select fs tag = .ok f) (hu : f.isUsed ⟨ps, [], 0⟩ v = .ok true) :
      defs.Part id (.obj ps k tag [v]) f ⟨ps, [], 0⟩ v
  | ofChoice {id k slot : Nat} {selector : Expr Int} {cases : List CaseDef} {default : Option (Option FieldDef)} {ps : List Int}
      {tag : Int} {f : FieldDef} {v : Val} (hd : defs id = .choice selector cases default)
      (hf : Choice.select selector cases default ps = .ok (some f, slot)) (hu : f.isUsed ⟨ps, [], 0⟩ v = .ok true) :
      defs.Part id (.obj ps k tag [v]) f ⟨ps, [], 0⟩ v
  | nested {id j : Nat} {x y v : Val} {f g : FieldDef} {env env' : Env} {args : List (Expr Int)} (h : defs.Part id x f env y)
      (ha : f.array = none) (ht : f.type = .compound j args) (h' : defs.Part j y g env' v) : defs.Part id x g env' v
  | element {id j : Nat} {x y v : Val} {ys : List Val} {f g : FieldDef} {env env' : Env} {a : ArrayDef} {args : List (Expr Int)}
      (h : defs.Part id x f env (.arr ys)) (ha : f.array = some a) (ht : f.type = .compound j args) (hy : y ∈ ys)
      (h' : defs.Part j y g env' v) : defs.Part id x g env' v

/-! ### Which schemas check everything -/

/-- the compounds whose objects can be inside of packed arrays -/
inductive Schema.InPacked (defs : Schema) : Nat → Prop
  | element {id j : Nat} {f : FieldDef} {a : ArrayDef} {args : List (Expr Int)} (hf : (defs id).HasField f) (ha : f.array = some a)
      (hp : f.packable = true) (hi : a.isPacked = true) (ht : f.type = .compound j args) : defs.InPacked j
  | nested {id j : Nat} {f : FieldDef} {args : List (Expr Int)} (h : defs.InPacked id) (hf : (defs id).HasField f)
      (hp : f.packable = true) (ht : f.type = .compound j args) : defs.InPacked j

/-- The elements of a packed array of the type cannot get out of range: no numbers and no bitmasks. -/
def ElemType.SafeElement : ElemType → Prop
  | .int _ => False
  | .dynBits _ _ => False
  | .bitmask _ => False
  | .enum e => ∀ x ∈ e.items, e.underlying.InRange x
  | _ => True

/-- The field inside of a packed array cannot get out of range: its range is checked, and it is not a bitmask (whose range is
not checked). -/
def FieldDef.SafeField (f : FieldDef) : Prop :=
  match f.type with
  | .int (.bitField n) => 1 ≤ n ∧ n ≤ 64 ∧ f.rangeCheck = true
  | .int (.signedBitField n) => 1 ≤ n ∧ n ≤ 64 ∧ f.rangeCheck = true
  | .int (.var _) => f.rangeCheck = true
  | .dynBits _ _ => f.rangeCheck = true
  | .bitmask _ => False
  | .enum e => ∀ x ∈ e.items, e.underlying.InRange x
  | _ => True

/-- Packed arrays hold objects whose integer fields are range checked, or enumerations. -/
structure Schema.PackedSafe (defs : Schema) : Prop where
  /-- the arrays the schema declares as packed -/
  arrays : ∀ id f a, (defs id).HasField f → f.array = some a → f.packable = true → a.isPacked = true → f.type.SafeElement
  /-- the arrays inside of packed arrays -/
  inner : ∀ id f a, defs.InPacked id → (defs id).HasField f → f.array = some a → f.packable = true → f.type.SafeElement
  /-- the other fields inside of packed arrays -/
  fields : ∀ id f, defs.InPacked id → (defs id).HasField f → f.array = none → f.packable = true → f.SafeField
  /-- the unions inside of packed arrays -/
  unions : ∀ id fs, defs.InPacked id → defs id = .union fs → fs.length ≤ 2 ^ 31

end Zserio
