import Verif.Model.Compound
/-
Specification vocabulary for generated compounds: what is read back for an object, and the shape of schemas the compiler
accepts.

What is read back is the object itself, except for what the format does not store: the precision of `float16` and `float32`,
the unused bits of a bit buffer, optional fields that are set but not used, extended fields that are not present.
-/
namespace Zserio

/-- the elements of two lists are related one by one, by a relation that knows the index -/
def Elementwise (P : Nat → Val → Val → Prop) : Nat → List Val → List Val → Prop
  | _, [], [] => True
  | i, x :: xs, x' :: xs' => P i x x' ∧ Elementwise P (i + 1) xs xs'
  | _, _, _ => False

/-- `v'` is what is read back for the value `v` of the type (`i` is the index in an array).  `stored id` is this relation for
the objects of the compound `id`.  An object must have been created with the arguments the schema gives. -/
def ElemType.Stored (stored : Nat → Val → Val → Prop) (env : Env) (i : Nat) : ElemType → Val → Val → Prop
  | .int _, v, v' => v' = v
  | .dynBits _ _, v, v' => v' = v
  | .enum _, v, v' => v' = v
  | .bitmask _, v, v' => v' = v
  | .other b, v, v' => ∃ x, b.proj v = .ok x ∧ v' = b.inj (b.stored x)
  | .compound id args, v, v' => stored id v v' ∧ v.params = evalArgs args { env with index := i }

/-- the expressions of the type have the same values in both environments -/
def ElemType.Agree (env env' : Env) : ElemType → Prop
  | .dynBits _ length => length env' = length env
  | .compound _ args => ∀ i, evalArgs args { env' with index := i } = evalArgs args { env with index := i }
  | _ => True

/-- The expressions of the field have the same values whether they look at the fields written (`env`, `v`) or at the fields
read back (`env'`, `v'`); trivially so if the fields read back are the fields written. -/
structure FieldDef.Agree (f : FieldDef) (env env' : Env) (v v' : Val) : Prop where
  type : f.type.Agree env env'
  length : ∀ length isPacked, f.array = some ⟨.fixed length, isPacked⟩ → length env' = length env
  constraint : ∀ e, f.constraint = some e → e { env with fields := env.fields ++ [v] } = .ok true →
    e { env' with fields := env'.fields ++ [v'] } = .ok true
  offset : ∀ o, f.offset = some o → env'.fields[o.field]? = env.fields[o.field]?

/-- what is read back for the value of a used field -/
def FieldDef.StoredValue (stored : Nat → Val → Val → Prop) (f : FieldDef) (env : Env) (v v' : Val) : Prop :=
  match f.array with
  | none => f.type.Stored stored env 0 v v'
  | some _ => ∃ xs xs', v = .arr xs ∧ v' = .arr xs' ∧ Elementwise (fun i x x' => f.type.Stored stored env i x x') 0 xs xs'

/-- what is read back for a field: the default value if it is extended and not present, `None` if it is not used -/
def FieldDef.Stored (stored : Nat → Val → Val → Prop) (f : FieldDef) (env env' : Env) (present : Bool) (v v' : Val) : Prop :=
  if f.extended && !present then v' = f.default
  else
    (∀ e, f.optional = .clause e → e env' = e env) ∧
    (f.isUsed env v = .ok true → f.Agree env env' v v' ∧ f.StoredValue stored env v v') ∧
    (f.isUsed env v = .ok false → v' = .none)

/-- What is read back for the fields of a structure.  A present extended field has to take at least one bit (it is recognised
by the stream not ending before it). -/
def Struct.Stored (codecs : Nat → Codec) (stored : Nat → Val → Val → Prop) (params : List Int) (numExt base : Nat) :
    List FieldDef → (prior prior' : List Val) → List Val → List Val → Prop
  | [], _, _, [], [] => True
  | f :: fs, prior, prior', v :: vs, v' :: vs' =>
    f.Stored stored ⟨params, prior, 0⟩ ⟨params, prior', 0⟩ (isPresent numExt base prior.length) v v' ∧
    (f.extended = true → isPresent numExt base prior.length = true → ∀ p e c c',
      f.bitsizeofOptional codecs ⟨params, prior, 0⟩ (prior.length + 1) none c p v = .ok (e, c') → p < e) ∧
    Struct.Stored codecs stored params numExt base fs (prior ++ [v]) (prior' ++ [v']) vs vs'
  | _, _, _, _, _ => False

/-- what is read back for an object of a compound -/
def CompoundDef.Stored (codecs : Nat → Codec) (stored : Nat → Val → Val → Prop) : CompoundDef → Val → Val → Prop
  | .struct fs, .obj ps k _ vs, .obj ps' k' tag' vs' =>
    ps' = ps ∧ k' = min k (numExtended fs) ∧ tag' = 0 ∧ Struct.Stored codecs stored ps k (Struct.base fs) fs [] [] vs vs'
  | .union fs, .obj ps _ tag [v], .obj ps' k' tag' [v'] =>
    ps' = ps ∧ k' = 0 ∧ tag' = tag ∧
    ∀ f, Union.select fs tag = .ok f → f.Stored stored ⟨ps, [], 0⟩ ⟨ps, [], 0⟩ true v v'
  | .choice selector cases default, .obj ps _ _ [v], .obj ps' k' tag' [v'] =>
    ps' = ps ∧ k' = 0 ∧ tag' = 0 ∧
    ∀ f slot, Choice.select selector cases default ps = .ok (f, slot) →
      match f with
      | some f => f.Stored stored ⟨ps, [], 0⟩ ⟨ps, [], 0⟩ true v v'
      | none => v' = .unset
  | _, _, _ => False

/-- **What is read back** for the object `x` of the compound `id`: `x'`.  (`n` bounds the depth of nesting.) -/
def Schema.StoredAs (defs : Schema) : (n : Nat) → (id : Nat) → Val → Val → Prop
  | 0, _, _, _ => False
  | n + 1, id, x, x' => (defs id).Stored (defs.codec n) (defs.StoredAs n) x x'

/-! ### Canonical objects: those which are read back as they are -/

/-- The value of the type loses nothing when it is stored: floating point values are representable in the type, the unused bits
of bit buffers are zero, objects are canonical and have been created with the arguments the schema gives. -/
def ElemType.Canonical (canonical : Nat → Val → Prop) (env : Env) (i : Nat) : ElemType → Val → Prop
  | .other b, v => ∃ x, b.proj v = .ok x ∧ b.stored x = x
  | .compound id args, v => canonical id v ∧ v.params = evalArgs args { env with index := i }
  | _, _ => True

/-- the elements of a list have a property that knows the index -/
def AllIndexed (P : Nat → Val → Prop) : Nat → List Val → Prop
  | _, [] => True
  | i, x :: xs => P i x ∧ AllIndexed P (i + 1) xs

/-- the value of a used field is canonical -/
def FieldDef.CanonicalValue (canonical : Nat → Val → Prop) (f : FieldDef) (env : Env) (v : Val) : Prop :=
  match f.array with
  | none => f.type.Canonical canonical env 0 v
  | some _ => ∃ xs, v = .arr xs ∧ AllIndexed (fun i x => f.type.Canonical canonical env i x) 0 xs

/-- a field that is not present has its default value, a field that is not used is `None` -/
def FieldDef.Canonical (canonical : Nat → Val → Prop) (f : FieldDef) (env : Env) (present : Bool) (v : Val) : Prop :=
  if f.extended && !present then v = f.default
  else (f.isUsed env v = .ok true → f.CanonicalValue canonical env v) ∧ (f.isUsed env v = .ok false → v = .none)

/-- the fields are canonical; present extended fields take at least one bit -/
def Struct.Canonical (codecs : Nat → Codec) (canonical : Nat → Val → Prop) (params : List Int) (numExt base : Nat) :
    List FieldDef → (prior : List Val) → List Val → Prop
  | [], _, [] => True
  | f :: fs, prior, v :: vs =>
    f.Canonical canonical ⟨params, prior, 0⟩ (isPresent numExt base prior.length) v ∧
    (f.extended = true → isPresent numExt base prior.length = true → ∀ p e c c',
      f.bitsizeofOptional codecs ⟨params, prior, 0⟩ (prior.length + 1) none c p v = .ok (e, c') → p < e) ∧
    Struct.Canonical codecs canonical params numExt base fs (prior ++ [v]) vs
  | _, _, _ => False

/-- canonical objects of a compound: attributes a class does not have are zero here; a union or choice has selected one of its
fields or an empty case, the value of an empty case is unset -/
def CompoundDef.Canonical (codecs : Nat → Codec) (canonical : Nat → Val → Prop) : CompoundDef → Val → Prop
  | .struct fs, .obj ps k tag vs =>
    k ≤ numExtended fs ∧ tag = 0 ∧ Struct.Canonical codecs canonical ps k (Struct.base fs) fs [] vs
  | .union fs, .obj ps k tag [v] =>
    k = 0 ∧ ∃ f, Union.select fs tag = .ok f ∧ f.Canonical canonical ⟨ps, [], 0⟩ true v
  | .choice selector cases default, .obj ps k tag [v] =>
    k = 0 ∧ tag = 0 ∧ ∃ f slot, Choice.select selector cases default ps = .ok (f, slot) ∧
      match f with
      | some f => f.Canonical canonical ⟨ps, [], 0⟩ true v
      | none => v = .unset
  | _, _ => False

/-- **Canonical objects** of the compound `id` -/
def Schema.Canonical (defs : Schema) : (n : Nat) → (id : Nat) → Val → Prop
  | 0, _, _ => False
  | n + 1, id, x => (defs id).Canonical (defs.codec n) (defs.Canonical n) x

/-! ### Schemas -/

/-- element types with a fixed size, at least one bit: what implicit arrays can hold -/
def ElemType.FixedSize : ElemType → Prop
  | .int (.bitField n) => 0 < n
  | .int (.signedBitField n) => 0 < n
  | .dynBits _ length => ∀ env n, length env = .ok n → 0 < n
  | .other b => ∃ n, b.traits.constSize = some n ∧ 0 < n
  | _ => False

/-- The bits of the field tell where it ends: it is not an implicit array and, if of a compound type, a closed one. -/
def FieldDef.Closed (closed : Nat → Bool) (f : FieldDef) : Prop :=
  match f.array with
  | some a => match a.kind with
    | .implicit => False
    | _ => True
  | none => match f.type with
    | .compound id _ => closed id = true
    | _ => True

/-- Elements of arrays are closed; implicit arrays are of elements of a fixed size, not packed and without indexed offsets. -/
def FieldDef.ArrayOk (closed : Nat → Bool) (f : FieldDef) : Prop :=
  ∀ a, f.array = some a →
    (∀ id args, f.type = .compound id args → closed id = true) ∧
    (∀ b, a = ⟨.implicit, b⟩ → f.type.FixedSize ∧ b = false ∧ ∀ o, f.offset = some o → o.indexed = false)

/-- The layout rules of the compiler.  `closed` marks the compounds whose bits tell where they end: those without implicit
arrays and without extended fields (StructureType.java:102-160).  Only the last field of a structure may be open; extended
fields come last (StructureType.java:114-133); fields of unions and choices are not extended. -/
def CompoundDef.Layout (closed : Nat → Bool) (isClosed : Bool) : CompoundDef → Prop
  | .struct fs =>
    (∀ f ∈ fs, f.ArrayOk closed) ∧ (∀ f ∈ fs.dropLast, f.Closed closed) ∧
    (isClosed = true → ∀ f ∈ fs, f.extended = false ∧ f.Closed closed) ∧
    (∀ i f, fs[i]? = some f → (f.extended = true ↔ Struct.base fs ≤ i))
  | .union fs => ∀ f ∈ fs, f.ArrayOk closed ∧ f.extended = false ∧ (isClosed = true → f.Closed closed)
  | .choice _ cases default =>
    (∀ k ∈ cases, ∀ f, k.field = some f → f.ArrayOk closed ∧ f.extended = false ∧ (isClosed = true → f.Closed closed)) ∧
    (∀ f, default = some (some f) → f.ArrayOk closed ∧ f.extended = false ∧ (isClosed = true → f.Closed closed))

/-- the schema satisfies the layout rules -/
def Schema.Layout (defs : Schema) (closed : Nat → Bool) : Prop := ∀ id, (defs id).Layout closed (closed id)

end Zserio
