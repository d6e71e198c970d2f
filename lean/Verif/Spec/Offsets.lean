import Verif.Spec.Compound
/-
Specification vocabulary for offsets: which objects differ only in offset fields, and the rules of the compiler for fields used
as offsets.
-/
namespace Zserio

/-- the fields used as offsets (by number) -/
def Struct.targets (fs : List FieldDef) : List Nat := fs.filterMap fun f => f.offset.map (·.field)

/-- the values differ only in the offset fields of nested objects -/
def ElemType.Same (same : Nat → Val → Val → Prop) : ElemType → Val → Val → Prop
  | .compound id _, v, v' => same id v v'
  | _, v, v' => v' = v

/-- The values of the field differ only in offsets.  `target` tells whether the field is used as an offset. -/
def FieldDef.Same (same : Nat → Val → Val → Prop) (target : Bool) (f : FieldDef) (v v' : Val) : Prop :=
  v' = v ∨
    match f.array with
    | none => if target then True else f.type.Same same v v'
    | some _ => ∃ xs xs', v = .arr xs ∧ v' = .arr xs' ∧
        if target then xs'.length = xs.length else Elementwise (fun _ => f.type.Same same) 0 xs xs'

/-- The fields (or the first of them) differ only in offsets. -/
def Struct.SameFields (same : Nat → Val → Val → Prop) (targets : List Nat) (fs : List FieldDef) (vs vs' : List Val) : Prop :=
  vs'.length = vs.length ∧ ∀ i (f : FieldDef) v v', fs[i]? = some f → vs[i]? = some v → vs'[i]? = some v' →
    f.Same same (decide (i ∈ targets)) v v'

/-- the objects of the compound differ only in offsets -/
def CompoundDef.Same (same : Nat → Val → Val → Prop) : CompoundDef → Val → Val → Prop
  | .struct fs, .obj ps k tag vs, .obj ps' k' tag' vs' =>
    ps' = ps ∧ k' = k ∧ tag' = tag ∧ Struct.SameFields same (Struct.targets fs) fs vs vs'
  | .union fs, .obj ps k tag [v], .obj ps' k' tag' [v'] =>
    ps' = ps ∧ k' = k ∧ tag' = tag ∧ ∀ f, Union.select fs tag = .ok f → f.Same same false v v'
  | .choice selector cases default, .obj ps k tag [v], .obj ps' k' tag' [v'] =>
    ps' = ps ∧ k' = k ∧ tag' = tag ∧ ∀ f slot, Choice.select selector cases default ps = .ok (f, slot) →
      match f with
      | some f => f.Same same false v v'
      | none => v' = v
  | _, _, _ => False

/-- **The objects of the compound `id` differ only in offsets.** -/
def Schema.Same (defs : Schema) : (n : Nat) → (id : Nat) → Val → Val → Prop
  | 0, _, _, _ => False
  | n + 1, id, x, x' => (defs id).Same (defs.Same n) x x'

/-! ### The rules of the compiler -/

/-- An expression does not use fields used as offsets (ExpressionUtil.java:76-92), and only offset checks raise the error of a
wrong offset. -/
def Expr.IgnoresOffsets {α : Type} (same : Nat → Val → Val → Prop) (targets : List Nat) (fs : List FieldDef) (e : Expr α) : Prop :=
  (∀ params prior prior' index, Struct.SameFields same targets fs prior prior' →
    e ⟨params, prior', index⟩ = e ⟨params, prior, index⟩) ∧ ∀ env, e env ≠ .error .offset

/-- Expressions of a field do not use offset fields (Field.java:307, 317, ParameterizedTypeInstantiation.java:178,
DynamicBitFieldInstantiation.java:170, ArrayInstantiation.java:163). -/
structure FieldDef.OffsetRules (same : Nat → Val → Val → Prop) (targets : List Nat) (fs : List FieldDef) (f : FieldDef) : Prop where
  clause : ∀ e, f.optional = .clause e → e.IgnoresOffsets same targets fs
  bits : ∀ signed e, f.type = .dynBits signed e → e.IgnoresOffsets same targets fs
  args : ∀ id args, f.type = .compound id args → ∀ e ∈ args, e.IgnoresOffsets same targets fs
  length : ∀ e isPacked, f.array = some ⟨.fixed e, isPacked⟩ → ∀ env, e env ≠ .error .offset
  constraint : ∀ e, f.constraint = some e → ∀ env, e env ≠ .error .offset

/-- A field that can be used as an offset: an unsigned integer of a fixed size or an array of them (Field.java:378-412), never
packed (Field.java:231-263); it has to be there. -/
def FieldDef.OffsetField (indexed : Bool) (f : FieldDef) : Prop :=
  (∃ n, f.type = .int (.bitField n)) ∧ f.optional = .required ∧ f.extended = false ∧ f.packable = false ∧
    f.array.isSome = indexed

/-- The rules for offsets: they are earlier fields that can be used as offsets, each is used once, and expressions do not use
them.  Fields of unions and choices have no offsets (no earlier field is there). -/
def CompoundDef.OffsetRules (same : Nat → Val → Val → Prop) : CompoundDef → Prop
  | .struct fs =>
    (∀ f ∈ fs, f.OffsetRules same (Struct.targets fs) fs) ∧
    (∀ i (f : FieldDef) (o : OffsetRef), fs[i]? = some f → f.offset = some o → o.field < i ∧ ∃ g : FieldDef, fs[o.field]? = some g ∧ g.OffsetField o.indexed) ∧
    (Struct.targets fs).Nodup
  | .union fs => ∀ f ∈ fs, f.offset = none ∧ f.OffsetRules same [] []
  | .choice selector cases default =>
    (∀ env, selector env ≠ .error .offset) ∧
    (∀ k ∈ cases, ∀ f, k.field = some f → f.offset = none ∧ f.OffsetRules same [] []) ∧
    (∀ f, default = some (some f) → f.offset = none ∧ f.OffsetRules same [] [])

/-- the schema satisfies the rules for offsets -/
def Schema.OffsetRules (defs : Schema) : Prop := ∀ n id, (defs id).OffsetRules (defs.Same n)

end Zserio
