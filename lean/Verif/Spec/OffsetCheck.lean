import Verif.Model.OffsetCheck
import Verif.Spec.Offsets
/-
Which schemas the theorems about the checks for offsets are about.
-/
namespace Zserio.OffsetCheck

/-- The field at this place of this structure. -/
def XSchema.FieldAt (S : XSchema) (id i : Nat) (f : XField) : Prop :=
  ∃ fs fns, S[id]? = some ⟨.struct fs, fns⟩ ∧ fs[i]? = some f

/-- Every offset is a field of the structure in which it is used: `off: T f`, `offs[@index]: T f[]`. -/
def XSchema.OwnOffsets (S : XSchema) : Prop :=
  ∀ id i f e, S.FieldAt id i f → f.offset = some e → (∃ o, e = .field o) ∨ ∃ o, e = .element (.field o) .index

/-- Fields which are used as offsets are there: neither optional nor extended. -/
def XSchema.OffsetsPresent (S : XSchema) : Prop :=
  ∀ id i f o g, S.FieldAt id i f → (f.offset = some (.field o) ∨ f.offset = some (.element (.field o) .index)) →
    S.FieldAt id o g → g.optional = .required ∧ g.extended = false

/-- The expression belongs to the field: the length of its bit field, an argument, the length of its array, its clause or its
constraint. -/
def XField.Uses (f : XField) (e : XExpr) : Prop :=
  (∃ signed, f.type = .dynBits signed e) ∨ (∃ id args, f.type = .compound id args ∧ e ∈ args) ∨
    (∃ isPacked, f.array = some (.fixed e, isPacked)) ∨ f.optional = .clause e ∨ f.constraint = some e

/-- The expression, in the structure `self`, names field `j` of the structure `id`. -/
def XExpr.Names (self : Nat) (e : XExpr) (id j : Nat) : Prop := (e = .field j ∧ id = self) ∨ ∃ a, e = .dot a id j

/-- The expression, in the compound `self`, uses field `j` of the structure `id`, wherever in it. -/
def XExpr.Mentions (self : Nat) (id j : Nat) : XExpr → Prop
  | .const _ _ _ | .param _ _ | .index | .call _ => False
  | .field i => self = id ∧ i = j
  | .dot e id' j' => (id' = id ∧ j' = j) ∨ e.Mentions self id j
  | .dotParam e _ _ | .dotCall e _ _ | .lengthof e | .op1 _ e => e.Mentions self id j
  | .element a b | .op2 _ a b => a.Mentions self id j ∨ b.Mentions self id j
  | .op3 _ a b c => a.Mentions self id j ∨ b.Mentions self id j ∨ c.Mentions self id j

/-- A path to a field without brackets. -/
inductive XExpr.Plain : XExpr → Prop
  | const {b v} : Plain (.const true b v)
  | param {b i} : Plain (.param b i)
  | field {i} : Plain (.field i)
  | dot {e id j} : Plain e → Plain (.dot e id j)
  | dotParam {e id i} : Plain e → Plain (.dotParam e id i)

/-- A path to a field with `[@index]` at one place. -/
inductive XExpr.Indexed : XExpr → Prop
  | element {e} : XExpr.Plain e → Indexed (.element e .index)
  | dot {e id j} : Indexed e → Indexed (.dot e id j)
  | dotParam {e id i} : Indexed e → Indexed (.dotParam e id i)

end Zserio.OffsetCheck
