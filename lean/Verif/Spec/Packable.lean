import Verif.Model.Packable
/-
Which types can be packed, and which types are used in packed arrays.
-/
namespace Zserio.Packable

/-- the field is not an implicit array -/
def Field.Explicit (f : Field) : Prop := ∀ a, f.array = some a → a.isImplicit = false

/-- Integers, enumerations and bitmasks can be packed, unions with fields (because of their tags), and compounds with a field which can be
packed: it is not used as an offset, it is no implicit array, and its type can be packed. -/
inductive PackableType (defs : Nat → Compound) : Base → Prop
  | integer : PackableType defs .integer
  | item (i : Nat) : PackableType defs (.item i)
  | union {c : Nat} (hu : (defs c).isUnion = true) (hf : (defs c).fields ≠ []) : PackableType defs (.compound c)
  | field {c : Nat} {f : Field} (hf : f ∈ (defs c).fields) (ho : f.usedAsOffset = false) (he : f.Explicit)
      (ht : PackableType defs f.base) : PackableType defs (.compound c)

/-- the field can be packed -/
def PackableField (defs : Nat → Compound) (f : Field) : Prop :=
  f.usedAsOffset = false ∧ f.Explicit ∧ PackableType defs f.base

/-- no type contains itself through other types; the compiler refuses others (C82) -/
def Ranked (defs : Nat → Compound) (rank : Nat → Nat) : Prop :=
  ∀ c, ∀ f ∈ (defs c).fields, ∀ d, f.base = .compound d → d ≠ c → rank d < rank c

/-- The type is found inside objects of `c` in a packed array; `within`: the object itself is in a packed array.  Objects inside objects of
the same type are left out. -/
inductive InPacked (defs : Nat → Compound) : Bool → Nat → Base → Prop
  | here {within : Bool} {c : Nat} {f : Field} (hf : f ∈ (defs c).fields) (h : within = true ∨ f.isPacked = true) :
      InPacked defs within c f.base
  | inside {within : Bool} {c d : Nat} {f : Field} {t : Base} (hf : f ∈ (defs c).fields) (h : within = true ∨ f.isPacked = true)
      (hd : f.base = .compound d) (hne : d ≠ c) (ht : InPacked defs true d t) : InPacked defs within c t

end Zserio.Packable
