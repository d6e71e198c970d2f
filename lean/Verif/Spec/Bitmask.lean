import Verif.Model.Bitmask
/-
Specification vocabulary for bitmasks: the bit positions of a type and the set of positions a bitmask stands for.
-/
namespace Zserio

namespace BitmaskDef

/-- The number of bits a value of the underlying type can hold; only unsigned types are allowed. -/
def width (d : BitmaskDef) : Option Nat :=
  match d.underlying with
  | .bitField n => if 1 ≤ n ∧ n ≤ 64 then some n else none
  | .var .varuint16 => some 15
  | .var .varuint32 => some 29
  | .var .varuint64 => some 57
  | .var .varuint => some 64
  | .var .varsize => some 31
  | _ => none

end BitmaskDef

namespace Bitmask
variable {d : BitmaskDef}

/-- The bit number `i` (of weight `2 ^ i`) is set. -/
def Has (a : Bitmask d) (i : Nat) : Prop := a.value / 2 ^ i % 2 = 1

/-- The value is one of the underlying type. -/
def Valid (a : Bitmask d) : Prop := d.underlying.InRange a.value

end Bitmask
end Zserio
