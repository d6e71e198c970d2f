import Verif.Spec.Array
import Verif.Spec.Calls
import Verif.Model.PackedArray
/-
Specification vocabulary for packed arrays: the integral element types.
-/
namespace Zserio

/-- The integral element types (also the underlying types of enumerations and bitmasks): the packable ones. -/
inductive IntKind where
  | bitField (numbits : Nat)
  | signedBitField (numbits : Nat)
  | var (t : VarType)
  deriving DecidableEq, Repr

namespace IntKind

/-- The array traits. -/
def traits : IntKind → Traits Int
  | bitField n => Traits.bitField n
  | signedBitField n => Traits.signedBitField n
  | var t => Traits.var t

/-- The values of the type. -/
def InRange : IntKind → Int → Prop
  | bitField n, v => (1 ≤ n ∧ n ≤ 64) ∧ 0 ≤ v ∧ v < 2 ^ n
  | signedBitField n, v => (1 ≤ n ∧ n ≤ 64) ∧ -(2 ^ (n - 1)) ≤ v ∧ v < 2 ^ (n - 1)
  | var t, v => t.InRange v

instance (k : IntKind) (v : Int) : Decidable (k.InRange v) := by
  cases k <;> unfold InRange <;> infer_instance

end IntKind
end Zserio
