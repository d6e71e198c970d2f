import Verif.Spec.Bits
/-
Specification of the wire format of the variable-length integers, independent of the implementation.
-/
namespace Zserio

/-- The nine variable-length integer types of the schema language. -/
inductive VarType where
  | varint16 | varint32 | varint64 | varint
  | varuint16 | varuint32 | varuint64 | varuint
  | varsize
  deriving DecidableEq, Repr

namespace VarType

/-- Is the type signed (sign and magnitude representation)? -/
def signed : VarType → Bool
  | varint16 | varint32 | varint64 | varint => true
  | _ => false

/-- Largest number of bytes of a representation. -/
def maxBytes : VarType → Nat
  | varint16 | varuint16 => 2
  | varint32 | varuint32 => 4
  | varint64 | varuint64 => 8
  | varint | varuint => 9
  | varsize => 5

/-- Smallest value of the type. -/
def lo : VarType → Int
  | varint16 => -(2 ^ 14 - 1)
  | varint32 => -(2 ^ 28 - 1)
  | varint64 => -(2 ^ 56 - 1)
  | varint => -(2 ^ 63)
  | _ => 0

/-- Largest value of the type. -/
def hi : VarType → Int
  | varint16 => 2 ^ 14 - 1
  | varint32 => 2 ^ 28 - 1
  | varint64 => 2 ^ 56 - 1
  | varint => 2 ^ 63 - 1
  | varuint16 => 2 ^ 15 - 1
  | varuint32 => 2 ^ 29 - 1
  | varuint64 => 2 ^ 57 - 1
  | varuint => 2 ^ 64 - 1
  | varsize => 2 ^ 31 - 1

/-- The value belongs to the type. -/
def InRange (t : VarType) (v : Int) : Prop := t.lo ≤ v ∧ v ≤ t.hi

instance (t : VarType) (v : Int) : Decidable (t.InRange v) := inferInstanceAs (Decidable (_ ∧ _))

/-- Number of magnitude bits an `n` byte representation can hold: seven per byte, one less for the sign, one more
when the representation has the maximal length (no continuation flag in the last byte then). -/
def capacity (t : VarType) (n : Nat) : Nat :=
  7 * n - (if t.signed then 1 else 0) + (if n = t.maxBytes then 1 else 0)

/-- Least number of bytes (between 1 and `maxBytes`) whose capacity suffices for the magnitude. -/
def numBytes (t : VarType) (v : Int) : Nat :=
  (((List.range t.maxBytes).map (· + 1)).find? (fun n => v.natAbs < 2 ^ t.capacity n)).getD 0

end VarType

/-- `n` groups of payload bits, each but the last of seven bits preceded by the continuation flag 1; the last group is
preceded by the flag 0 unless the representation has the maximal length, in which case it has eight payload bits. -/
def varGroups (isMax : Bool) : Nat → List Bool → List Bool
  | 0, _ => []
  | 1, p => if isMax then p else false :: p
  | n + 2, p => true :: (p.take 7 ++ varGroups isMax (n + 1) (p.drop 7))

/-- Signed representation: sign bit, then the continuation flag and six payload bits in the first byte. -/
def varGroupsSigned (isMax : Bool) (neg : Bool) : Nat → List Bool → List Bool
  | 0, _ => []
  | 1, p => neg :: false :: p
  | n + 2, p => neg :: true :: (p.take 6 ++ varGroups isMax (n + 1) (p.drop 6))

namespace VarType

/-- The representation of a value of the type: the groups of the magnitude in big-endian order.
`varint` represents its minimum -2^63 as "minus zero". -/
def encode (t : VarType) (v : Int) : List Bool :=
  if t = .varint ∧ v = -(2 ^ 63) then true :: zeros 7
  else
    let n := t.numBytes v
    let payload := natBits (t.capacity n) v.natAbs
    if t.signed then varGroupsSigned (decide (n = t.maxBytes)) (decide (v < 0)) n payload
    else varGroups (decide (n = t.maxBytes)) n payload

end VarType
end Zserio
