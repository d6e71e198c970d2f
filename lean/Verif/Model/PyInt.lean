import Verif.Model.Base
/-
Python integer / bytes primitives used by the runtime.
-/
namespace Zserio

/-- The `len` big-endian base-256 digits of a natural number (taken modulo 256^len). -/
def natToBytes : Nat → Nat → List UInt8
  | 0, _ => []
  | len + 1, v => UInt8.ofNat (v >>> (8 * len)) :: natToBytes len v

/-- Python `value.to_bytes(len, byteorder="big", signed=signed)`: raises `OverflowError` if the value does not
fit, otherwise the big-endian (two's complement if signed) bytes. -/
def intToBytes (value : Int) (len : Nat) (signed : Bool) : Except Err (List UInt8) :=
  if signed then
    if -((2 : Int) ^ (8 * len)) ≤ 2 * value ∧ 2 * value < (2 : Int) ^ (8 * len) then
      .ok (natToBytes len (value % (2 : Int) ^ (8 * len)).toNat)
    else .error .overflow
  else
    if 0 ≤ value ∧ value < (2 : Int) ^ (8 * len) then
      .ok (natToBytes len value.toNat)
    else .error .overflow

/-- Python `int.from_bytes(bytes, byteorder="big", signed=False)`. -/
def natFromBytes (bs : List UInt8) : Nat := bs.foldl (fun acc b => acc * 256 + b.toNat) 0

/-- Python `int.bit_length()`: number of bits of the absolute value, 0 for 0. -/
def bitLength (v : Int) : Nat := if v.natAbs = 0 then 0 else v.natAbs.log2 + 1

/-- Python slice `b[start:stop]` with non-negative bounds. -/
def pySlice {α : Type} (l : List α) (start stop : Nat) : List α := (l.take stop).drop start

end Zserio
