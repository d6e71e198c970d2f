import Verif.Model.BitBuffer
/-
Model of zserio/builtin.py and zserio/bitfield.py.
-/
namespace Zserio

/-- builtin.py:22-37 `numbits` (a number of values is non-negative). -/
def numbits (numValues : Nat) : Nat :=
  if numValues = 0 then 0
  else if numValues = 1 then 1
  else bitLength ((numValues : Int) - 1)

/-- builtin.py:40-48 `lengthof_string` -/
def lengthofString (s : PyStr) : Except Err Nat := do
  let bs ← utf8Encode s
  .ok bs.length

/-- bitfield.py:65 -/
def MAX_BITFIELD_BITS : Int := 64

/-- bitfield.py:60-62 `_check_bitfield_length` -/
def checkBitfieldLength (length : Int) : Except Err Unit :=
  if length ≤ 0 ∨ length > MAX_BITFIELD_BITS then .error .bitfieldLength else .ok ()

/-- bitfield.py:8-18 -/
def bitfieldLowerbound (length : Int) : Except Err Int := do
  checkBitfieldLength length
  .ok 0
/-- bitfield.py:21-31 -/
def bitfieldUpperbound (length : Int) : Except Err Int := do
  checkBitfieldLength length
  .ok (2 ^ length.toNat - 1)
/-- bitfield.py:34-44 -/
def signedBitfieldLowerbound (length : Int) : Except Err Int := do
  checkBitfieldLength length
  .ok (-(2 ^ (length - 1).toNat))
/-- bitfield.py:47-57 -/
def signedBitfieldUpperbound (length : Int) : Except Err Int := do
  checkBitfieldLength length
  .ok (2 ^ (length - 1).toNat - 1)

end Zserio
