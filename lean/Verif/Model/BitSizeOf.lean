import Verif.Model.PyInt
/-
Model of zserio/limits.py and the integer part of zserio/bitsizeof.py.
-/
namespace Zserio

/-- limits.py:12 -/
def INT64_MIN : Int := -(2 ^ 63)

/-- limits.py:5-41, the limits of the variable-length types. -/
def VARINT16_MAX : Int := 2 ^ (6 + 8) - 1
def VARINT16_MIN : Int := -VARINT16_MAX
def VARINT32_MAX : Int := 2 ^ (6 + 7 + 7 + 8) - 1
def VARINT32_MIN : Int := -VARINT32_MAX
def VARINT64_MAX : Int := 2 ^ (6 + 7 + 7 + 7 + 7 + 7 + 7 + 8) - 1
def VARINT64_MIN : Int := -VARINT64_MAX
def VARINT_MAX : Int := 2 ^ 63 - 1
def VARINT_MIN : Int := INT64_MIN
def VARUINT16_MAX : Int := 2 ^ (7 + 8) - 1
def VARUINT32_MAX : Int := 2 ^ (7 + 7 + 7 + 8) - 1
def VARUINT64_MAX : Int := 2 ^ (7 + 7 + 7 + 7 + 7 + 7 + 7 + 8) - 1
def VARUINT_MAX : Int := 2 ^ 64 - 1
def VARUINT16_MIN : Int := 0
def VARUINT32_MIN : Int := 0
def VARUINT64_MIN : Int := 0
def VARUINT_MIN : Int := 0
def VARSIZE_MIN : Int := 0
def VARSIZE_MAX : Int := 2 ^ (2 + 7 + 7 + 7 + 8) - 1

/-- bitsizeof.py:169 -/
def VARINT16_MAX_VALUES : List Nat := [2 ^ 6 - 1, 2 ^ (6 + 8) - 1]
/-- bitsizeof.py:171-176 -/
def VARINT32_MAX_VALUES : List Nat :=
  [2 ^ 6 - 1, 2 ^ (6 + 7) - 1, 2 ^ (6 + 7 + 7) - 1, 2 ^ (6 + 7 + 7 + 8) - 1]
/-- bitsizeof.py:178-187 -/
def VARINT64_MAX_VALUES : List Nat :=
  [2 ^ 6 - 1, 2 ^ (6 + 7) - 1, 2 ^ (6 + 7 + 7) - 1, 2 ^ (6 + 7 + 7 + 7) - 1,
   2 ^ (6 + 7 + 7 + 7 + 7) - 1, 2 ^ (6 + 7 + 7 + 7 + 7 + 7) - 1, 2 ^ (6 + 7 + 7 + 7 + 7 + 7 + 7) - 1,
   2 ^ (6 + 7 + 7 + 7 + 7 + 7 + 7 + 8) - 1]
/-- bitsizeof.py:189-199 -/
def VARINT_MAX_VALUES : List Nat :=
  [2 ^ 6 - 1, 2 ^ (6 + 7) - 1, 2 ^ (6 + 7 + 7) - 1, 2 ^ (6 + 7 + 7 + 7) - 1,
   2 ^ (6 + 7 + 7 + 7 + 7) - 1, 2 ^ (6 + 7 + 7 + 7 + 7 + 7) - 1, 2 ^ (6 + 7 + 7 + 7 + 7 + 7 + 7) - 1,
   2 ^ (6 + 7 + 7 + 7 + 7 + 7 + 7 + 7) - 1, 2 ^ (6 + 7 + 7 + 7 + 7 + 7 + 7 + 7 + 8) - 1]
/-- bitsizeof.py:201 -/
def VARUINT16_MAX_VALUES : List Nat := [2 ^ 7 - 1, 2 ^ (7 + 8) - 1]
/-- bitsizeof.py:203-208 -/
def VARUINT32_MAX_VALUES : List Nat :=
  [2 ^ 7 - 1, 2 ^ (7 + 7) - 1, 2 ^ (7 + 7 + 7) - 1, 2 ^ (7 + 7 + 7 + 8) - 1]
/-- bitsizeof.py:210-219 -/
def VARUINT64_MAX_VALUES : List Nat :=
  [2 ^ 7 - 1, 2 ^ (7 + 7) - 1, 2 ^ (7 + 7 + 7) - 1, 2 ^ (7 + 7 + 7 + 7) - 1,
   2 ^ (7 + 7 + 7 + 7 + 7) - 1, 2 ^ (7 + 7 + 7 + 7 + 7 + 7) - 1, 2 ^ (7 + 7 + 7 + 7 + 7 + 7 + 7) - 1,
   2 ^ (7 + 7 + 7 + 7 + 7 + 7 + 7 + 8) - 1]
/-- bitsizeof.py:221-231 -/
def VARUINT_MAX_VALUES : List Nat :=
  [2 ^ 7 - 1, 2 ^ (7 + 7) - 1, 2 ^ (7 + 7 + 7) - 1, 2 ^ (7 + 7 + 7 + 7) - 1,
   2 ^ (7 + 7 + 7 + 7 + 7) - 1, 2 ^ (7 + 7 + 7 + 7 + 7 + 7) - 1, 2 ^ (7 + 7 + 7 + 7 + 7 + 7 + 7) - 1,
   2 ^ (7 + 7 + 7 + 7 + 7 + 7 + 7 + 7) - 1, 2 ^ (7 + 7 + 7 + 7 + 7 + 7 + 7 + 7 + 8) - 1]
/-- bitsizeof.py:233-239 -/
def VARSIZE_MAX_VALUES : List Nat :=
  [2 ^ 7 - 1, 2 ^ (7 + 7) - 1, 2 ^ (7 + 7 + 7) - 1, 2 ^ (7 + 7 + 7 + 7) - 1, 2 ^ (2 + 7 + 7 + 7 + 8) - 1]

/-- The `for i, max_value in enumerate(max_values)` loop of `_bitsizeof_varnum`, bitsizeof.py:162-166. -/
def bitsizeofVarnumLoop (absValue : Nat) : Nat → List Nat → Except Err Nat
  | _, [] => .error .varRange
  | i, maxValue :: rest =>
    if absValue ≤ maxValue then .ok ((i + 1) * 8) else bitsizeofVarnumLoop absValue (i + 1) rest

/-- `_bitsizeof_varnum`, bitsizeof.py:159-166. -/
def bitsizeofVarnum (value : Int) (maxValues : List Nat) : Except Err Nat :=
  if 0 ≤ value then bitsizeofVarnumLoop value.natAbs 0 maxValues else .error .varRange

/-- bitsizeof.py:12-21 (`abs(value)` is passed down) -/
def bitsizeofVarint16 (value : Int) : Except Err Nat := bitsizeofVarnum value.natAbs VARINT16_MAX_VALUES
/-- bitsizeof.py:24-33 -/
def bitsizeofVarint32 (value : Int) : Except Err Nat := bitsizeofVarnum value.natAbs VARINT32_MAX_VALUES
/-- bitsizeof.py:36-45 -/
def bitsizeofVarint64 (value : Int) : Except Err Nat := bitsizeofVarnum value.natAbs VARINT64_MAX_VALUES
/-- bitsizeof.py:48-59 -/
def bitsizeofVarint (value : Int) : Except Err Nat :=
  if value = INT64_MIN then .ok 8 else bitsizeofVarnum value.natAbs VARINT_MAX_VALUES
/-- bitsizeof.py:62-71 -/
def bitsizeofVaruint16 (value : Int) : Except Err Nat := bitsizeofVarnum value VARUINT16_MAX_VALUES
/-- bitsizeof.py:74-83 -/
def bitsizeofVaruint32 (value : Int) : Except Err Nat := bitsizeofVarnum value VARUINT32_MAX_VALUES
/-- bitsizeof.py:86-95 -/
def bitsizeofVaruint64 (value : Int) : Except Err Nat := bitsizeofVarnum value VARUINT64_MAX_VALUES
/-- bitsizeof.py:98-107 -/
def bitsizeofVaruint (value : Int) : Except Err Nat := bitsizeofVarnum value VARUINT_MAX_VALUES
/-- bitsizeof.py:110-119 -/
def bitsizeofVarsize (value : Int) : Except Err Nat := bitsizeofVarnum value VARSIZE_MAX_VALUES

end Zserio
