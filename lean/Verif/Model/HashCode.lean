import Verif.Model.BitBuffer
import Verif.Model.Float
/-
Model of zserio/hashcode.py.  `None` is `Option.none`.
-/
namespace Zserio

/-- hashcode.py:25-37 `calc_hashcode_int32` -/
def hashInt32 (seed : Int) : Option Int → Int
  | none => calcHashInt32 seed 0
  | some v => calcHashInt32 seed v

/-- hashcode.py:13-22 `calc_hashcode_bool`; `None` is falsy. -/
def hashBool (seed : Int) : Option Bool → Int
  | some true => hashInt32 seed (some 1)
  | _ => hashInt32 seed (some 0)

/-- hashcode.py:40-53 `calc_hashcode_int64` -/
def hashInt64 (seed : Int) : Option Int → Int
  | none => hashInt32 seed (some 0)
  | some v =>
    let intValueForHash := (Int.fmod v (2 ^ 32)).toNat ^^^ ((Int.fmod v (2 ^ 64)).toNat >>> 32)
    Int.fmod (HASH_PRIME_NUMBER * seed + intValueForHash) (2 ^ 32)

/-- hashcode.py:56-69 `calc_hashcode_float32`; raises if the float is too big for single precision. -/
def hashFloat32 (seed : Int) : Option PyFloat → Except Err Int
  | none => .ok (hashInt32 seed (some 0))
  | some x => do
    let intValue ← floatToUint32 x
    .ok (hashInt32 seed (some (intValue : Int)))

/-- hashcode.py:72-85 `calc_hashcode_float64` -/
def hashFloat64 (seed : Int) : Option PyFloat → Int
  | none => hashInt32 seed (some 0)
  | some x => hashInt64 seed (some (floatToUint64 x : Int))

/-- The loop `for element in value: result = f(result, element)` shared by the sequence hashes. -/
def hashFold {α : Type} (f : Int → α → Int) (seed : Int) : Option (List α) → Int
  | none => hashInt32 seed (some 0)
  | some l => l.foldl f seed

/-- hashcode.py:88-104 `calc_hashcode_bytes` -/
def hashBytes (seed : Int) (value : Option (List UInt8)) : Int :=
  hashFold (fun r (e : UInt8) => hashInt32 r (some (e.toNat : Int))) seed value
/-- hashcode.py:107-123 `calc_hashcode_string` -/
def hashString (seed : Int) (value : Option PyStr) : Int :=
  hashFold (fun r (e : Nat) => hashInt32 r (some (e : Int))) seed value

/-- hashcode.py:126-139 `calc_hashcode_object`; the argument is the object's `__hash__()`, `none` for `None`.  (The source
tests truthiness: the only class with `__bool__` or `__len__` is `Array` (array.py:154-155), so that the falsy values are
`None` and empty arrays, for which the caller passes `none`.) -/
def hashObject (seed : Int) : Option Int → Int
  | none => hashInt32 seed (some 0)
  | some h => hashInt32 seed (some h)

/-- hashcode.py:142-157 -/
def hashBoolArray (seed : Int) (value : Option (List Bool)) : Int :=
  hashFold (fun r e => hashBool r (some e)) seed value
/-- hashcode.py:160-175 `calc_hashcode_int_array` (uses the 32-bit hash for all integers) -/
def hashIntArray (seed : Int) (value : Option (List Int)) : Int :=
  hashFold (fun r e => hashInt32 r (some e)) seed value
/-- hashcode.py:178-193 -/
def hashFloat32Array (seed : Int) : Option (List PyFloat) → Except Err Int
  | none => .ok (hashInt32 seed (some 0))
  | some l => l.foldlM (fun r e => hashFloat32 r (some e)) seed
/-- hashcode.py:196-211 -/
def hashFloat64Array (seed : Int) (value : Option (List PyFloat)) : Int :=
  hashFold (fun r e => hashFloat64 r (some e)) seed value
/-- hashcode.py:214-229 -/
def hashBytesArray (seed : Int) (value : Option (List (List UInt8))) : Int :=
  hashFold (fun r e => hashBytes r (some e)) seed value
/-- hashcode.py:232-247 -/
def hashStringArray (seed : Int) (value : Option (List PyStr)) : Int :=
  hashFold (fun r e => hashString r (some e)) seed value
/-- hashcode.py:250-268 -/
def hashObjectArray (seed : Int) (value : Option (List Int)) : Int :=
  hashFold (fun r e => hashObject r (some e)) seed value

end Zserio
