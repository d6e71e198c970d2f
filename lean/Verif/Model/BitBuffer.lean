import Verif.Model.BitSizeOf
import Verif.Model.Utf8
/-
Model of zserio/bitposition.py, zserio/hashcode.py (integer part), zserio/bitbuffer.py and the non-integer part
of zserio/bitsizeof.py.
-/
namespace Zserio

/-- bitposition.py:8-20 `alignto` -/
def alignTo (alignmentValue bitposition : Int) : Int :=
  if bitposition ≤ 0 ∨ alignmentValue = 0 then bitposition
  else (Int.fdiv (bitposition - 1) alignmentValue + 1) * alignmentValue

/-- bitposition.py:23-35 `bits_to_bytes` -/
def bitsToBytes (numbits : Int) : Except Err Int :=
  if Int.fmod numbits 8 ≠ 0 then .error .notByteAligned else .ok (Int.fdiv numbits 8)

/-- bitposition.py:38-46 `bytes_to_bits` -/
def bytesToBits (numBytes : Int) : Int := numBytes * 8

/-- bitposition.py:49-57 `bitsize_to_bytesize` -/
def bitsizeToBytesize (bitsize : Int) : Int := Int.fdiv (bitsize + 7) 8

/-- hashcode.py:9 -/
def HASH_SEED : Int := 23
/-- hashcode.py:10 -/
def HASH_PRIME_NUMBER : Int := 37

/-- hashcode.py:37, `(HASH_PRIME_NUMBER * seed_value + value) & 0xFFFFFFFF` (Python's `& 0xFFFFFFFF` is reduction
modulo 2^32, also for negative numbers). -/
def calcHashInt32 (seed value : Int) : Int := Int.fmod (HASH_PRIME_NUMBER * seed + value) (2 ^ 32)

/-- bitbuffer.py:14-39: a bit buffer object. -/
structure BitBuffer where
  /-- `_buffer` -/
  buffer : List UInt8
  /-- `_bitsize` -/
  bitsize : Int
  deriving DecidableEq, Repr

namespace BitBuffer

/-- bitbuffer.py:22-39 `__init__` -/
def make (buffer : List UInt8) (bitsize : Option Int := none) : Except Err BitBuffer :=
  match bitsize with
  | none => .ok ⟨buffer, (buffer.length : Int) * 8⟩
  | some bs => if (buffer.length : Int) * 8 < bs then .error .bitsize else .ok ⟨buffer, bs⟩

/-- bitbuffer.py:91-99 `_masked_last_byte`.  An out of range index is an `IndexError` in Python; it cannot happen for
a bit size in 1..8*len.  Python's negative index `-1` (bit size 0) is never used: both callers check
`bytesize > 0`. -/
def maskedLastByte (b : BitBuffer) : Except Err Nat :=
  let rounded := Int.fdiv b.bitsize 8
  let lastByteBits := b.bitsize - 8 * rounded
  if lastByteBits = 0 then
    match b.buffer[(rounded - 1).toNat]? with
    | some x => .ok x.toNat
    | none => .error .index
  else
    match b.buffer[rounded.toNat]? with
    | some x => .ok (x.toNat &&& (0xFF <<< (8 - lastByteBits).toNat))
    | none => .error .index

/-- bitbuffer.py:41-57 `__eq__` for another `BitBuffer` (other classes compare unequal). -/
def eq (a b : BitBuffer) : Except Err Bool :=
  if a.bitsize ≠ b.bitsize then .ok false
  else
    let bytesize := bitsizeToBytesize a.bitsize
    if bytesize > 0 then
      if bytesize > 1 ∧ pySlice a.buffer 0 (bytesize - 1).toNat ≠ pySlice b.buffer 0 (bytesize - 1).toNat then
        .ok false
      else do
        let x ← a.maskedLastByte
        let y ← b.maskedLastByte
        if x ≠ y then .ok false else .ok true
    else .ok true

/-- bitbuffer.py:59-69 `__hash__` -/
def hash (b : BitBuffer) : Except Err Int :=
  let bytesize := bitsizeToBytesize b.bitsize
  if bytesize > 0 then do
    let result :=
      if bytesize > 1 then
        (pySlice b.buffer 0 (bytesize - 1).toNat).foldl (fun r e => calcHashInt32 r (e.toNat : Int)) HASH_SEED
      else HASH_SEED
    let last ← b.maskedLastByte
    .ok (calcHashInt32 result (last : Int))
  else .ok HASH_SEED

end BitBuffer

/-- bitsizeof.py:122-130 `bitsizeof_bytes` -/
def bitsizeofBytes (value : List UInt8) : Except Err Nat := do
  let n ← bitsizeofVarsize (value.length : Int)
  .ok (n + value.length * 8)

/-- bitsizeof.py:133-142 `bitsizeof_string` -/
def bitsizeofString (s : PyStr) : Except Err Nat := do
  let bs ← utf8Encode s
  let n ← bitsizeofVarsize (bs.length : Int)
  .ok (n + bs.length * 8)

/-- bitsizeof.py:145-156 `bitsizeof_bitbuffer` (a negative bit size is rejected by `bitsizeof_varsize`) -/
def bitsizeofBitBuffer (b : BitBuffer) : Except Err Nat := do
  let n ← bitsizeofVarsize b.bitsize
  .ok (n + b.bitsize.toNat)

end Zserio
