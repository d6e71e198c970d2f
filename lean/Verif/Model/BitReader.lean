import Verif.Model.BitBuffer
import Verif.Model.Float
/-
Model of zserio/bitreader.py (class BitStreamReader, pure Python version).
-/
namespace Zserio

/-- bitreader.py:40-42: `_buffer`, `_bitsize`, `_bitposition`.  The position is a natural number: it starts at 0, reads
only increase it and the `bitposition` setter rejects negative values (bitreader.py:602-603). -/
structure Reader where
  buffer : List UInt8
  bitsize : Int
  pos : Nat
  deriving DecidableEq, Repr

namespace Reader

/-- bitreader.py:19-42 `__init__` -/
def make (buffer : List UInt8) (bitsize : Option Int := none) : Except Err Reader :=
  match bitsize with
  | none => .ok ⟨buffer, (buffer.length : Int) * 8, 0⟩
  | some bs => if (buffer.length : Int) * 8 < bs then .error .bitsize else .ok ⟨buffer, bs, 0⟩

/-- bitreader.py:44-54 `from_bitbuffer` -/
def fromBitBuffer (b : BitBuffer) : Except Err Reader := make b.buffer (some b.bitsize)

/-- bitreader.py:95-123 `read_bits_unchecked` (non-negative `numbits`). -/
def readBitsUnchecked (numbits : Nat) : M Reader Nat := do
  let r ← M.get
  let endPos := r.pos + numbits
  if (endPos : Int) > r.bitsize then M.throw .eos
  else
    let startByte := r.pos / 8
    let endByte := Int.fdiv ((endPos : Int) - 1) 8
    let value := natFromBytes (pySlice r.buffer startByte (endByte + 1).toNat)
    let lastBits := endPos % 8
    let value := if lastBits ≠ 0 then value >>> (8 - lastBits) else value
    let value := value &&& (1 <<< numbits - 1)
    M.set { r with pos := endPos }
    pure value

/-- bitreader.py:125-143 `read_signed_bits_unchecked` -/
def readSignedBitsUnchecked (numbits : Nat) : M Reader Int := do
  let value ← readBitsUnchecked numbits
  if numbits ≠ 0 ∧ value >>> (numbits - 1) ≠ 0 then pure ((value : Int) - 2 ^ numbits) else pure (value : Int)

/-- bitreader.py:67-79 `read_bits` -/
def readBits (numbits : Int) : M Reader Nat :=
  if numbits < 1 ∨ numbits > 64 then M.throw .numbits else readBitsUnchecked numbits.toNat

/-- bitreader.py:81-93 `read_signed_bits` -/
def readSignedBits (numbits : Int) : M Reader Int :=
  if numbits < 1 ∨ numbits > 64 then M.throw .numbits else readSignedBitsUnchecked numbits.toNat

/-- The steps "byte n" of the variable-length reads.  In the source the loop is unrolled: `k` times
`byte = read_bits_unchecked(8); result = result << 7 | (byte & 0x7F); if byte & 0x80 == 0: return result`
followed by the last byte `result << 8 | read_bits_unchecked(8)`. -/
def readVarTail : Nat → Nat → M Reader Nat
  | 0, result => do
    let byte ← readBitsUnchecked 8
    pure (result <<< 8 ||| byte)
  | k + 1, result => do
    let byte ← readBitsUnchecked 8
    let result := result <<< 7 ||| (byte &&& 0x7F)
    if byte &&& 0x80 = 0 then pure result else readVarTail k result

/-- The common shape of `read_varuint16` / `32` / `64` / `read_varuint` / `read_varsize`: first byte, then up to `k` bytes
with a continuation flag, then a full last byte. -/
def readVarUnsigned (k : Nat) : M Reader Nat := do
  let byte ← readBitsUnchecked 8
  let result := byte &&& 0x7F
  if byte &&& 0x80 = 0 then pure result else readVarTail k result

/-- The common shape of `read_varint16` / `32` / `64`. -/
def readVarSigned (k : Nat) : M Reader Int := do
  let byte ← readBitsUnchecked 8
  let sign := byte &&& 0x80
  let result := byte &&& 0x3F
  if byte &&& 0x40 = 0 then
    pure (if sign ≠ 0 then -(result : Int) else result)
  else do
    let result ← readVarTail k result
    pure (if sign ≠ 0 then -(result : Int) else result)

/-- bitreader.py:145-159 -/
def readVarint16 : M Reader Int := readVarSigned 0
/-- bitreader.py:161-185 -/
def readVarint32 : M Reader Int := readVarSigned 2
/-- bitreader.py:187-231 -/
def readVarint64 : M Reader Int := readVarSigned 6
/-- bitreader.py:233-282; the single byte case maps -0 to INT64_MIN. -/
def readVarint : M Reader Int := do
  let byte ← readBitsUnchecked 8
  let sign := byte &&& 0x80
  let result := byte &&& 0x3F
  if byte &&& 0x40 = 0 then
    pure (if sign ≠ 0 then (if result = 0 then INT64_MIN else -(result : Int)) else result)
  else do
    let result ← readVarTail 7 result
    pure (if sign ≠ 0 then -(result : Int) else result)
/-- bitreader.py:284-297 -/
def readVaruint16 : M Reader Nat := readVarUnsigned 0
/-- bitreader.py:299-322 -/
def readVaruint32 : M Reader Nat := readVarUnsigned 2
/-- bitreader.py:324-367 -/
def readVaruint64 : M Reader Nat := readVarUnsigned 6
/-- bitreader.py:369-417 -/
def readVaruint : M Reader Nat := readVarUnsigned 7
/-- bitreader.py:639 -/
def VARSIZE_MAX_VALUE : Nat := 2 ^ 31 - 1
/-- bitreader.py:419-453.  The source checks the range only after the fifth byte; values of up to four bytes are
below 2^28, so checking the result of every length is the same. -/
def readVarsize : M Reader Nat := do
  let result ← readVarUnsigned 3
  if result > VARSIZE_MAX_VALUE then M.throw .varsizeRange else pure result

/-- bitreader.py:455-463 -/
def readFloat16 : M Reader PyFloat := do
  let v ← readBitsUnchecked 16
  pure (uint16ToFloat v)
/-- bitreader.py:465-473 -/
def readFloat32 : M Reader PyFloat := do
  let v ← readBitsUnchecked 32
  pure (uint32ToFloat v)
/-- bitreader.py:475-483 -/
def readFloat64 : M Reader PyFloat := do
  let v ← readBitsUnchecked 64
  pure (uint64ToFloat v)

/-- bitreader.py:593-607, the `bitposition` setter -/
def setBitposition (bitposition : Int) : M Reader Unit := do
  let r ← M.get
  if bitposition < 0 then M.throw .position
  else if bitposition > r.bitsize then M.throw .position
  else M.set { r with pos := bitposition.toNat }

/-- `for _ in range(length): value.append(self.read_bits_unchecked(8))` (bitreader.py:501-502, 528-529, 568-569) -/
def readByteLoop : Nat → M Reader (List UInt8)
  | 0 => pure []
  | n + 1 => do
    let b ← readBitsUnchecked 8
    let bs ← readByteLoop n
    pure (UInt8.ofNat b :: bs)

/-- The two branches shared by `read_bytes`, `read_string` and `read_bitbuffer`
(bitreader.py:498-508, 525-535, 565-576). -/
def readByteBlock (length : Nat) : M Reader (List UInt8) := do
  let r ← M.get
  let begin := r.pos
  if begin &&& 0x07 ≠ 0 then readByteLoop length
  else do
    setBitposition ((begin : Int) + length * 8)
    pure (pySlice r.buffer (begin / 8) (begin / 8 + length))

/-- bitreader.py:485-510 `read_bytes` -/
def readBytes : M Reader (List UInt8) := do
  let length ← readVarsize
  let r ← M.get
  if (r.pos : Int) + length * 8 > r.bitsize then M.throw .eos else readByteBlock length

/-- bitreader.py:512-537 `read_string` -/
def readString : M Reader PyStr := do
  let length ← readVarsize
  let r ← M.get
  if (r.pos : Int) + length * 8 > r.bitsize then M.throw .eos
  else do
    let value ← readByteBlock length
    M.lift (utf8Decode value)

/-- bitreader.py:539-547 `read_bool` -/
def readBool : M Reader Bool := do
  let v ← readBitsUnchecked 1
  pure (v != 0)

/-- bitreader.py:549-581 `read_bitbuffer`.  The preallocated `bytearray((bitsize + 7) // 8)` is filled completely, so it is
modelled as the list of the bytes stored into it. -/
def readBitBuffer : M Reader BitBuffer := do
  let bitsize ← readVarsize
  let r ← M.get
  if (r.pos : Int) + bitsize > r.bitsize then M.throw .eos
  else do
    let numBytes := bitsize / 8
    let numRestBits := bitsize - numBytes * 8
    let buffer ← readByteBlock numBytes
    if numRestBits ≠ 0 then do
      let x ← readBits numRestBits
      M.lift (BitBuffer.make (buffer ++ [UInt8.ofNat (x <<< (8 - numRestBits))]) (some bitsize))
    else M.lift (BitBuffer.make buffer (some bitsize))

/-- bitreader.py:609-619 `alignto`; Python's `%` on integers (`Int.fmod`). -/
def alignto (alignment : Int) : M Reader Unit := do
  let r ← M.get
  if alignment = 0 then M.throw .zeroDivision
  else
    let offset := Int.fmod (r.pos : Int) alignment
    if offset ≠ 0 then setBitposition ((r.pos : Int) + alignment - offset) else pure ()

end Reader
end Zserio
