import Verif.Model.BitBuffer
import Verif.Model.Float
/-
Model of zserio/bitwriter.py (class BitStreamWriter, pure Python version).
-/
namespace Zserio

/-- bitwriter.py:28-34: `_byte_array` and `_bitposition`. -/
structure Writer where
  bytes : List UInt8
  pos : Nat
  deriving DecidableEq, Repr

namespace Writer

/-- bitwriter.py:28-34 `__init__` -/
def init : Writer := ⟨[], 0⟩

/-- `self._byte_array[-1] |= x` (bitwriter.py:361); `IndexError` on an empty array. -/
def orLast : List UInt8 → UInt8 → Except Err (List UInt8)
  | [], _ => .error .index
  | [b], x => .ok [b ||| x]
  | b :: c :: rest, x => do
    let r ← orLast (c :: rest) x
    .ok (b :: r)

/-- bitwriter.py:350-353: `left_shift` -/
def leftShift (freeBits firstBits : Nat) : Nat :=
  if firstBits ≤ freeBits then freeBits - firstBits else freeBits + 8 - firstBits

/-- bitwriter.py:346-364 `_write_bits`.  `numbits` is a natural number here: all callers pass a non-negative count. -/
def writeRaw (value : Int) (numbits : Nat) (signed : Bool) : M Writer Unit := do
  let w ← M.get
  let lastByteBits := w.pos % 8
  let freeBits := if lastByteBits ≠ 0 then 8 - lastByteBits else 0
  let firstByteBits := if numbits % 8 ≠ 0 then numbits % 8 else 8
  let ls := leftShift freeBits firstByteBits
  let value := value * 2 ^ ls
  let numBytes := (numbits + ls + 7) / 8
  let valueBytes ← M.lift (intToBytes value numBytes signed)
  if freeBits = 0 then
    M.set ⟨w.bytes ++ valueBytes, w.pos + numbits⟩
  else
    match valueBytes with
    | [] => M.throw .index
    | v0 :: rest => do
      let firstByte := v0 &&& UInt8.ofNat (2 ^ freeBits - 1)
      let bytes ← M.lift (orLast w.bytes firstByte)
      M.set ⟨bytes ++ rest, w.pos + numbits⟩

/-- bitwriter.py:65-83 `write_bits_unchecked` -/
def writeBitsUnchecked (value : Int) (numbits : Nat) : M Writer Unit :=
  if value < 0 ∨ value > 2 ^ numbits - 1 then M.throw .range else writeRaw value numbits false

/-- bitwriter.py:85-104 `write_signed_bits_unchecked` (`1 << (numbits - 1)` raises for `numbits = 0`). -/
def writeSignedBitsUnchecked (value : Int) (numbits : Nat) : M Writer Unit :=
  if numbits = 0 then M.throw .negativeShift
  else if value < -(2 ^ (numbits - 1)) ∨ value > 2 ^ (numbits - 1) - 1 then M.throw .range
  else writeRaw value numbits true

/-- bitwriter.py:36-48 `write_bits` -/
def writeBits (value numbits : Int) : M Writer Unit :=
  if numbits < 1 ∨ numbits > 64 then M.throw .numbits else writeBitsUnchecked value numbits.toNat

/-- bitwriter.py:50-63 `write_signed_bits` -/
def writeSignedBits (value numbits : Int) : M Writer Unit :=
  if numbits < 1 ∨ numbits > 64 then M.throw .numbits else writeSignedBitsUnchecked value numbits.toNat

/-- bitwriter.py:390 -/
def VAR_NUM_BIT_MASKS : List Nat := [0x01, 0x03, 0x07, 0x0F, 0x1F, 0x3F, 0x7F, 0xFF]

/-- The byte computed in one iteration of the loop of `_write_varnum`, bitwriter.py:370-386. -/
def varnumByte (value : Int) (maxVarBytes numVarBytes i : Nat) (isSigned : Bool) : Nat :=
  let absValue := value.natAbs
  let hasMaxByteRange := numVarBytes == maxVarBytes
  let byte := 0x00
  let numbits := 8
  let hasNextByte := decide (i + 1 < numVarBytes)
  let hasSignBit := isSigned && i == 0
  let (byte, numbits) :=
    if hasSignBit then ((if value < 0 then byte ||| 0x80 else byte), numbits - 1) else (byte, numbits)
  let (byte, numbits) :=
    if hasNextByte then (byte ||| 1 <<< (numbits - 1), numbits - 1)
    else if !hasMaxByteRange then (byte, numbits - 1) else (byte, numbits)
  let shiftBits := (numVarBytes - (i + 1)) * 7 + (if hasMaxByteRange && hasNextByte then 1 else 0)
  byte ||| ((absValue >>> shiftBits) &&& VAR_NUM_BIT_MASKS.getD (numbits - 1) 0)

/-- The loop `for i in range(num_var_bytes)` of `_write_varnum` over the remaining indices. -/
def writeVarnumLoop (value : Int) (maxVarBytes numVarBytes : Nat) (isSigned : Bool) : List Nat → M Writer Unit
  | [] => pure ()
  | i :: is => do
    writeBitsUnchecked (varnumByte value maxVarBytes numVarBytes i isSigned) 8
    writeVarnumLoop value maxVarBytes numVarBytes isSigned is

/-- bitwriter.py:366-387 `_write_varnum` -/
def writeVarnum (value : Int) (maxVarBytes numVarBytes : Nat) (isSigned : Bool) : M Writer Unit :=
  writeVarnumLoop value maxVarBytes numVarBytes isSigned (List.range numVarBytes)

/-- bitwriter.py:106-114 -/
def writeVarint16 (value : Int) : M Writer Unit := do
  let n ← M.lift (bitsizeofVarint16 value)
  writeVarnum value 2 (n / 8) true
/-- bitwriter.py:116-124 -/
def writeVarint32 (value : Int) : M Writer Unit := do
  let n ← M.lift (bitsizeofVarint32 value)
  writeVarnum value 4 (n / 8) true
/-- bitwriter.py:126-134 -/
def writeVarint64 (value : Int) : M Writer Unit := do
  let n ← M.lift (bitsizeofVarint64 value)
  writeVarnum value 8 (n / 8) true
/-- bitwriter.py:136-147 -/
def writeVarint (value : Int) : M Writer Unit :=
  if value = INT64_MIN then writeRaw 0x80 8 false
  else do
    let n ← M.lift (bitsizeofVarint value)
    writeVarnum value 9 (n / 8) true
/-- bitwriter.py:149-157 -/
def writeVaruint16 (value : Int) : M Writer Unit := do
  let n ← M.lift (bitsizeofVaruint16 value)
  writeVarnum value 2 (n / 8) false
/-- bitwriter.py:159-167 -/
def writeVaruint32 (value : Int) : M Writer Unit := do
  let n ← M.lift (bitsizeofVaruint32 value)
  writeVarnum value 4 (n / 8) false
/-- bitwriter.py:169-177 -/
def writeVaruint64 (value : Int) : M Writer Unit := do
  let n ← M.lift (bitsizeofVaruint64 value)
  writeVarnum value 8 (n / 8) false
/-- bitwriter.py:179-187 -/
def writeVaruint (value : Int) : M Writer Unit := do
  let n ← M.lift (bitsizeofVaruint value)
  writeVarnum value 9 (n / 8) false
/-- bitwriter.py:189-197 -/
def writeVarsize (value : Int) : M Writer Unit := do
  let n ← M.lift (bitsizeofVarsize value)
  writeVarnum value 5 (n / 8) false

/-- bitwriter.py:199-206 -/
def writeFloat16 (value : PyFloat) : M Writer Unit := do
  let n ← M.lift (floatToUint16 value)
  writeBitsUnchecked n 16
/-- bitwriter.py:208-215 -/
def writeFloat32 (value : PyFloat) : M Writer Unit := do
  let n ← M.lift (floatToUint32 value)
  writeBitsUnchecked n 32
/-- bitwriter.py:217-224 -/
def writeFloat64 (value : PyFloat) : M Writer Unit :=
  writeBitsUnchecked (floatToUint64 value) 64

/-- `for byte in value: self.write_bits_unchecked(byte, 8)` (bitwriter.py:240-241, 262-263, 295-296). -/
def writeByteLoop : List UInt8 → M Writer Unit
  | [] => pure ()
  | b :: bs => do
    writeBitsUnchecked b.toNat 8
    writeByteLoop bs

/-- The two branches shared by `write_bytes`, `write_string` and `write_bitbuffer`
(bitwriter.py:237-245, 259-267, 292-300). -/
def writeByteBlock (value : List UInt8) : M Writer Unit := do
  let w ← M.get
  if w.pos &&& 0x07 ≠ 0 then writeByteLoop value
  else M.set ⟨w.bytes ++ value, w.pos + value.length * 8⟩

/-- bitwriter.py:226-245 `write_bytes` -/
def writeBytes (value : List UInt8) : M Writer Unit := do
  writeVarsize (value.length : Int)
  writeByteBlock value

/-- bitwriter.py:247-267 `write_string` -/
def writeString (s : PyStr) : M Writer Unit := do
  let bs ← M.lift (utf8Encode s)
  writeVarsize (bs.length : Int)
  writeByteBlock bs

/-- bitwriter.py:269-276 `write_bool` -/
def writeBool (value : Bool) : M Writer Unit := writeRaw (if value then 1 else 0) 1 false

/-- bitwriter.py:278-303 `write_bitbuffer`.  `write_buffer[0:n]` of a buffer shorter than `n` (impossible for a
constructed `BitBuffer`) would append fewer bytes; `write_buffer[i]` would raise. -/
def writeBitBuffer (b : BitBuffer) : M Writer Unit := do
  writeVarsize b.bitsize
  let bitsize := b.bitsize.toNat
  let numBytes := bitsize / 8
  let numRestBits := bitsize - numBytes * 8
  writeByteBlock (pySlice b.buffer 0 numBytes)
  if numRestBits > 0 then
    match b.buffer[numBytes]? with
    | none => M.throw .index
    | some x => writeBitsUnchecked ((x.toNat >>> (8 - numRestBits) : Nat) : Int) numRestBits
  else pure ()

/-- bitwriter.py:335-344 `alignto` (alignments are non-negative in the model). -/
def alignto (alignment : Nat) : M Writer Unit := do
  let w ← M.get
  if alignment = 0 then M.throw .zeroDivision
  else
    let offset := w.pos % alignment
    if offset ≠ 0 then writeRaw 0 (alignment - offset) false else pure ()

end Writer
end Zserio
