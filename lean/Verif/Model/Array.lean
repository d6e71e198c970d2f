import Verif.Model.VarDispatch
/-
Model of zserio/array.py: class Array and the array traits.

Bit positions and sizes are natural numbers.  An array's raw list is passed to and returned from the methods.  The offset
methods of the owner work on a state `σ` of the owner, passed explicitly.
-/
namespace Zserio

/-- Array traits, array.py:799-2066.  `constSize` is `bitsizeof()` of traits with `HAS_BITSIZEOF_CONSTANT`; `bitsizeof` of
the other traits takes the position (ignored unless `NEEDS_BITSIZEOF_POSITION`); `read` takes the index (ignored unless
`NEEDS_READ_INDEX`).  `initOffsets` also returns the element, which it may mutate. -/
structure Traits (α : Type) where
  constSize : Option Nat
  bitsizeof : Nat → α → Except Err Nat
  initOffsets : Nat → α → Except Err (Nat × α)
  read : Nat → M Reader α
  write : α → M Writer Unit

/-- The configuration of an `Array`, array.py:43-70: `_is_auto`, `_is_implicit`, `_set_offset_method` and
`_check_offset_method`.  The offset methods take the index and the bit position; the setter mutates the owner. -/
structure ArrayCfg (σ : Type) where
  isAuto : Bool
  isImplicit : Bool
  setOffset : Option (Nat → Nat → σ → Except Err σ)
  checkOffset : Option (Nat → Nat → σ → Except Err Unit)

namespace Array'
variable {σ α : Type}

/-- `alignto(8, position)` (bitposition.py:8-20) for a natural position. -/
def align8 (p : Nat) : Nat := (alignTo 8 p).toNat

/-- array.py:183-184, 224-225, 255-256, 281-282: the position after the length of an auto array. -/
def sizePrefix (isAuto : Bool) (p size : Nat) : Except Err Nat := do
  if isAuto then
    let n ← bitsizeofVarsize (size : Int)
    .ok (p + n)
  else .ok p

/-- array.py:194-210: the loops of `bitsizeof` for elements of variable size; `aligned` tells whether
`_set_offset_method` is not None. -/
def bitsizeofLoop (tr : Traits α) (aligned : Bool) : Nat → List α → Except Err Nat
  | p, [] => .ok p
  | p, x :: xs => do
    let p := if aligned then align8 p else p
    let n ← tr.bitsizeof p x
    bitsizeofLoop tr aligned (p + n) xs

/-- array.py:186-210: the end position of the elements. -/
def bitsizeofElements (tr : Traits α) (aligned : Bool) (endPos : Nat) (xs : List α) : Except Err Nat :=
  match tr.constSize with
  | some elementSize =>
    if xs.length > 0 then
      if !aligned then .ok (endPos + xs.length * elementSize)
      else .ok (align8 endPos + (elementSize + (xs.length - 1) * align8 elementSize))
    else bitsizeofLoop tr aligned endPos xs
  | none => bitsizeofLoop tr aligned endPos xs

/-- array.py:173-212 `bitsizeof` -/
def bitsizeof (tr : Traits α) (cfg : ArrayCfg σ) (p : Nat) (xs : List α) : Except Err Nat := do
  let endPos ← sizePrefix cfg.isAuto p xs.length
  let endPos ← bitsizeofElements tr cfg.setOffset.isSome endPos xs
  .ok (endPos - p)

/-- array.py:262-263, 295-296: `end_bitposition = alignto(8, end_bitposition); set_offset(index, end_bitposition)` -/
def offsetStep (setOffset : Option (Nat → Nat → σ → Except Err σ)) (p index : Nat) (s : σ) : Except Err (Nat × σ) :=
  match setOffset with
  | some set => do
    let s ← set index (align8 p) s
    .ok (align8 p, s)
  | none => .ok (p, s)

/-- array.py:258-267: the loops of `initialize_offsets`. -/
def initOffsetsLoop (tr : Traits α) (setOffset : Option (Nat → Nat → σ → Except Err σ)) :
    Nat → Nat → List α → σ → Except Err (Nat × List α × σ)
  | p, _, [], s => .ok (p, [], s)
  | p, index, x :: xs, s => do
    let (p, s) ← offsetStep setOffset p index s
    let (p, x) ← tr.initOffsets p x
    let (p, xs, s) ← initOffsetsLoop tr setOffset p (index + 1) xs s
    .ok (p, x :: xs, s)

/-- array.py:245-269 `initialize_offsets` -/
def initOffsets (tr : Traits α) (cfg : ArrayCfg σ) (p : Nat) (xs : List α) (s : σ) :
    Except Err (Nat × List α × σ) := do
  let endPos ← sizePrefix cfg.isAuto p xs.length
  initOffsetsLoop tr cfg.setOffset endPos 0 xs s

/-- array.py:346-347, 351-352, 390-391: `reader.alignto(8); check_offset(index, reader.bitposition)` -/
def readCheck (checkOffset : Option (Nat → Nat → σ → Except Err Unit)) (index : Nat) (s : σ) : M Reader Unit :=
  match checkOffset with
  | some check => do
    Reader.alignto 8
    let r ← M.get
    M.lift (check index r.pos s)
  | none => pure ()

/-- array.py:327-329, 341-360: the loops of `read`, `n` elements starting with `index`. -/
def readLoop (tr : Traits α) (checkOffset : Option (Nat → Nat → σ → Except Err Unit)) (s : σ) :
    Nat → Nat → M Reader (List α)
  | _, 0 => pure []
  | index, n + 1 => do
    readCheck checkOffset index s
    let x ← tr.read index
    let xs ← readLoop tr checkOffset s (index + 1) n
    pure (x :: xs)

/-- array.py:331-334, 375-378: the number of elements to read. -/
def readSize (isAuto : Bool) (size : Nat) : M Reader Nat := if isAuto then Reader.readVarsize else pure size

/-- array.py:306-360 `read`.  `size` is a natural number; Python's `range` of a negative number is empty. -/
def read (tr : Traits α) (cfg : ArrayCfg σ) (s : σ) (size : Nat) : M Reader (List α) :=
  if cfg.isImplicit then
    match tr.constSize with
    | none => M.throw .implicitArray
    | some elementSize => do
      let r ← M.get
      if elementSize = 0 then M.throw .zeroDivision
      else
        let readSize := (Int.fdiv (r.bitsize - r.pos) elementSize).toNat
        readLoop tr (none : Option (Nat → Nat → σ → Except Err Unit)) s 0 readSize
  else do
    let readSize ← readSize cfg.isAuto size
    match tr.constSize with
    | some elementSize => do
      let r ← M.get
      if (r.pos : Int) + readSize * elementSize > r.bitsize then M.throw .eos
      else readLoop tr cfg.checkOffset s 0 readSize
    | none => readLoop tr cfg.checkOffset s 0 readSize

/-- array.py:413-414, 444-445: `writer.alignto(8); check_offset(index, writer.bitposition)` -/
def writeCheck (checkOffset : Option (Nat → Nat → σ → Except Err Unit)) (index : Nat) (s : σ) : M Writer Unit :=
  match checkOffset with
  | some check => do
    Writer.alignto 8
    let w ← M.get
    M.lift (check index w.pos s)
  | none => pure ()

/-- array.py:408-418: the loops of `write`. -/
def writeLoop (tr : Traits α) (checkOffset : Option (Nat → Nat → σ → Except Err Unit)) (s : σ) :
    Nat → List α → M Writer Unit
  | _, [] => pure ()
  | index, x :: xs => do
    writeCheck checkOffset index s
    tr.write x
    writeLoop tr checkOffset s (index + 1) xs

/-- array.py:405-406, 429-430: the length of an auto array. -/
def writePrefix (isAuto : Bool) (size : Nat) : M Writer Unit :=
  if isAuto then Writer.writeVarsize (size : Int) else pure ()

/-- array.py:397-418 `write` -/
def write (tr : Traits α) (cfg : ArrayCfg σ) (s : σ) (xs : List α) : M Writer Unit := do
  writePrefix cfg.isAuto xs.length
  writeLoop tr cfg.checkOffset s 0 xs

end Array'

/-! ### Offset methods over an offset array of the owner -/

/-- Offset checker of an indexed offset array `offsets[@index]:` (CompoundField.inc.ftl:327-335, 437-442).  The owner's
state is the list of offsets. -/
def checkOffsetArray (index bitoffset : Nat) (offsets : List Int) : Except Err Unit :=
  match offsets[index]? with
  | none => .error .index
  | some o => if (bitoffset : Int) ≠ bytesToBits o then .error .offset else .ok ()

/-- Offset setter (CompoundField.inc.ftl:449-455): `self.offsets[zserio_index] = value`. -/
def setOffsetArray (index bitoffset : Nat) (offsets : List Int) : Except Err (List Int) := do
  let value ← bitsToBytes bitoffset
  if index < offsets.length then .ok (offsets.set index value) else .error .index

/-- An array with indexed offsets stored in an offset array. -/
def ArrayCfg.offsetArray (isAuto : Bool) : ArrayCfg (List Int) :=
  { isAuto := isAuto, isImplicit := false, setOffset := some setOffsetArray, checkOffset := some checkOffsetArray }

/-- An array without indexed offsets. -/
def ArrayCfg.plain (isAuto isImplicit : Bool) : ArrayCfg Unit :=
  { isAuto := isAuto, isImplicit := isImplicit, setOffset := none, checkOffset := none }

/-! ### Built-in traits -/

namespace Traits

/-- Traits whose `initialize_offsets` returns `bitposition + bitsizeof` and whose `read` ignores the index: all traits of
built-in types. -/
def simple {α : Type} (constSize : Option Nat) (size : α → Except Err Nat) (read : M Reader α)
    (write : α → M Writer Unit) : Traits α where
  constSize := constSize
  bitsizeof := fun _ x => match constSize with
    | some n => .ok n
    | none => size x
  initOffsets := fun p x => do
    let n ← match constSize with
      | some n => Except.ok n
      | none => size x
    .ok (p + n, x)
  read := fun _ => read
  write := write

/-- array.py:799-866 `BitFieldArrayTraits` (a negative `numbits` is not modelled; 0 is rejected by `write_bits`). -/
def bitField (numbits : Nat) : Traits Int :=
  simple (some numbits) (fun _ => .ok numbits) (Reader.asInt (Reader.readBits numbits))
    (fun v => Writer.writeBits v numbits)

/-- array.py:869-936 `SignedBitFieldArrayTraits` -/
def signedBitField (numbits : Nat) : Traits Int :=
  simple (some numbits) (fun _ => .ok numbits) (Reader.readSignedBits numbits)
    (fun v => Writer.writeSignedBits v numbits)

/-- array.py:939-1529 `VarUInt16ArrayTraits` ... `VarIntArrayTraits`, `VarSizeArrayTraits` -/
def var (t : VarType) : Traits Int :=
  simple none (bitsizeofVar t) (Reader.readVar t) (Writer.writeVar t)

/-- array.py:1532-1594 `Float16ArrayTraits` -/
def float16 : Traits PyFloat := simple (some 16) (fun _ => .ok 16) Reader.readFloat16 Writer.writeFloat16
/-- array.py:1597-1659 `Float32ArrayTraits` -/
def float32 : Traits PyFloat := simple (some 32) (fun _ => .ok 32) Reader.readFloat32 Writer.writeFloat32
/-- array.py:1662-1724 `Float64ArrayTraits` -/
def float64 : Traits PyFloat := simple (some 64) (fun _ => .ok 64) Reader.readFloat64 Writer.writeFloat64
/-- array.py:1727-1790 `BytesArrayTraits` -/
def bytes : Traits (List UInt8) := simple none bitsizeofBytes Reader.readBytes Writer.writeBytes
/-- array.py:1793-1856 `StringArrayTraits` -/
def string : Traits PyStr := simple none bitsizeofString Reader.readString Writer.writeString
/-- array.py:1859-1921 `BoolArrayTraits` -/
def bool : Traits Bool := simple (some 1) (fun _ => .ok 1) Reader.readBool Writer.writeBool
/-- array.py:1924-1987 `BitBufferArrayTraits` -/
def bitBuffer : Traits BitBuffer := simple none bitsizeofBitBuffer Reader.readBitBuffer Writer.writeBitBuffer

end Traits
end Zserio
