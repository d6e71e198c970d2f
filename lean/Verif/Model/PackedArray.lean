import Verif.Model.Array
/-
Model of zserio/array.py: packed arrays (DeltaContext, the packed traits, the packed methods of Array).
-/
namespace Zserio

/-- array.py:471-480: the attributes of a `DeltaContext`. -/
structure DeltaContext where
  isPacked : Bool := false
  maxBitNumber : Nat := 0
  previousElement : Option Int := none
  processingStarted : Bool := false
  unpackedBitsize : Nat := 0
  firstElementBitsize : Nat := 0
  numElements : Nat := 0
  deriving DecidableEq, Repr

namespace DeltaContext

/-- array.py:623 -/
def MAX_BIT_NUMBER_BITS : Nat := 6
/-- array.py:624 -/
def MAX_BIT_NUMBER_LIMIT : Nat := 62

/-- array.py:597-602 `_bitsizeof_unpacked` -/
def bitsizeofUnpacked (tr : Traits Int) (element : Int) : Except Err Nat :=
  match tr.constSize with
  | some n => .ok n
  | none => tr.bitsizeof 0 element

/-- array.py:482-510 `init` -/
def init (c : DeltaContext) (tr : Traits Int) (element : Int) : Except Err DeltaContext := do
  let c := { c with numElements := c.numElements + 1 }
  let n ← bitsizeofUnpacked tr element
  let c := { c with unpackedBitsize := c.unpackedBitsize + n }
  match c.previousElement with
  | none => .ok { c with previousElement := some element, firstElementBitsize := c.unpackedBitsize }
  | some previous =>
    if c.maxBitNumber ≤ MAX_BIT_NUMBER_LIMIT then
      let c := { c with isPacked := true }
      let delta := element - previous
      let maxBitNumber := bitLength delta
      let c :=
        if maxBitNumber > c.maxBitNumber then
          let c := { c with maxBitNumber := maxBitNumber }
          if maxBitNumber > MAX_BIT_NUMBER_LIMIT then { c with isPacked := false } else c
        else c
      .ok { c with previousElement := some element }
    else .ok c

/-- array.py:530, 580: number of bits of a delta -/
def deltaBitsize (c : DeltaContext) : Nat := if c.maxBitNumber > 0 then c.maxBitNumber + 1 else 0

/-- array.py:578-589 `_finish_init` -/
def finishInit (c : DeltaContext) : DeltaContext :=
  if c.isPacked then
    let packedBitsizeWithDescriptor :=
      1 + MAX_BIT_NUMBER_BITS + c.firstElementBitsize + (c.numElements - 1) * c.deltaBitsize
    let unpackedBitsizeWithDescriptor := 1 + c.unpackedBitsize
    if packedBitsizeWithDescriptor ≥ unpackedBitsizeWithDescriptor then { c with isPacked := false } else c
  else c

/-- array.py:591-595 `_bitsizeof_descriptor` -/
def bitsizeofDescriptor (c : DeltaContext) : Nat := if c.isPacked then 1 + MAX_BIT_NUMBER_BITS else 1

/-- array.py:512-530 `bitsizeof` -/
def bitsizeof (c : DeltaContext) (tr : Traits Int) (element : Int) : Except Err (Nat × DeltaContext) := do
  if !c.processingStarted then
    let c := { c with processingStarted := true }
    let c := c.finishInit
    let n ← bitsizeofUnpacked tr element
    .ok (c.bitsizeofDescriptor + n, c)
  else if !c.isPacked then
    let n ← bitsizeofUnpacked tr element
    .ok (n, c)
  else .ok (c.deltaBitsize, c)

/-- array.py:604-607 `_read_descriptor` -/
def readDescriptor (c : DeltaContext) : M Reader DeltaContext := do
  let isPacked ← Reader.readBool
  let c := { c with isPacked := isPacked }
  if c.isPacked then do
    let n ← Reader.readBitsUnchecked MAX_BIT_NUMBER_BITS
    pure { c with maxBitNumber := n }
  else pure c

/-- array.py:609-612 `_read_unpacked`; the traits of integral types ignore the index. -/
def readUnpacked (c : DeltaContext) (tr : Traits Int) : M Reader (Int × DeltaContext) := do
  let element ← tr.read 0
  pure (element, { c with previousElement := some element })

/-- array.py:532-552 `read`.  `assert self._previous_element is not None` raises `AssertionError` (modelled as
`Err.type`; it cannot happen because the first element is always read unpacked). -/
def read (c : DeltaContext) (tr : Traits Int) : M Reader (Int × DeltaContext) :=
  if !c.processingStarted then do
    let c ← readDescriptor { c with processingStarted := true }
    readUnpacked c tr
  else if !c.isPacked then readUnpacked c tr
  else
    match c.previousElement with
    | none => M.throw .type
    | some previous =>
      if c.maxBitNumber > 0 then do
        let delta ← Reader.readSignedBitsUnchecked (c.maxBitNumber + 1)
        pure (previous + delta, { c with previousElement := some (previous + delta) })
      else pure (previous, c)

/-- array.py:614-617 `_write_descriptor` -/
def writeDescriptor (c : DeltaContext) : M Writer Unit := do
  Writer.writeBool c.isPacked
  if c.isPacked then Writer.writeBitsUnchecked c.maxBitNumber MAX_BIT_NUMBER_BITS else pure ()

/-- array.py:619-621 `_write_unpacked` -/
def writeUnpacked (c : DeltaContext) (tr : Traits Int) (element : Int) : M Writer DeltaContext := do
  let c := { c with previousElement := some element }
  tr.write element
  pure c

/-- array.py:554-576 `write`.  A context is local to one array operation, so the context after an exception is not
modelled. -/
def write (c : DeltaContext) (tr : Traits Int) (element : Int) : M Writer DeltaContext :=
  if !c.processingStarted then do
    let c := { c with processingStarted := true }
    let c := c.finishInit
    writeDescriptor c
    writeUnpacked c tr element
  else if !c.isPacked then writeUnpacked c tr element
  else
    match c.previousElement with
    | none => M.throw .type
    | some previous =>
      if c.maxBitNumber > 0 then do
        Writer.writeSignedBitsUnchecked (element - previous) (c.maxBitNumber + 1)
        pure { c with previousElement := some element }
      else pure c

end DeltaContext

/-- Packed array traits (array.py:627-796) with a packing context of type `κ`.  The methods return the new context. -/
structure PackedTraits (κ α : Type) where
  createContext : κ
  initContext : κ → α → Except Err κ
  bitsizeof : κ → Nat → α → Except Err (Nat × κ)
  initOffsets : κ → Nat → α → Except Err (Nat × α × κ)
  write : κ → α → M Writer κ
  read : κ → Nat → M Reader (α × κ)

/-- array.py:627-708 `PackedArrayTraits` -/
def PackedTraits.ofTraits (tr : Traits Int) : PackedTraits DeltaContext Int where
  createContext := {}
  initContext := fun c x => c.init tr x
  bitsizeof := fun c _ x => c.bitsizeof tr x
  initOffsets := fun c p x => do
    let (n, c) ← c.bitsizeof tr x
    .ok (p + n, x, c)
  write := fun c x => c.write tr x
  read := fun c _ => c.read tr

namespace Array'
variable {σ κ α : Type}

/-- array.py:232-233, 289-290, 437-438: `for element in raw_array: init_context(context, element)` -/
def initContextLoop (pt : PackedTraits κ α) : κ → List α → Except Err κ
  | c, [] => .ok c
  | c, x :: xs => do
    let c ← pt.initContext c x
    initContextLoop pt c xs

/-- array.py:235-241 -/
def bitsizeofPackedLoop (pt : PackedTraits κ α) (aligned : Bool) : κ → Nat → List α → Except Err Nat
  | _, p, [] => .ok p
  | c, p, x :: xs => do
    let p := if aligned then align8 p else p
    let (n, c) ← pt.bitsizeof c p x
    bitsizeofPackedLoop pt aligned c (p + n) xs

/-- array.py:227-241 -/
def bitsizeofPackedElements (pt : PackedTraits κ α) (aligned : Bool) (endPos : Nat) (xs : List α) : Except Err Nat :=
  if xs.length > 0 then do
    let c ← initContextLoop pt pt.createContext xs
    bitsizeofPackedLoop pt aligned c endPos xs
  else .ok endPos

/-- array.py:214-243 `bitsizeof_packed` -/
def bitsizeofPacked (pt : PackedTraits κ α) (cfg : ArrayCfg σ) (p : Nat) (xs : List α) : Except Err Nat := do
  let endPos ← sizePrefix cfg.isAuto p xs.length
  let endPos ← bitsizeofPackedElements pt cfg.setOffset.isSome endPos xs
  .ok (endPos - p)

/-- array.py:292-302 -/
def initOffsetsPackedLoop (pt : PackedTraits κ α) (setOffset : Option (Nat → Nat → σ → Except Err σ)) :
    κ → Nat → Nat → List α → σ → Except Err (Nat × List α × σ)
  | _, p, _, [], s => .ok (p, [], s)
  | c, p, index, x :: xs, s => do
    let (p, s) ← offsetStep setOffset p index s
    let (p, x, c) ← pt.initOffsets c p x
    let (p, xs, s) ← initOffsetsPackedLoop pt setOffset c p (index + 1) xs s
    .ok (p, x :: xs, s)

/-- array.py:271-304 `initialize_offsets_packed` -/
def initOffsetsPacked (pt : PackedTraits κ α) (cfg : ArrayCfg σ) (p : Nat) (xs : List α) (s : σ) :
    Except Err (Nat × List α × σ) := do
  let endPos ← sizePrefix cfg.isAuto p xs.length
  if xs.length > 0 then do
    let c ← initContextLoop pt pt.createContext xs
    initOffsetsPackedLoop pt cfg.setOffset c endPos 0 xs s
  else .ok (endPos, xs, s)

/-- array.py:386-395 -/
def readPackedLoop (pt : PackedTraits κ α) (checkOffset : Option (Nat → Nat → σ → Except Err Unit)) (s : σ) :
    κ → Nat → Nat → M Reader (List α)
  | _, _, 0 => pure []
  | c, index, n + 1 => do
    readCheck checkOffset index s
    let (x, c) ← pt.read c index
    let xs ← readPackedLoop pt checkOffset s c (index + 1) n
    pure (x :: xs)

/-- array.py:362-395 `read_packed` -/
def readPacked (pt : PackedTraits κ α) (cfg : ArrayCfg σ) (s : σ) (size : Nat) : M Reader (List α) :=
  if cfg.isImplicit then M.throw .implicitArray
  else do
    let readSize ← readSize cfg.isAuto size
    if readSize > 0 then readPackedLoop pt cfg.checkOffset s pt.createContext 0 readSize else pure []

/-- array.py:440-449 -/
def writePackedLoop (pt : PackedTraits κ α) (checkOffset : Option (Nat → Nat → σ → Except Err Unit)) (s : σ) :
    κ → Nat → List α → M Writer Unit
  | _, _, [] => pure ()
  | c, index, x :: xs => do
    writeCheck checkOffset index s
    let c ← pt.write c x
    writePackedLoop pt checkOffset s c (index + 1) xs

/-- array.py:420-449 `write_packed` -/
def writePacked (pt : PackedTraits κ α) (cfg : ArrayCfg σ) (s : σ) (xs : List α) : M Writer Unit := do
  writePrefix cfg.isAuto xs.length
  if xs.length > 0 then do
    let c ← M.lift (initContextLoop pt pt.createContext xs)
    writePackedLoop pt cfg.checkOffset s c 0 xs
  else pure ()

end Array'
end Zserio
