import Verif.Model.Schema
import Verif.Model.Builtin
/-
Model of the generated compounds: Structure.py.ftl, Union.py.ftl, Choice.py.ftl, CompoundField.inc.ftl, Enumeration.py.ftl
and Bitmask.py.ftl.

The packed methods of the templates are the same macros with the flag `packed`; the model passes a mode: `none` for the
ordinary methods, `some path` for the packed ones, where `path` tells which part of the packing context belongs to the object.
-/
namespace Zserio

/-- The packing contexts of the elements of one packed array: the nested `ZserioPackingContext` objects
(CompoundField.inc.ftl:574-621) as a map from the path of a member to its `DeltaContext`.  Contexts are created on demand
(Python creates all of them in the constructor). -/
abbrev Ctx := List Nat → DeltaContext

/-- `some path`: packed, the context of the object is the one at `path` -/
abbrev Mode := Option (List Nat)

/-- assign one context -/
def Ctx.update (c : Ctx) (path : List Nat) (d : DeltaContext) : Ctx := fun q => if q = path then d else c q

/-- the contexts of a new `ZserioPackingContext` -/
def Ctx.empty : Ctx := fun _ => {}

/-- The methods of the values of a field or array element type, with the expressions of the field already evaluated.
`initPacking` is `init_packing_context`, the others are `bitsizeof`, `initialize_offsets`, `write`, `from_reader` or their
`_packed` variants.  `constSize` is the constant size if the array traits have one. -/
structure Methods where
  constSize : Option Nat
  initPacking : List Nat → Ctx → Val → Except Err Ctx
  bitsizeof : Mode → Ctx → Nat → Val → Except Err (Nat × Ctx)
  initOffsets : Mode → Ctx → Nat → Val → Except Err (Nat × Val × Ctx)
  write : Mode → Ctx → Val → M Writer Ctx
  read : Mode → Ctx → Nat → M Reader (Val × Ctx)

/-- The methods of a generated compound type.  `read` (`from_reader`) takes the parameters. -/
structure Codec where
  initPacking : List Nat → Ctx → Val → Except Err Ctx
  bitsizeof : Mode → Ctx → Nat → Val → Except Err (Nat × Ctx)
  initOffsets : Mode → Ctx → Nat → Val → Except Err (Nat × Val × Ctx)
  write : Mode → Ctx → Val → M Writer Ctx
  read : Mode → Ctx → List Int → M Reader (Val × Ctx)

/-! ### Element types -/

/-- `bitsizeof` of a value that is not packed: constant sizes do not look at the value
(CompoundField.inc.ftl:100-110, array.py). -/
def sizeUnpacked {α : Type} (tr : Traits α) (proj : Val → Except Err α) (p : Nat) (v : Val) : Except Err Nat :=
  match tr.constSize with
  | some n => .ok n
  | none => do
    let x ← proj v
    tr.bitsizeof p x

/-- Built-in types that cannot be packed, CompoundField.inc.ftl:100-112, 142-154, 196-208, 303-309 and array.py traits. -/
def otherMethods (b : Builtin) : Methods where
  constSize := b.traits.constSize
  initPacking := fun _ c _ => .ok c
  bitsizeof := fun _ c p v => do
    let n ← sizeUnpacked b.traits b.proj p v
    .ok (n, c)
  initOffsets := fun _ c p v => do
    let n ← sizeUnpacked b.traits b.proj p v
    .ok (p + n, v, c)
  write := fun _ c v => do
    let x ← M.lift (b.proj v)
    b.traits.write x
    pure c
  read := fun _ c i => do
    let x ← b.traits.read i
    pure (b.inj x, c)

/-- `context.bitsizeof(traits, value)` -/
def ctxBitsizeof (k : IntKind) (path : List Nat) (c : Ctx) (x : Int) : Except Err (Nat × Ctx) := do
  let (n, d) ← (c path).bitsizeof k.traits x
  .ok (n, c.update path d)

/-- `context.write(traits, writer, value)` -/
def ctxWrite (k : IntKind) (path : List Nat) (c : Ctx) (x : Int) : M Writer Ctx := do
  let d ← (c path).write k.traits x
  pure (c.update path d)

/-- `context.read(traits, reader)` -/
def ctxRead (k : IntKind) (path : List Nat) (c : Ctx) : M Reader (Int × Ctx) := do
  let (x, d) ← (c path).read k.traits
  pure (x, c.update path d)

/-- size of an integral value, CompoundField.inc.ftl:90-104 -/
def intSize (k : IntKind) (mode : Mode) (c : Ctx) (p : Nat) (v : Val) : Except Err (Nat × Ctx) :=
  match mode with
  | none => do
    let n ← sizeUnpacked k.traits Val.asInt p v
    .ok (n, c)
  | some path => do
    let x ← v.asInt
    ctxBitsizeof k path c x

/-- write of an integral value, CompoundField.inc.ftl:294-305 -/
def intWrite (k : IntKind) (mode : Mode) (c : Ctx) (x : Int) : M Writer Ctx :=
  match mode with
  | none => do
    k.traits.write x
    pure c
  | some path => ctxWrite k path c x

/-- read of an integral value, CompoundField.inc.ftl:184-201 -/
def intRead (k : IntKind) (mode : Mode) (c : Ctx) : M Reader (Int × Ctx) :=
  match mode with
  | none => do
    let x ← k.traits.read 0
    pure (x, c)
  | some path => ctxRead k path c

/-- `init(traits, value)`, CompoundField.inc.ftl:554-560 -/
def intInit (k : IntKind) (path : List Nat) (c : Ctx) (v : Val) : Except Err Ctx := do
  let x ← v.asInt
  let d ← (c path).init k.traits x
  .ok (c.update path d)

/-- Integral types, CompoundField.inc.ftl:90-112, 130-154, 184-208, 294-310, 554-562. -/
def intMethods (k : IntKind) : Methods where
  constSize := k.traits.constSize
  initPacking := intInit k
  bitsizeof := intSize k
  initOffsets := fun mode c p v => do
    let (n, c) ← intSize k mode c p v
    .ok (p + n, v, c)
  write := fun mode c v => do
    let x ← M.lift v.asInt
    intWrite k mode c x
  read := fun mode c _ => do
    let (x, c) ← intRead k mode c
    pure (.int x, c)

/-- the value of an enumeration item, Enumeration.py.ftl:118-178; a value that is not an item is not an object of the type -/
def enumValue (e : EnumDef) (v : Val) : Except Err Int := do
  let x ← v.asInt
  if x ∈ e.items then .ok x else .error .type

/-- Enumeration.py.ftl:150-178 `bitsizeof`, `bitsizeof_packed` -/
def enumSize (e : EnumDef) (mode : Mode) (c : Ctx) (p : Nat) (v : Val) : Except Err (Nat × Ctx) := do
  let x ← enumValue e v
  intSize e.underlying mode c p (.int x)

/-- Enumeration.py.ftl:218-264 `write`, `write_packed` with the check of removed items -/
def enumWrite (e : EnumDef) (mode : Mode) (c : Ctx) (v : Val) : M Writer Ctx := do
  let x ← M.lift (enumValue e v)
  if x ∈ e.removed then M.throw .removedItem else intWrite e.underlying mode c x

/-- Enumeration.py.ftl:55-88 `from_reader`, `from_reader_packed`: `cls(value)` raises `ValueError` for an unknown value -/
def enumRead (e : EnumDef) (mode : Mode) (c : Ctx) : M Reader (Val × Ctx) := do
  let (x, c) ← intRead e.underlying mode c
  if x ∈ e.items then pure (.int x, c) else M.throw .enumValue

/-- Enumerations, Enumeration.py.ftl; arrays of them use `ObjectArrayTraits` (array.py:1990-2066), which has no constant
size. -/
def enumMethods (e : EnumDef) : Methods where
  constSize := none
  initPacking := fun path c v => do
    let x ← enumValue e v
    intInit e.underlying path c (.int x)
  bitsizeof := enumSize e
  initOffsets := fun mode c p v => do
    let (n, c) ← enumSize e mode c p v
    .ok (p + n, v, c)
  write := enumWrite e
  read := fun mode c _ => enumRead e mode c

/-- Bitmask.py.ftl:150-245 `bitsizeof`, `bitsizeof_packed`: unlike for integral fields the value is always needed -/
def bitmaskSize (k : IntKind) (mode : Mode) (c : Ctx) (p : Nat) (v : Val) : Except Err (Nat × Ctx) := do
  let x ← v.asInt
  intSize k mode c p (.int x)

/-- Bitmasks, Bitmask.py.ftl:43-72 (`from_reader`), 150-268. -/
def bitmaskMethods (k : IntKind) : Methods where
  constSize := none
  initPacking := intInit k
  bitsizeof := bitmaskSize k
  initOffsets := fun mode c p v => do
    let (n, c) ← bitmaskSize k mode c p v
    .ok (p + n, v, c)
  write := fun mode c v => do
    let x ← M.lift v.asInt
    intWrite k mode c x
  read := fun mode c _ => do
    let (x, c) ← intRead k mode c
    pure (.int x, c)

/-- evaluation of the arguments of a compound field, CompoundField.inc.ftl:252-262 -/
def evalArgs : List (Expr Int) → Env → Except Err (List Int)
  | [], _ => .ok []
  | a :: as, env => do
    let v ← a env
    let vs ← evalArgs as env
    .ok (v :: vs)

/-- Compound types: CompoundField.inc.ftl:203-207 `from_reader`, element factory 462-519. -/
def compoundMethods (k : Codec) (args : List (Expr Int)) (env : Env) : Methods where
  constSize := none
  initPacking := k.initPacking
  bitsizeof := k.bitsizeof
  initOffsets := k.initOffsets
  write := k.write
  read := fun mode c i => do
    let ps ← M.lift (evalArgs args { env with index := i })
    k.read mode c ps

/-- bit field types with a dynamic length `bit<length>` / `int<length>`; a negative length raises here (the template would
subtract it in `bitsizeof`; `write_bits` rejects it) -/
def dynKind (signed : Bool) (length : Int) : Except Err IntKind :=
  if length < 0 then .error .numbits
  else .ok (if signed then .signedBitField length.toNat else .bitField length.toNat)

/-- The methods of an element type. -/
def ElemType.methods (codecs : Nat → Codec) (env : Env) : ElemType → Except Err Methods
  | .int k => .ok (intMethods k)
  | .other b => .ok (otherMethods b)
  | .dynBits signed length => do
    let n ← length env
    let k ← dynKind signed n
    .ok (intMethods k)
  | .enum e => .ok (enumMethods e)
  | .bitmask k => .ok (bitmaskMethods k)
  | .compound id args => .ok (compoundMethods (codecs id) args env)

namespace Methods

/-- the array traits of the elements -/
def traits (m : Methods) : Traits Val where
  constSize := m.constSize
  bitsizeof := fun p v => do
    let (n, _) ← m.bitsizeof none Ctx.empty p v
    .ok n
  initOffsets := fun p v => do
    let (p, v, _) ← m.initOffsets none Ctx.empty p v
    .ok (p, v)
  read := fun i => do
    let (v, _) ← m.read none Ctx.empty i
    pure v
  write := fun v => do
    let _ ← m.write none Ctx.empty v
    pure ()

/-- the packed array traits of the elements: `PackedArrayTraits` (array.py:627-708) or `ObjectPackedArrayTraits`
(array.py:711-796) -/
def packedTraits (m : Methods) : PackedTraits Ctx Val where
  createContext := Ctx.empty
  initContext := m.initPacking []
  bitsizeof := m.bitsizeof (some [])
  initOffsets := m.initOffsets (some [])
  write := m.write (some [])
  read := m.read (some [])

end Methods

/-! ### Offsets -/

/-- `bytes_to_bits(<offset getter>)` compared with the position, CompoundField.inc.ftl:327-335 -/
def checkOffset (field : Nat) (fields : List Val) (p : Nat) : Except Err Unit :=
  match fields[field]? with
  | some v => do
    let o ← v.asInt
    if (p : Int) ≠ bytesToBits o then .error .offset else .ok ()
  | none => .error .type

/-- `<offset setter>` with `value = bits_to_bytes(end_bitposition)`, CompoundField.inc.ftl:130-134 -/
def setOffset (field : Nat) (fields : List Val) (p : Nat) : Except Err (List Val) := do
  let value ← bitsToBytes p
  if field < fields.length then .ok (fields.set field (.int value)) else .error .type

/-- offset checker of an array with indexed offsets, CompoundField.inc.ftl:437-442 -/
def checkOffsetAt (field : Nat) (index p : Nat) (fields : List Val) : Except Err Unit :=
  match fields[field]? with
  | some v => do
    let xs ← v.asArr
    match xs[index]? with
    | none => .error .index
    | some o => do
      let o ← o.asInt
      if (p : Int) ≠ bytesToBits o then .error .offset else .ok ()
  | none => .error .type

/-- offset setter of an array with indexed offsets, CompoundField.inc.ftl:449-455 -/
def setOffsetAt (field : Nat) (index p : Nat) (fields : List Val) : Except Err (List Val) := do
  let value ← bitsToBytes p
  match fields[field]? with
  | some v => do
    let xs ← v.asArr
    if index < xs.length then .ok (fields.set field (.arr (xs.set index (.int value)))) else .error .index
  | none => .error .type

namespace FieldDef

/-- the constructor arguments of the `Array` of an array field, CompoundField.inc.ftl:227-237 -/
def arrayCfg (f : FieldDef) (a : ArrayDef) : ArrayCfg (List Val) where
  isAuto := match a.kind with
    | .auto => true
    | _ => false
  isImplicit := match a.kind with
    | .implicit => true
    | _ => false
  setOffset := match f.offset with
    | some o => if o.indexed then some (setOffsetAt o.field) else none
    | none => none
  checkOffset := match f.offset with
    | some o => if o.indexed then some (checkOffsetAt o.field) else none
    | none => none

/-- the offset of the field itself (not of the elements) -/
def ownOffset (f : FieldDef) : Option Nat :=
  match f.offset with
  | some o => if o.indexed then none else some o.field
  | none => none

/-- Whether and where the field itself uses the packing context (`uses_field_packing_context`, CompoundField.inc.ftl:664-669);
a recursive optional field shares the context of its parent (CompoundField.inc.ftl:612-614).  `slot` identifies the member. -/
def fieldMode (f : FieldDef) (slot : Nat) : Mode → Mode
  | none => none
  | some path => if f.packable then (if f.recursive then some path else some (path ++ [slot])) else none

/-- whether the packed methods of `Array` are used, CompoundField.inc.ftl:239-243 `array_field_packed_suffix` -/
def arrayPacked (f : FieldDef) (a : ArrayDef) (mode : Mode) : Bool := f.packable && (mode.isSome || a.isPacked)

/-- `is_<field>_used`, Structure.py.ftl:312-317 -/
def isUsed (f : FieldDef) (env : Env) (v : Val) : Except Err Bool :=
  match f.optional with
  | .required => .ok true
  | .auto => .ok (!v.isNone)
  | .clause e => e env

/-! ### bitsizeof -/

/-- CompoundField.inc.ftl:107-108: the size of an array field -/
def bitsizeofArray (f : FieldDef) (a : ArrayDef) (m : Methods) (mode : Mode) (p : Nat) (xs : List Val) : Except Err Nat :=
  if f.arrayPacked a mode then Array'.bitsizeofPacked m.packedTraits (f.arrayCfg a) p xs
  else Array'.bitsizeof m.traits (f.arrayCfg a) p xs

/-- CompoundField.inc.ftl:103-108: the size of the value of the field -/
def bitsizeofValue (codecs : Nat → Codec) (f : FieldDef) (env : Env) (slot : Nat) (mode : Mode) (c : Ctx) (p : Nat) (v : Val) :
    Except Err (Nat × Ctx) := do
  let m ← f.type.methods codecs env
  match f.array with
  | none => m.bitsizeof (f.fieldMode slot mode) c p v
  | some a => do
    let xs ← v.asArr
    let n ← f.bitsizeofArray a m mode p xs
    .ok (n, c)

/-- `alignto(value, position)` with the alignment of the field (bitposition.py:8-20) -/
def alignPos (a : Option Nat) (p : Nat) : Nat :=
  match a with
  | some a => (alignTo a p).toNat
  | none => p

/-- CompoundField.inc.ftl:113-122 `compound_align_field` -/
def alignField (f : FieldDef) (p : Nat) : Nat :=
  let p := alignPos f.alignment p
  if f.ownOffset.isSome then Array'.align8 p else p

/-- CompoundField.inc.ftl:80-111 `compound_bitsizeof_field_inner`; returns the new `end_bitposition` -/
def bitsizeofInner (codecs : Nat → Codec) (f : FieldDef) (env : Env) (slot : Nat) (mode : Mode) (c : Ctx) (p : Nat) (v : Val) :
    Except Err (Nat × Ctx) := do
  let p := f.alignField p
  let (n, c) ← f.bitsizeofValue codecs env slot mode c p v
  .ok (p + n, c)

/-- the presence bit of an auto optional field, CompoundField.inc.ftl:71-74 -/
def autoBit (f : FieldDef) : Nat :=
  match f.optional with
  | .auto => 1
  | _ => 0

/-- CompoundField.inc.ftl:67-78 `compound_bitsizeof_field_optional` -/
def bitsizeofOptional (codecs : Nat → Codec) (f : FieldDef) (env : Env) (slot : Nat) (mode : Mode) (c : Ctx) (p : Nat) (v : Val) :
    Except Err (Nat × Ctx) := do
  let p := p + f.autoBit
  let used ← f.isUsed env v
  if used then f.bitsizeofInner codecs env slot mode c p v else .ok (p, c)

/-- CompoundField.inc.ftl:56-65 `compound_bitsizeof_field` -/
def bitsizeof (codecs : Nat → Codec) (f : FieldDef) (env : Env) (slot : Nat) (present : Bool) (mode : Mode) (c : Ctx) (p : Nat)
    (v : Val) : Except Err (Nat × Ctx) :=
  if f.extended then
    if present then f.bitsizeofOptional codecs env slot mode c (Array'.align8 p) v else .ok (p, c)
  else f.bitsizeofOptional codecs env slot mode c p v

/-! ### initialize_offsets: also returns the fields before, in which offsets may have been set -/

/-- CompoundField.inc.ftl:150-151 -/
def initOffsetsArray (f : FieldDef) (a : ArrayDef) (m : Methods) (mode : Mode) (p : Nat) (xs fields : List Val) :
    Except Err (Nat × List Val × List Val) :=
  if f.arrayPacked a mode then Array'.initOffsetsPacked m.packedTraits (f.arrayCfg a) p xs fields
  else Array'.initOffsets m.traits (f.arrayCfg a) p xs fields

/-- CompoundField.inc.ftl:145-154 -/
def initOffsetsValue (codecs : Nat → Codec) (f : FieldDef) (env : Env) (slot : Nat) (mode : Mode) (c : Ctx) (p : Nat) (v : Val) :
    Except Err (Nat × List Val × Val × Ctx) := do
  let m ← f.type.methods codecs env
  match f.array with
  | none => do
    let (p, v, c) ← m.initOffsets (f.fieldMode slot mode) c p v
    .ok (p, env.fields, v, c)
  | some a => do
    let xs ← v.asArr
    let (p, xs, fields) ← f.initOffsetsArray a m mode p xs env.fields
    .ok (p, fields, .arr xs, c)

/-- CompoundField.inc.ftl:130-134 -/
def initOwnOffset (f : FieldDef) (fields : List Val) (p : Nat) : Except Err (List Val) :=
  match f.ownOffset with
  | some o => setOffset o fields p
  | none => .ok fields

/-- CompoundField.inc.ftl:124-155 `compound_initialize_offsets_field_inner` -/
def initOffsetsInner (codecs : Nat → Codec) (f : FieldDef) (env : Env) (slot : Nat) (mode : Mode) (c : Ctx) (p : Nat) (v : Val) :
    Except Err (Nat × List Val × Val × Ctx) := do
  let p := f.alignField p
  let fields ← f.initOwnOffset env.fields p
  f.initOffsetsValue codecs { env with fields := fields } slot mode c p v

/-- CompoundField.inc.ftl:111-122 `compound_initialize_offsets_field_optional` -/
def initOffsetsOptional (codecs : Nat → Codec) (f : FieldDef) (env : Env) (slot : Nat) (mode : Mode) (c : Ctx) (p : Nat)
    (v : Val) : Except Err (Nat × List Val × Val × Ctx) := do
  let p := p + f.autoBit
  let used ← f.isUsed env v
  if used then f.initOffsetsInner codecs env slot mode c p v else .ok (p, env.fields, v, c)

/-- CompoundField.inc.ftl:115-122 `compound_initialize_offsets_field` -/
def initOffsets (codecs : Nat → Codec) (f : FieldDef) (env : Env) (slot : Nat) (present : Bool) (mode : Mode) (c : Ctx) (p : Nat)
    (v : Val) : Except Err (Nat × List Val × Val × Ctx) :=
  if f.extended then
    if present then f.initOffsetsOptional codecs env slot mode c (Array'.align8 p) v else .ok (p, env.fields, v, c)
  else f.initOffsetsOptional codecs env slot mode c p v

/-! ### read -/

/-- the length of an array with a fixed length, CompoundField.inc.ftl:236; `range` of a negative number is empty -/
def arraySize (a : ArrayDef) (env : Env) : Except Err Nat :=
  match a.kind with
  | .fixed length => do
    let n ← length env
    .ok n.toNat
  | _ => .ok 0

/-- CompoundField.inc.ftl:199-200, 234-237 -/
def readArray (f : FieldDef) (a : ArrayDef) (m : Methods) (mode : Mode) (fields : List Val) (size : Nat) : M Reader (List Val) :=
  if f.arrayPacked a mode then Array'.readPacked m.packedTraits (f.arrayCfg a) fields size
  else Array'.read m.traits (f.arrayCfg a) fields size

/-- CompoundField.inc.ftl:184-208: the value of the field -/
def readValue (codecs : Nat → Codec) (f : FieldDef) (env : Env) (slot : Nat) (mode : Mode) (c : Ctx) : M Reader (Val × Ctx) := do
  let m ← M.lift (f.type.methods codecs env)
  match f.array with
  | none => m.read (f.fieldMode slot mode) c 0
  | some a => do
    let size ← M.lift (arraySize a env)
    let xs ← f.readArray a m mode env.fields size
    pure (.arr xs, c)

/-- `reader.alignto(n)` if the field has an alignment, CompoundField.inc.ftl:186-188 -/
def readAlign (f : FieldDef) : M Reader Unit :=
  match f.alignment with
  | some a => Reader.alignto a
  | none => pure ()

/-- CompoundField.inc.ftl:189-192 -/
def readOffset (f : FieldDef) (env : Env) : M Reader Unit :=
  match f.ownOffset with
  | some o => do
    Reader.alignto 8
    let r ← M.get
    M.lift (Zserio.checkOffset o env.fields r.pos)
  | none => pure ()

/-- CompoundField.inc.ftl:337-344 `compound_check_constraint_field` -/
def checkConstraint (f : FieldDef) (env : Env) (v : Val) : Except Err Unit :=
  match f.constraint with
  | some e => do
    let b ← e { env with fields := env.fields ++ [v] }
    if b then .ok () else .error .constraint
  | none => .ok ()

/-- CompoundField.inc.ftl:184-210 `compound_read_field_inner` -/
def readInner (codecs : Nat → Codec) (f : FieldDef) (env : Env) (slot : Nat) (mode : Mode) (c : Ctx) : M Reader (Val × Ctx) := do
  f.readAlign
  f.readOffset env
  let (v, c) ← f.readValue codecs env slot mode c
  M.lift (f.checkConstraint env v)
  pure (v, c)

/-- CompoundField.inc.ftl:171-176: whether the optional field is in the stream -/
def readUsed (f : FieldDef) (env : Env) : M Reader Bool :=
  match f.optional with
  | .required => pure true
  | .auto => Reader.readBool
  | .clause e => M.lift (e env)

/-- CompoundField.inc.ftl:169-183 `compound_read_field` -/
def read (codecs : Nat → Codec) (f : FieldDef) (env : Env) (slot : Nat) (mode : Mode) (c : Ctx) : M Reader (Val × Ctx) := do
  let used ← f.readUsed env
  if used then f.readInner codecs env slot mode c else pure (.none, c)

/-! ### write -/

/-- CompoundField.inc.ftl:305-306 -/
def writeArray (f : FieldDef) (a : ArrayDef) (m : Methods) (mode : Mode) (fields xs : List Val) : M Writer Unit :=
  if f.arrayPacked a mode then Array'.writePacked m.packedTraits (f.arrayCfg a) fields xs
  else Array'.write m.traits (f.arrayCfg a) fields xs

/-- CompoundField.inc.ftl:294-310: the value of the field -/
def writeValue (codecs : Nat → Codec) (f : FieldDef) (env : Env) (slot : Nat) (mode : Mode) (c : Ctx) (v : Val) : M Writer Ctx := do
  let m ← M.lift (f.type.methods codecs env)
  match f.array with
  | none => m.write (f.fieldMode slot mode) c v
  | some a => do
    let xs ← M.lift v.asArr
    f.writeArray a m mode env.fields xs
    pure c

/-- `writer.alignto(n)` if the field has an alignment, CompoundField.inc.ftl:283-285 -/
def writeAlign (f : FieldDef) : M Writer Unit :=
  match f.alignment with
  | some a => Writer.alignto a
  | none => pure ()

/-- CompoundField.inc.ftl:286-289 -/
def writeOffset (f : FieldDef) (env : Env) : M Writer Unit :=
  match f.ownOffset with
  | some o => do
    Writer.alignto 8
    let w ← M.get
    M.lift (Zserio.checkOffset o env.fields w.pos)
  | none => pure ()

/-- CompoundField.inc.ftl:346-354 `compound_check_array_length_field` -/
def checkLength (f : FieldDef) (env : Env) (v : Val) : Except Err Unit :=
  match f.array with
  | some ⟨.fixed length, _⟩ => do
    let xs ← v.asArr
    let n ← length env
    if (xs.length : Int) ≠ n then .error .arrayLength else .ok ()
  | _ => .ok ()

/-- CompoundField.inc.ftl:356-368 `compound_check_parameterized_field`; not done for array elements -/
def checkParams (f : FieldDef) (env : Env) (v : Val) : Except Err Unit :=
  match f.array, f.type with
  | none, .compound _ args => do
    if args.isEmpty then .ok ()
    else
      let ps ← v.params
      let vs ← evalArgs args env
      if ps ≠ vs then .error .parameter else .ok ()
  | _, _ => .ok ()

/-- StdIntegerType.java:96-99, FixedBitFieldType.java:71-74, VarIntegerType.java:108-157 `getLowerBound` -/
def lowest : IntKind → Int
  | .bitField _ => 0
  | .signedBitField n => -(2 ^ (n - 1))
  | .var .varint16 => 1 - 2 ^ 14
  | .var .varint32 => 1 - 2 ^ 28
  | .var .varint64 => 1 - 2 ^ 56
  | .var .varint => -(2 ^ 63)
  | .var .varuint16 => 0
  | .var .varuint32 => 0
  | .var .varuint64 => 0
  | .var .varuint => 0
  | .var .varsize => 0

/-- StdIntegerType.java:90-93, FixedBitFieldType.java:65-68, VarIntegerType.java:102-157 `getUpperBound` -/
def highest : IntKind → Int
  | .bitField n => 2 ^ n - 1
  | .signedBitField n => 2 ^ (n - 1) - 1
  | .var .varint16 => 2 ^ 14 - 1
  | .var .varint32 => 2 ^ 28 - 1
  | .var .varint64 => 2 ^ 56 - 1
  | .var .varint => 2 ^ 63 - 1
  | .var .varuint16 => 2 ^ 15 - 1
  | .var .varuint32 => 2 ^ 29 - 1
  | .var .varuint64 => 2 ^ 57 - 1
  | .var .varuint => 2 ^ 64 - 1
  | .var .varsize => 2 ^ 31 - 1

/-- the bounds of a bit field with an expression, CompoundField.inc.ftl:374-378 -/
def dynBounds (signed : Bool) (n : Int) : Except Err (Int × Int) :=
  if signed then do
    let lo ← signedBitfieldLowerbound n
    let hi ← signedBitfieldUpperbound n
    .ok (lo, hi)
  else do
    let lo ← bitfieldLowerbound n
    let hi ← bitfieldUpperbound n
    .ok (lo, hi)

/-- `lowerbound = …` and `upperbound = …`, CompoundField.inc.ftl:374-381; `none` if there is no range check: the type of the
field (an array type for arrays) is not an `IntegerType` (CompoundFieldTemplateData.java:529-533) -/
def rangeBounds (f : FieldDef) (env : Env) : Except Err (Option (Int × Int)) :=
  match f.array, f.type with
  | none, .int k => .ok (some (lowest k, highest k))
  | none, .dynBits signed length => do
    let n ← length env
    let b ← dynBounds signed n
    .ok (some b)
  | _, _ => .ok none

/-- CompoundField.inc.ftl:370-388 `compound_check_range_field` -/
def checkRange (f : FieldDef) (env : Env) (v : Val) : Except Err Unit :=
  if f.rangeCheck then do
    let bounds ← f.rangeBounds env
    match bounds with
    | some (lo, hi) => do
      let x ← v.asInt
      if x < lo ∨ x > hi then .error .range else .ok ()
    | none => .ok ()
  else .ok ()

/-- the checks of CompoundField.inc.ftl:290-293 -/
def writeChecks (f : FieldDef) (env : Env) (v : Val) : Except Err Unit := do
  f.checkConstraint env v
  f.checkLength env v
  f.checkParams env v
  f.checkRange env v

/-- CompoundField.inc.ftl:281-311 `compound_write_field_inner` -/
def writeInner (codecs : Nat → Codec) (f : FieldDef) (env : Env) (slot : Nat) (mode : Mode) (c : Ctx) (v : Val) : M Writer Ctx := do
  f.writeAlign
  f.writeOffset env
  M.lift (f.writeChecks env v)
  f.writeValue codecs env slot mode c v

/-- the presence bit of an auto optional field, CompoundField.inc.ftl:270-277 -/
def writeAutoBit (f : FieldDef) (used : Bool) : M Writer Unit :=
  match f.optional with
  | .auto => Writer.writeBool used
  | _ => pure ()

/-- CompoundField.inc.ftl:266-280 `compound_write_field_optional` -/
def writeOptional (codecs : Nat → Codec) (f : FieldDef) (env : Env) (slot : Nat) (mode : Mode) (c : Ctx) (v : Val) :
    M Writer Ctx := do
  let used ← M.lift (f.isUsed env v)
  f.writeAutoBit used
  if used then f.writeInner codecs env slot mode c v else pure c

/-- CompoundField.inc.ftl:256-264 `compound_write_field` -/
def write (codecs : Nat → Codec) (f : FieldDef) (env : Env) (slot : Nat) (present : Bool) (mode : Mode) (c : Ctx) (v : Val) :
    M Writer Ctx :=
  if f.extended then
    if present then do
      Writer.alignto 8
      f.writeOptional codecs env slot mode c v
    else pure c
  else f.writeOptional codecs env slot mode c v

/-! ### init_packing_context -/

/-- CompoundField.inc.ftl:552-560 `compound_init_packing_context_field_inner` -/
def initPackingInner (codecs : Nat → Codec) (f : FieldDef) (env : Env) (slot : Nat) (path : List Nat) (c : Ctx) (v : Val) :
    Except Err Ctx :=
  match f.array, f.fieldMode slot (some path) with
  | none, some q => do
    let m ← f.type.methods codecs env
    m.initPacking q c v
  | _, _ => .ok c

/-- CompoundField.inc.ftl:532-550 `compound_init_packing_context_field`; a field that does not use the context has no code -/
def initPacking (codecs : Nat → Codec) (f : FieldDef) (env : Env) (slot : Nat) (present : Bool) (path : List Nat) (c : Ctx)
    (v : Val) : Except Err Ctx :=
  if f.packable && f.array.isNone then
    if f.extended && !present then .ok c
    else do
      let used ← f.isUsed env v
      if used then f.initPackingInner codecs env slot path c v else .ok c
  else .ok c

end FieldDef

/-! ### Structures -/

namespace Struct

/-- `is_<field>_present`, Structure.py.ftl:300-302: `base` is the number of fields that are not extended -/
def isPresent (numExt base index : Nat) : Bool := decide (numExt > index - base)

/-- Structure.py.ftl:374-396, 398-431 `bitsizeof`, `bitsizeof_packed`; `prior` are the fields already processed.  An object with
another number of members is not an object of the class. -/
def bitsizeof (codecs : Nat → Codec) (params : List Int) (numExt base : Nat) (mode : Mode) :
    List FieldDef → (prior : List Val) → List Val → Ctx → Nat → Except Err (Nat × Ctx)
  | [], _, [], c, p => .ok (p, c)
  | f :: fs, prior, v :: vs, c, p => do
    let (p, c) ← f.bitsizeof codecs ⟨params, prior, 0⟩ (prior.length + 1) (isPresent numExt base prior.length) mode c p v
    bitsizeof codecs params numExt base mode fs (prior ++ [v]) vs c p
  | _, _, _, _, _ => .error .type

/-- Structure.py.ftl:433-455, 457-496 `initialize_offsets`, `initialize_offsets_packed` -/
def initOffsets (codecs : Nat → Codec) (params : List Int) (numExt base : Nat) (mode : Mode) :
    List FieldDef → (prior : List Val) → List Val → Ctx → Nat → Except Err (Nat × List Val × Ctx)
  | [], prior, [], c, p => .ok (p, prior, c)
  | f :: fs, prior, v :: vs, c, p => do
    let (p, prior, v, c) ←
      f.initOffsets codecs ⟨params, prior, 0⟩ (prior.length + 1) (isPresent numExt base prior.length) mode c p v
    initOffsets codecs params numExt base mode fs (prior ++ [v]) vs c p
  | _, _, _, _, _ => .error .type

/-- Structure.py.ftl:581-599, 601-630 `write`, `write_packed` -/
def write (codecs : Nat → Codec) (params : List Int) (numExt base : Nat) (mode : Mode) :
    List FieldDef → (prior : List Val) → List Val → Ctx → M Writer Ctx
  | [], _, [], c => pure c
  | f :: fs, prior, v :: vs, c => do
    let c ← f.write codecs ⟨params, prior, 0⟩ (prior.length + 1) (isPresent numExt base prior.length) mode c v
    write codecs params numExt base mode fs (prior ++ [v]) vs c
  | _, _, _, _ => M.throw .type

/-- Structure.py.ftl:508-516: an extended field is read only if the stream does not end before it -/
def readField (codecs : Nat → Codec) (f : FieldDef) (env : Env) (slot : Nat) (mode : Mode) (numExt : Nat) (c : Ctx) :
    M Reader (Val × Nat × Ctx) :=
  if f.extended then do
    let r ← M.get
    if (Array'.align8 r.pos : Int) ≥ r.bitsize then pure (f.default, numExt, c)
    else do
      Reader.alignto 8
      let (v, c) ← f.read codecs env slot mode c
      pure (v, numExt + 1, c)
  else do
    let (v, c) ← f.read codecs env slot mode c
    pure (v, numExt, c)

/-- Structure.py.ftl:498-530, 532-579 `read`, `read_packed` -/
def read (codecs : Nat → Codec) (params : List Int) (mode : Mode) :
    List FieldDef → (prior : List Val) → (numExt : Nat) → Ctx → M Reader (List Val × Nat × Ctx)
  | [], prior, numExt, c => pure (prior, numExt, c)
  | f :: fs, prior, numExt, c => do
    let (v, numExt, c) ← readField codecs f ⟨params, prior, 0⟩ (prior.length + 1) mode numExt c
    read codecs params mode fs (prior ++ [v]) numExt c

/-- Structure.py.ftl:343-372 `init_packing_context` -/
def initPacking (codecs : Nat → Codec) (params : List Int) (numExt base : Nat) (path : List Nat) :
    List FieldDef → (prior : List Val) → List Val → Ctx → Except Err Ctx
  | [], _, [], c => .ok c
  | f :: fs, prior, v :: vs, c => do
    let c ← f.initPacking codecs ⟨params, prior, 0⟩ (prior.length + 1) (isPresent numExt base prior.length) path c v
    initPacking codecs params numExt base path fs (prior ++ [v]) vs c
  | _, _, _, _ => .error .type

/-- number of fields that are not extended -/
def base (fs : List FieldDef) : Nat := fs.length - numExtended fs

/-- A structure, Structure.py.ftl.  `from_reader` (69-86) starts with `_num_extended_fields = 0`. -/
def codec (codecs : Nat → Codec) (fs : List FieldDef) : Codec where
  initPacking := fun path c v =>
    match v with
    | .obj ps k _ vs => initPacking codecs ps k (base fs) path fs [] vs c
    | _ => .error .type
  bitsizeof := fun mode c p v =>
    match v with
    | .obj ps k _ vs => do
      let (e, c) ← bitsizeof codecs ps k (base fs) mode fs [] vs c p
      .ok (e - p, c)
    | _ => .error .type
  initOffsets := fun mode c p v =>
    match v with
    | .obj ps k tag vs => do
      let (e, vs, c) ← initOffsets codecs ps k (base fs) mode fs [] vs c p
      .ok (e, .obj ps k tag vs, c)
    | _ => .error .type
  write := fun mode c v =>
    match v with
    | .obj ps k _ vs => write codecs ps k (base fs) mode fs [] vs c
    | _ => M.throw .type
  read := fun mode c ps => do
    let (vs, k, c) ← read codecs ps mode fs [] 0 c
    pure (.obj ps k 0 vs, c)

end Struct

/-! ### Unions and choices: a single member `_choice` -/

namespace Branch

/-- the size of the selected member: an empty case of a choice has no code (Choice.py.ftl:370-377) -/
def bitsizeof (codecs : Nat → Codec) (f : Option FieldDef) (params : List Int) (slot : Nat) (mode : Mode) (c : Ctx) (p : Nat)
    (v : Val) : Except Err (Nat × Ctx) :=
  match f with
  | some f => f.bitsizeof codecs ⟨params, [], 0⟩ slot true mode c p v
  | none => .ok (p, c)

/-- Choice.py.ftl:430-437 -/
def initOffsets (codecs : Nat → Codec) (f : Option FieldDef) (params : List Int) (slot : Nat) (mode : Mode) (c : Ctx) (p : Nat)
    (v : Val) : Except Err (Nat × Val × Ctx) :=
  match f with
  | some f => do
    let (p, _, v, c) ← f.initOffsets codecs ⟨params, [], 0⟩ slot true mode c p v
    .ok (p, v, c)
  | none => .ok (p, v, c)

/-- Choice.py.ftl:554-562 -/
def write (codecs : Nat → Codec) (f : Option FieldDef) (params : List Int) (slot : Nat) (mode : Mode) (c : Ctx) (v : Val) :
    M Writer Ctx :=
  match f with
  | some f => f.write codecs ⟨params, [], 0⟩ slot true mode c v
  | none => pure c

/-- Choice.py.ftl:499-506: an empty case does not assign `_choice` -/
def read (codecs : Nat → Codec) (f : Option FieldDef) (params : List Int) (slot : Nat) (mode : Mode) (c : Ctx) :
    M Reader (Val × Ctx) :=
  match f with
  | some f => f.read codecs ⟨params, [], 0⟩ slot mode c
  | none => pure (.unset, c)

/-- Choice.py.ftl:335-347, Union.py.ftl:307-315 -/
def initPacking (codecs : Nat → Codec) (f : Option FieldDef) (params : List Int) (slot : Nat) (path : List Nat) (c : Ctx)
    (v : Val) : Except Err Ctx :=
  match f with
  | some f => f.initPacking codecs ⟨params, [], 0⟩ slot true path c v
  | none => .ok c

end Branch

namespace Union

/-- `union_if`, Union.py.ftl:15-22: the field with the tag (`CHOICE_<FIELD>` is the index of the field) or no match -/
def select (fs : List FieldDef) (tag : Int) : Except Err FieldDef :=
  if tag < 0 then .error .noMatch
  else
    match fs[tag.toNat]? with
    | some f => .ok f
    | none => .error .noMatch

/-- the tag uses the context `choice_tag` of the union's `ZserioPackingContext` (Union.py.ftl:326-328, 372-380) -/
def tagMode : Mode → Mode
  | none => none
  | some path => some (path ++ [0])

/-- number of the member's context -/
def slot (tag : Int) : Nat := tag.toNat + 1

/-- A union, Union.py.ftl.  A union without fields (which the compiler rejects) is not modelled. -/
def codec (codecs : Nat → Codec) (fs : List FieldDef) : Codec where
  initPacking := fun path c v =>
    match v with
    | .obj ps _ tag [v] => do
      let c ← intInit (.var .varsize) (path ++ [0]) c (.int tag)
      let f ← select fs tag
      Branch.initPacking codecs (some f) ps (slot tag) path c v
    | _ => .error .type
  bitsizeof := fun mode c p v =>
    match v with
    | .obj ps _ tag [v] => do
      let (n, c) ← intSize (.var .varsize) (tagMode mode) c p (.int tag)
      let f ← select fs tag
      let (e, c) ← Branch.bitsizeof codecs (some f) ps (slot tag) mode c (p + n) v
      .ok (e - p, c)
    | _ => .error .type
  initOffsets := fun mode c p v =>
    match v with
    | .obj ps k tag [v] => do
      let (n, c) ← intSize (.var .varsize) (tagMode mode) c p (.int tag)
      let f ← select fs tag
      let (e, v, c) ← Branch.initOffsets codecs (some f) ps (slot tag) mode c (p + n) v
      .ok (e, .obj ps k tag [v], c)
    | _ => .error .type
  write := fun mode c v =>
    match v with
    | .obj ps _ tag [v] => do
      let c ← intWrite (.var .varsize) (tagMode mode) c tag
      let f ← M.lift (select fs tag)
      Branch.write codecs (some f) ps (slot tag) mode c v
    | _ => M.throw .type
  read := fun mode c ps => do
    let (tag, c) ← intRead (.var .varsize) (tagMode mode) c
    let f ← M.lift (select fs tag)
    let (v, c) ← Branch.read codecs (some f) ps (slot tag) mode c
    pure (.obj ps 0 tag [v], c)

end Union

namespace Choice

/-- `choice_if`, Choice.py.ftl:22-46: the member for the value of the selector, with its number, or no match -/
def selectCase : List CaseDef → (default : Option (Option FieldDef)) → (number : Nat) → Int → Except Err (Option FieldDef × Nat)
  | [], some f, n, _ => .ok (f, n)
  | [], none, _, _ => .error .noMatch
  | k :: ks, default, n, selector => if selector ∈ k.values then .ok (k.field, n) else selectCase ks default (n + 1) selector

/-- evaluation of the selector and selection of the member -/
def select (selector : Expr Int) (cases : List CaseDef) (default : Option (Option FieldDef)) (params : List Int) :
    Except Err (Option FieldDef × Nat) := do
  let s ← selector ⟨params, [], 0⟩
  selectCase cases default 1 s

/-- A choice, Choice.py.ftl.  A choice without any field (`fieldList` empty) is not modelled. -/
def codec (codecs : Nat → Codec) (selector : Expr Int) (cases : List CaseDef) (default : Option (Option FieldDef)) : Codec where
  initPacking := fun path c v =>
    match v with
    | .obj ps _ _ [v] => do
      let (f, slot) ← select selector cases default ps
      Branch.initPacking codecs f ps slot path c v
    | _ => .error .type
  bitsizeof := fun mode c p v =>
    match v with
    | .obj ps _ _ [v] => do
      let (f, slot) ← select selector cases default ps
      let (e, c) ← Branch.bitsizeof codecs f ps slot mode c p v
      .ok (e - p, c)
    | _ => .error .type
  initOffsets := fun mode c p v =>
    match v with
    | .obj ps k tag [v] => do
      let (f, slot) ← select selector cases default ps
      let (e, v, c) ← Branch.initOffsets codecs f ps slot mode c p v
      .ok (e, .obj ps k tag [v], c)
    | _ => .error .type
  write := fun mode c v =>
    match v with
    | .obj ps _ _ [v] => do
      let (f, slot) ← M.lift (select selector cases default ps)
      Branch.write codecs f ps slot mode c v
    | _ => M.throw .type
  read := fun mode c ps => do
    let (f, slot) ← M.lift (select selector cases default ps)
    let (v, c) ← Branch.read codecs f ps slot mode c
    pure (.obj ps 0 0 [v], c)

end Choice

/-- The methods of a compound, given the methods of the compounds it refers to. -/
def CompoundDef.codec (codecs : Nat → Codec) : CompoundDef → Codec
  | .struct fs => Struct.codec codecs fs
  | .union fs => Union.codec codecs fs
  | .choice selector cases default => Choice.codec codecs selector cases default

/-- A call exceeding the recursion limit of the interpreter raises `RecursionError`. -/
def Codec.limit : Codec where
  initPacking := fun _ _ _ => .error .recursion
  bitsizeof := fun _ _ _ _ => .error .recursion
  initOffsets := fun _ _ _ _ => .error .recursion
  write := fun _ _ _ => M.throw .recursion
  read := fun _ _ _ => M.throw .recursion

/-- The methods of the compound `id` of a schema when calls can be nested at most `n` deep. -/
def Schema.codec (defs : Schema) : (n : Nat) → (id : Nat) → Codec
  | 0, _ => Codec.limit
  | n + 1, id => (defs id).codec (Schema.codec defs n)

/-! ### The methods a user calls -/

/-- `obj.bitsizeof(bitposition)` -/
def Codec.sizeOf (k : Codec) (p : Nat) (v : Val) : Except Err Nat := do
  let (n, _) ← k.bitsizeof none Ctx.empty p v
  .ok n

/-- `obj.initialize_offsets(bitposition)`: the end position and the object afterwards -/
def Codec.initialize (k : Codec) (p : Nat) (v : Val) : Except Err (Nat × Val) := do
  let (e, v, _) ← k.initOffsets none Ctx.empty p v
  .ok (e, v)

/-- `obj.write(writer)` -/
def Codec.writeTo (k : Codec) (v : Val) : M Writer Unit := do
  let _ ← k.write none Ctx.empty v
  pure ()

/-- `T.from_reader(reader, params...)` -/
def Codec.fromReader (k : Codec) (ps : List Int) : M Reader Val := do
  let (v, _) ← k.read none Ctx.empty ps
  pure v

end Zserio
