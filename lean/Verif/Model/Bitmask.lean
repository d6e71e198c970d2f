import Verif.Model.CompoundEq
import Mathlib.Data.Int.Bitwise
/-
Model of the generated bitmask classes (Bitmask.py.ftl), at the level of their own API.  `Model/Compound.lean` uses bitmasks
inside of compounds through their value only.

Python's `|`, `&`, `^` and `~` on integers work on infinite two's complements: `Int.lor`, `Int.land`, `Int.xor`, `Int.lnot`.
-/
namespace Zserio

/-- A bitmask type: its underlying type and the named values (BitmaskType.java:96-190). -/
structure BitmaskDef where
  underlying : IntKind
  values : List (PyStr × Int)

namespace BitmaskDef

/-- BitmaskEmitterTemplateData.java:102-112 `getLowerBound`, DynamicBitFieldInstantiation.java:130-162,
StdIntegerType.java:96-99, FixedBitFieldType.java:71-74, VarIntegerType.java:108-157.  (The signed types cannot be used,
BitmaskType.java:96-124; their bounds are those of the compiler all the same.) -/
def lowerBound (d : BitmaskDef) : Int :=
  match d.underlying with
  | .bitField _ => 0
  | .signedBitField n => -(2 ^ (n - 1))
  | .var .varint16 => 1 - 2 ^ 14
  | .var .varint32 => 1 - 2 ^ 28
  | .var .varint64 => 1 - 2 ^ 56
  | .var .varint => -(2 ^ 63)
  | .var .varuint16 => 0
  | .var .varuint32 => 0
  | .var .varuint64 => 0
  | .var .varuint => 0
  | .var .varsize => 0

/-- BitmaskEmitterTemplateData.java:91-101 `getUpperBound`, DynamicBitFieldInstantiation.java:130-162,
StdIntegerType.java:90-93, FixedBitFieldType.java:65-68, VarIntegerType.java:102-157 -/
def upperBound (d : BitmaskDef) : Int :=
  match d.underlying with
  | .bitField n => 2 ^ n - 1
  | .signedBitField n => 2 ^ (n - 1) - 1
  | .var .varint16 => 2 ^ 14 - 1
  | .var .varint32 => 2 ^ 28 - 1
  | .var .varint64 => 2 ^ 56 - 1
  | .var .varint => 2 ^ 63 - 1
  | .var .varuint16 => 2 ^ 15 - 1
  | .var .varuint32 => 2 ^ 29 - 1
  | .var .varuint64 => 2 ^ 57 - 1
  | .var .varuint => 2 ^ 64 - 1
  | .var .varsize => 2 ^ 31 - 1

end BitmaskDef

/-- An instance: `self._value`, Bitmask.py.ftl:16-23. -/
structure Bitmask (d : BitmaskDef) where
  value : Int
  deriving DecidableEq

namespace Bitmask
variable {d : BitmaskDef}

/-- Bitmask.py.ftl:16-23 `__init__` -/
def new : Bitmask d := ⟨0⟩

/-- Bitmask.py.ftl:25-40 `from_value` -/
def fromValue (value : Int) : Except Err (Bitmask d) :=
  if value < d.lowerBound ∨ value > d.upperBound then .error .bitmaskBounds
  else .ok ⟨value⟩

/-- Bitmask.py.ftl:42-54 `from_reader` -/
def fromReader (d : BitmaskDef) : M Reader (Bitmask d) := do
  let value ← d.underlying.traits.read 0
  pure ⟨value⟩

/-- Bitmask.py.ftl:57-76 `from_reader_packed` -/
def fromReaderPacked (d : BitmaskDef) (c : DeltaContext) : M Reader (Bitmask d × DeltaContext) := do
  let (value, c) ← c.read d.underlying.traits
  pure (⟨value⟩, c)

/-- Bitmask.py.ftl:104-108 `__eq__` with another instance of the class -/
def eq (a b : Bitmask d) : Bool := same a.value b.value

/-- Bitmask.py.ftl:110-113 `__hash__`, the suffix from RuntimeFunctionDataCreator.java:177-252 -/
def hash (a : Bitmask d) : Int := hashIntegral d.underlying.wide HASH_SEED (some a.value)

/-- Bitmask.py.ftl:133-134 `__or__` -/
def or (a b : Bitmask d) : Except Err (Bitmask d) := fromValue (Int.lor a.value b.value)

/-- Bitmask.py.ftl:136-137 `__and__` -/
def and (a b : Bitmask d) : Except Err (Bitmask d) := fromValue (Int.land a.value b.value)

/-- Bitmask.py.ftl:139-140 `__xor__` -/
def xor (a b : Bitmask d) : Except Err (Bitmask d) := fromValue (Int.xor a.value b.value)

/-- Bitmask.py.ftl:142-143 `__invert__` -/
def invert (a : Bitmask d) : Except Err (Bitmask d) := fromValue (Int.land (Int.lnot a.value) d.upperBound)

/-- Bitmask.py.ftl:174-189 `bitsizeof`; the constant of `bitSize` is the constant size of the traits -/
def bitsizeof (a : Bitmask d) (p : Nat) : Except Err Nat := d.underlying.traits.bitsizeof p a.value

/-- Bitmask.py.ftl:211-224 `initialize_offsets` -/
def initializeOffsets (a : Bitmask d) (p : Nat) : Except Err Nat := do
  let n ← a.bitsizeof p
  .ok (p + n)

/-- Bitmask.py.ftl:245-255 `write` -/
def write (a : Bitmask d) : M Writer Unit := d.underlying.traits.write a.value

/-- Bitmask.py.ftl:258-271 `write_packed` -/
def writePacked (a : Bitmask d) (c : DeltaContext) : M Writer DeltaContext := c.write d.underlying.traits a.value

end Bitmask
end Zserio
