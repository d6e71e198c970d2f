import Verif.Spec.Wire
import Verif.Model.BitWriter
import Verif.Model.BitReader
/-
Selection of the method for each variable-length type; used only to state theorems uniformly.
-/
namespace Zserio

/-- The `write_*` method of each type (bitwriter.py:106-197). -/
def Writer.writeVar : VarType → Int → M Writer Unit
  | .varint16 => Writer.writeVarint16
  | .varint32 => Writer.writeVarint32
  | .varint64 => Writer.writeVarint64
  | .varint => Writer.writeVarint
  | .varuint16 => Writer.writeVaruint16
  | .varuint32 => Writer.writeVaruint32
  | .varuint64 => Writer.writeVaruint64
  | .varuint => Writer.writeVaruint
  | .varsize => Writer.writeVarsize

/-- An unsigned result as a Python int. -/
def Reader.asInt (m : M Reader Nat) : M Reader Int := do
  let v ← m
  pure (v : Int)

/-- The `read_*` method of each type (bitreader.py:145-453). -/
def Reader.readVar : VarType → M Reader Int
  | .varint16 => Reader.readVarint16
  | .varint32 => Reader.readVarint32
  | .varint64 => Reader.readVarint64
  | .varint => Reader.readVarint
  | .varuint16 => Reader.asInt Reader.readVaruint16
  | .varuint32 => Reader.asInt Reader.readVaruint32
  | .varuint64 => Reader.asInt Reader.readVaruint64
  | .varuint => Reader.asInt Reader.readVaruint
  | .varsize => Reader.asInt Reader.readVarsize

/-- The `bitsizeof_*` function of each type (bitsizeof.py:12-119). -/
def bitsizeofVar : VarType → Int → Except Err Nat
  | .varint16 => bitsizeofVarint16
  | .varint32 => bitsizeofVarint32
  | .varint64 => bitsizeofVarint64
  | .varint => bitsizeofVarint
  | .varuint16 => bitsizeofVaruint16
  | .varuint32 => bitsizeofVaruint32
  | .varuint64 => bitsizeofVaruint64
  | .varuint => bitsizeofVaruint
  | .varsize => bitsizeofVarsize

end Zserio
