import Verif.Model.Compound
/-
serialization.py: the functions a user calls to convert objects to bytes and back.  `k` stands for the class of the object.
The file variants are in Model/Files.lean.
-/
namespace Zserio

/-- serialization.py:178-183 `_serialize`: the writer and the object, whose offsets have been set.  (When it raises, the offsets
of the object may have been changed as well; this is not represented.) -/
def serializeToWriter (k : Codec) (x : Val) : Except Err (Writer × Val) := do
  let (_, x) ← k.initialize 0 x
  match k.writeTo x Writer.init with
  | (.ok _, w) => .ok (w, x)
  | (.error e, _) => .error e

/-- serialization.py:12-38 `serialize`: the bit buffer, and the object afterwards -/
def serialize (k : Codec) (x : Val) : Except Err (BitBuffer × Val) := do
  let (w, x) ← serializeToWriter k x
  let b ← BitBuffer.make w.bytes (some w.pos)
  .ok (b, x)

/-- serialization.py:41-63 `deserialize` -/
def deserialize (k : Codec) (b : BitBuffer) (args : List Int) : Except Err Val := do
  let r ← Reader.fromBitBuffer b
  (k.fromReader args r).1

/-- serialization.py:66-94 `serialize_to_bytes` -/
def serializeToBytes (k : Codec) (x : Val) : Except Err (List UInt8 × Val) := do
  let (w, x) ← serializeToWriter k x
  .ok (w.bytes, x)

/-- serialization.py:97-123 `deserialize_from_bytes` -/
def deserializeFromBytes (k : Codec) (buffer : List UInt8) (args : List Int) : Except Err Val := do
  let b ← BitBuffer.make buffer
  deserialize k b args

end Zserio
