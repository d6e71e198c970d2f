import Verif.Model.RuntimeCalls
/-
The encodings which the documentation gives for the built-in types (doc/ZserioLanguageOverview.md:111-260, doc/ZserioEncodingGuide.md): the
encodings themselves are those of Spec/Array.lean, which the theorems about fields and arrays use.
-/
namespace Zserio.RuntimeCalls

/-- the encoding of a type, keyword by keyword -/
inductive Documented : BuiltInType → Builtin → Prop
  | uint8 : Documented (.std .uint8) (.bitField 8)
  | uint16 : Documented (.std .uint16) (.bitField 16)
  | uint32 : Documented (.std .uint32) (.bitField 32)
  | uint64 : Documented (.std .uint64) (.bitField 64)
  | int8 : Documented (.std .int8) (.signedBitField 8)
  | int16 : Documented (.std .int16) (.signedBitField 16)
  | int32 : Documented (.std .int32) (.signedBitField 32)
  | int64 : Documented (.std .int64) (.signedBitField 64)
  | bit {n} : Documented (.fixedBits false n) (.bitField n)
  | int {n} : Documented (.fixedBits true n) (.signedBitField n)
  | dynamicBit {n} : Documented (.dynBits false n) (.bitField n)
  | dynamicInt {n} : Documented (.dynBits true n) (.signedBitField n)
  | float16 : Documented (.float .float16) .float16
  | float32 : Documented (.float .float32) .float32
  | float64 : Documented (.float .float64) .float64
  | varint16 : Documented (.var .varint16) (.var .varint16)
  | varint32 : Documented (.var .varint32) (.var .varint32)
  | varint64 : Documented (.var .varint64) (.var .varint64)
  | varint : Documented (.var .varint) (.var .varint)
  | varuint16 : Documented (.var .varuint16) (.var .varuint16)
  | varuint32 : Documented (.var .varuint32) (.var .varuint32)
  | varuint64 : Documented (.var .varuint64) (.var .varuint64)
  | varuint : Documented (.var .varuint) (.var .varuint)
  | varsize : Documented (.var .varsize) (.var .varsize)
  | bool : Documented .bool .bool
  | string : Documented .string .string
  | bytes : Documented .bytes .bytes
  | extern : Documented .extern .bitBuffer

end Zserio.RuntimeCalls
