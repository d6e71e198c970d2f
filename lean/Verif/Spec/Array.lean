import Verif.Model.Array
import Verif.Lemmas.Calls
/-
Specification vocabulary for arrays: what is expected of one element, and the built-in element types.
-/
namespace Zserio

namespace Writer
variable {α : Type}

/-- Started on the writer holding the bits `b0` the method succeeds and appends `bs`.
(`Writer.ofBits b0` is the writer state holding exactly the bits `b0`; these are all reachable states, C16.) -/
def Runs (m : M Writer α) (b0 bs : List Bool) (a : α) : Prop := m (ofBits b0) = (.ok a, ofBits (b0 ++ bs))

/-- On success the method only appends. -/
def Appends (m : M Writer α) : Prop :=
  ∀ b0 a w', m (ofBits b0) = (.ok a, w') → ∃ bs, w' = ofBits (b0 ++ bs)

end Writer

namespace Array'
variable {α : Type}

/-- The size prediction of the element traits is exact: whenever the element can be written at a position, `bitsizeof` at
that position is the number of bits appended, and a constant size is that number too. -/
def SizeExact (tr : Traits α) (x : α) : Prop :=
  ∀ b0 bs, Writer.Runs (tr.write x) b0 bs () → tr.bitsizeof b0.length x = .ok bs.length ∧
    ∀ n, tr.constSize = some n → bs.length = n

/-- What `write` appends for the element `x`, a reader standing before the same bits at the same position reads as `x'`
(whatever precedes and follows). -/
def ReadsTo (tr : Traits α) (i : Nat) (x x' : α) : Prop :=
  ∀ b0 bs, Writer.Runs (tr.write x) b0 bs () → ∀ s, Reader.Parses (tr.read i) b0.length bs s x'

/-- Offset initialisation of the element is exact: whenever it returns an end position, writing the initialised element at
the same position ends there. -/
def InitExact (tr : Traits α) (x : α) : Prop :=
  ∀ p p' x1, tr.initOffsets p x = .ok (p', x1) → Writer.Appends (tr.write x1) ∧
    ∀ b0 bs, b0.length = p → Writer.Runs (tr.write x1) b0 bs () → p' = p + bs.length

end Array'

/-- A bit buffer object as the constructor accepts it: the declared size does not exceed the buffer. -/
def BitBuffer.Fits (b : BitBuffer) : Prop := b.bitsize ≤ 8 * b.buffer.length

/-- The same bits in a buffer whose unused bits are zero (what is read back; equal to `b` for `==`, C17). -/
def BitBuffer.stored (b : BitBuffer) : BitBuffer := ⟨packBits ((bytesBits b.buffer).take b.bitsize.toNat), b.bitsize⟩

/-- The value a reader gets back for a half precision field: after the conversion to the stored precision (C24). -/
def storedFloat16 (x : PyFloat) : PyFloat := match floatToUint16 x with
  | .ok n => uint16ToFloat n
  | .error _ => x

/-- The value a reader gets back for a single precision field. -/
def storedFloat32 (x : PyFloat) : PyFloat := match floatToUint32 x with
  | .ok n => uint32ToFloat n
  | .error _ => x

/-- The built-in element types of arrays. -/
inductive Builtin where
  | bitField (numbits : Nat)
  | signedBitField (numbits : Nat)
  | var (t : VarType)
  | float16
  | float32
  | float64
  | bool
  | bytes
  | string
  | bitBuffer
  deriving DecidableEq, Repr

namespace Builtin

/-- Python values of the type. -/
def Elem : Builtin → Type
  | bitField _ | signedBitField _ | var _ => Int
  | float16 | float32 | float64 => PyFloat
  | bool => Bool
  | bytes => List UInt8
  | string => PyStr
  | bitBuffer => BitBuffer

/-- The array traits of the type. -/
def traits : (b : Builtin) → Traits b.Elem
  | bitField n => Traits.bitField n
  | signedBitField n => Traits.signedBitField n
  | var t => Traits.var t
  | float16 => Traits.float16
  | float32 => Traits.float32
  | float64 => Traits.float64
  | bool => Traits.bool
  | bytes => Traits.bytes
  | string => Traits.string
  | bitBuffer => Traits.bitBuffer

/-- Bit buffers are objects as their constructor accepts them (C18). -/
def Valid : (b : Builtin) → b.Elem → Prop
  | bitBuffer, x => BitBuffer.Fits x
  | _, _ => True

/-- What is read back: the value itself, except for the precision of `float16` / `float32` and the unused bits of the last
byte of a bit buffer. -/
def stored : (b : Builtin) → b.Elem → b.Elem
  | float16, x => storedFloat16 x
  | float32, x => storedFloat32 x
  | bitBuffer, x => BitBuffer.stored x
  | _, x => x

end Builtin
end Zserio
