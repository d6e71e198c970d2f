import Verif.Model.Compound
import Verif.Model.JsonText
/-
Which functions of the runtime library the generated code calls for fields of built-in types: the constructors of the built-in types in the
core compiler, RuntimeFunctionDataCreator.java, PythonNativeMapper.java, NativeTypeInfoTemplateData.java, `BitSize` of
CompoundFieldTemplateData.java, the calls in CompoundField.inc.ftl and ArrayTraits.inc.ftl, and the functions which have these names in the
runtime library.

Simplifications: the length of a dynamic bit field is the number its expression has when the code runs; a literal for a number is this number;
values of another type than that of the field raise (as in Schema.lean).
-/
namespace Zserio.RuntimeCalls

/-- the tokens of standard integers, ZserioLexer.g4, StdIntegerType.java:24-66 -/
inductive StdToken where
  | int8 | int16 | int32 | int64 | uint8 | uint16 | uint32 | uint64
  deriving DecidableEq

/-- `bitSize` and `isSigned` (StdIntegerType.java:24-66) -/
def StdToken.bitSize : StdToken → Nat
  | .int8 => 8
  | .int16 => 16
  | .int32 => 32
  | .int64 => 64
  | .uint8 => 8
  | .uint16 => 16
  | .uint32 => 32
  | .uint64 => 64

/-- `isSigned` (StdIntegerType.java:24-66) -/
def StdToken.isSigned : StdToken → Bool
  | .int8 => true
  | .int16 => true
  | .int32 => true
  | .int64 => true
  | _ => false

/-- the tokens of variable integers, VarIntegerType.java:25-88 -/
inductive VarToken where
  | varuint16 | varint16 | varuint32 | varint32 | varuint64 | varint64 | varuint | varint | varsize
  deriving DecidableEq

/-- `maxBitSize` (VarIntegerType.java:25-88) -/
def VarToken.maxBitSize : VarToken → Nat
  | .varuint16 => 16
  | .varint16 => 16
  | .varuint32 => 32
  | .varint32 => 32
  | .varuint64 => 64
  | .varint64 => 64
  | .varuint => 72
  | .varint => 72
  | .varsize => 40

/-- `isSigned` (VarIntegerType.java:25-88) -/
def VarToken.isSigned : VarToken → Bool
  | .varint16 => true
  | .varint32 => true
  | .varint64 => true
  | .varint => true
  | _ => false

/-- the tokens of floating point types, FloatType.java:23-40 -/
inductive FloatToken where
  | float16 | float32 | float64
  deriving DecidableEq

/-- `bitSize` (FloatType.java:23-40) -/
def FloatToken.bitSize : FloatToken → Nat
  | .float16 => 16
  | .float32 => 32
  | .float64 => 64

/-- The built-in types (BuiltInType.java and its subclasses); `dynBits` with the length of its instantiation
(DynamicBitFieldInstantiation.java) -/
inductive BuiltInType where
  | bool
  | bytes
  | string
  | extern
  | std (t : StdToken)
  | var (t : VarToken)
  | float (t : FloatToken)
  | fixedBits (signed : Bool) (bitSize : Nat)
  | dynBits (signed : Bool) (length : Nat)
  deriving DecidableEq

/-- a reference to a built-in type through subtypes (Subtype.java) -/
inductive TypeRef where
  | builtIn (t : BuiltInType)
  | subtype (target : TypeRef)

/-- `getBaseType` (TypeInstantiation.java) -/
def TypeRef.baseType : TypeRef → BuiltInType
  | .builtIn t => t
  | .subtype t => t.baseType

/-- `RuntimeFunctionTemplateData` -/
structure RuntimeFunction where
  suffix : PyStr
  arg : Option Nat
  deriving DecidableEq

/-- `StringBuilder.append(int)` -/
def decimal (n : Nat) : PyStr := (Nat.toDigits 10 n).map Char.toNat

/-- `getSuffixForIntegralType` (RuntimeFunctionDataCreator.java:90-93) -/
def integralSuffix (signed : Bool) : PyStr := if signed then py! "signed_bits" else py! "bits"

/-- `visitVarIntegerType` (RuntimeFunctionDataCreator.java:145-164) -/
def varSuffix (maxBitSize : Nat) (signed : Bool) : PyStr :=
  py! "var" ++
    (if maxBitSize = 40 then py! "size"
    else (if signed then [] else py! "u") ++ py! "int" ++ (if maxBitSize ≠ 72 then decimal maxBitSize else []))

/-- `createData`, `mapDynamicBitField` and the visitor (RuntimeFunctionDataCreator.java:31-48, 82-94, 96-174) -/
def runtimeFunction (t : TypeRef) : RuntimeFunction :=
  match t.baseType with
  | .dynBits signed length => { suffix := integralSuffix signed, arg := some length }
  | .bool => { suffix := py! "bool", arg := none }
  | .float t => { suffix := py! "float" ++ decimal t.bitSize, arg := none }
  | .extern => { suffix := py! "bitbuffer", arg := none }
  | .fixedBits signed n => { suffix := integralSuffix signed, arg := some n }
  | .std t => { suffix := integralSuffix t.isSigned, arg := some t.bitSize }
  | .bytes => { suffix := py! "bytes", arg := none }
  | .string => { suffix := py! "string", arg := none }
  | .var t => { suffix := varSuffix t.maxBitSize t.isSigned, arg := none }

/-- `getBitSize` of FixedSizeType.java (BooleanType.java:28, FloatType.java:49, StdIntegerType.java:108, FixedBitFieldType.java:83), and the length
of a dynamic bit field: `createValue` (CompoundFieldTemplateData.java:287-306) -/
def bitSizeValue (t : TypeRef) : Option Nat :=
  match t.baseType with
  | .bool => some 1
  | .float t => some t.bitSize
  | .std t => some t.bitSize
  | .fixedBits _ n => some n
  | .dynBits _ length => some length
  | _ => none

/-- `NativeArrayTraits`: its name and whether it needs the size of elements -/
structure NativeArrayTraits where
  name : PyStr
  requiresElementBitSize : Bool
  deriving DecidableEq

/-- the array traits of the types of PythonNativeMapper.java (PythonNativeMapper.java:128-312, 314-350) and NativeBitBufferType.java -/
def builtInTraits : BuiltInType → Option NativeArrayTraits
  | .bool => some ⟨py! "BoolArrayTraits", false⟩
  | .bytes => some ⟨py! "BytesArrayTraits", false⟩
  | .string => some ⟨py! "StringArrayTraits", false⟩
  | .extern => some ⟨py! "BitBufferArrayTraits", false⟩
  | .float t =>
    match t.bitSize with
    | 16 => some ⟨py! "Float16ArrayTraits", false⟩
    | 32 => some ⟨py! "Float32ArrayTraits", false⟩
    | 64 => some ⟨py! "Float64ArrayTraits", false⟩
    | _ => none
  | .fixedBits signed _ => if signed then some ⟨py! "SignedBitFieldArrayTraits", true⟩ else some ⟨py! "BitFieldArrayTraits", true⟩
  | .dynBits signed _ => if signed then some ⟨py! "SignedBitFieldArrayTraits", true⟩ else some ⟨py! "BitFieldArrayTraits", true⟩
  | .std t => if t.isSigned then some ⟨py! "SignedBitFieldArrayTraits", true⟩ else some ⟨py! "BitFieldArrayTraits", true⟩
  | .var t =>
    match t.maxBitSize with
    | 16 => if t.isSigned then some ⟨py! "VarInt16ArrayTraits", false⟩ else some ⟨py! "VarUInt16ArrayTraits", false⟩
    | 32 => if t.isSigned then some ⟨py! "VarInt32ArrayTraits", false⟩ else some ⟨py! "VarUInt32ArrayTraits", false⟩
    | 40 => if !t.isSigned then some ⟨py! "VarSizeArrayTraits", false⟩ else none
    | 64 => if t.isSigned then some ⟨py! "VarInt64ArrayTraits", false⟩ else some ⟨py! "VarUInt64ArrayTraits", false⟩
    | 72 => if t.isSigned then some ⟨py! "VarIntArrayTraits", false⟩ else some ⟨py! "VarUIntArrayTraits", false⟩
    | _ => none

/-- `getArrayTraits` of the native type of a reference: a subtype has those of its target (NativeSubtype.java:10-14,
PythonNativeMapper.java:245-258); `mapArray` takes the base type (PythonNativeMapper.java:106-115), which gives the same -/
def nativeTraits : TypeRef → Option NativeArrayTraits
  | .builtIn t => builtInTraits t
  | .subtype t => nativeTraits t

/-! ### The functions of the runtime library by name -/

/-- a value which is used as one of a type, and then written -/
def writing (b : Builtin) (write : b.Elem → M Writer Unit) (v : Val) : M Writer Unit := do
  let x ← M.lift (b.proj v)
  write x

/-- `zserio_writer.<name>(value[, arg])`: the methods of bitwriter.py:36-290 (those with the suffix _unchecked are not called by generated code); `none` is AttributeError, or TypeError for a wrong number of
arguments -/
def writerMethod (name : PyStr) (arg : Option Nat) : Option (Val → M Writer Unit) :=
  match arg with
  | some n =>
    if name = py! "write_bits" then some (writing (.bitField n) fun v => Writer.writeBits v n)
    else if name = py! "write_signed_bits" then some (writing (.signedBitField n) fun v => Writer.writeSignedBits v n)
    else none
  | none =>
    if name = py! "write_varint16" then some (writing (.var .varint16) Writer.writeVarint16)
    else if name = py! "write_varint32" then some (writing (.var .varint32) Writer.writeVarint32)
    else if name = py! "write_varint64" then some (writing (.var .varint64) Writer.writeVarint64)
    else if name = py! "write_varint" then some (writing (.var .varint) Writer.writeVarint)
    else if name = py! "write_varuint16" then some (writing (.var .varuint16) Writer.writeVaruint16)
    else if name = py! "write_varuint32" then some (writing (.var .varuint32) Writer.writeVaruint32)
    else if name = py! "write_varuint64" then some (writing (.var .varuint64) Writer.writeVaruint64)
    else if name = py! "write_varuint" then some (writing (.var .varuint) Writer.writeVaruint)
    else if name = py! "write_varsize" then some (writing (.var .varsize) Writer.writeVarsize)
    else if name = py! "write_float16" then some (writing .float16 Writer.writeFloat16)
    else if name = py! "write_float32" then some (writing .float32 Writer.writeFloat32)
    else if name = py! "write_float64" then some (writing .float64 Writer.writeFloat64)
    else if name = py! "write_bytes" then some (writing .bytes Writer.writeBytes)
    else if name = py! "write_string" then some (writing .string Writer.writeString)
    else if name = py! "write_bool" then some (writing .bool Writer.writeBool)
    else if name = py! "write_bitbuffer" then some (writing .bitBuffer Writer.writeBitBuffer)
    else none

/-- a value which has been read -/
def reading (b : Builtin) (read : M Reader b.Elem) : M Reader Val := do
  let x ← read
  pure (b.inj x)

/-- `zserio_reader.<name>([arg])`: the methods of bitreader.py:67-560 -/
def readerMethod (name : PyStr) (arg : Option Nat) : Option (M Reader Val) :=
  match arg with
  | some n =>
    if name = py! "read_bits" then some (reading (.bitField n) (Reader.asInt (Reader.readBits n)))
    else if name = py! "read_signed_bits" then some (reading (.signedBitField n) (Reader.readSignedBits n))
    else none
  | none =>
    if name = py! "read_varint16" then some (reading (.var .varint16) Reader.readVarint16)
    else if name = py! "read_varint32" then some (reading (.var .varint32) Reader.readVarint32)
    else if name = py! "read_varint64" then some (reading (.var .varint64) Reader.readVarint64)
    else if name = py! "read_varint" then some (reading (.var .varint) Reader.readVarint)
    else if name = py! "read_varuint16" then some (reading (.var .varuint16) (Reader.asInt Reader.readVaruint16))
    else if name = py! "read_varuint32" then some (reading (.var .varuint32) (Reader.asInt Reader.readVaruint32))
    else if name = py! "read_varuint64" then some (reading (.var .varuint64) (Reader.asInt Reader.readVaruint64))
    else if name = py! "read_varuint" then some (reading (.var .varuint) (Reader.asInt Reader.readVaruint))
    else if name = py! "read_varsize" then some (reading (.var .varsize) (Reader.asInt Reader.readVarsize))
    else if name = py! "read_float16" then some (reading .float16 Reader.readFloat16)
    else if name = py! "read_float32" then some (reading .float32 Reader.readFloat32)
    else if name = py! "read_float64" then some (reading .float64 Reader.readFloat64)
    else if name = py! "read_bytes" then some (reading .bytes Reader.readBytes)
    else if name = py! "read_string" then some (reading .string Reader.readString)
    else if name = py! "read_bool" then some (reading .bool Reader.readBool)
    else if name = py! "read_bitbuffer" then some (reading .bitBuffer Reader.readBitBuffer)
    else none

/-- a value which is used as one of a type for its size -/
def sizing (b : Builtin) (size : b.Elem → Except Err Nat) (v : Val) : Except Err Nat := do
  let x ← b.proj v
  size x

/-- `zserio.bitsizeof.<name>(value)`: the functions of bitsizeof.py:12-156 -/
def sizeFunction (name : PyStr) : Option (Val → Except Err Nat) :=
  if name = py! "bitsizeof_varint16" then some (sizing (.var .varint16) bitsizeofVarint16)
  else if name = py! "bitsizeof_varint32" then some (sizing (.var .varint32) bitsizeofVarint32)
  else if name = py! "bitsizeof_varint64" then some (sizing (.var .varint64) bitsizeofVarint64)
  else if name = py! "bitsizeof_varint" then some (sizing (.var .varint) bitsizeofVarint)
  else if name = py! "bitsizeof_varuint16" then some (sizing (.var .varuint16) bitsizeofVaruint16)
  else if name = py! "bitsizeof_varuint32" then some (sizing (.var .varuint32) bitsizeofVaruint32)
  else if name = py! "bitsizeof_varuint64" then some (sizing (.var .varuint64) bitsizeofVaruint64)
  else if name = py! "bitsizeof_varuint" then some (sizing (.var .varuint) bitsizeofVaruint)
  else if name = py! "bitsizeof_varsize" then some (sizing (.var .varsize) bitsizeofVarsize)
  else if name = py! "bitsizeof_bytes" then some (sizing .bytes bitsizeofBytes)
  else if name = py! "bitsizeof_string" then some (sizing .string bitsizeofString)
  else if name = py! "bitsizeof_bitbuffer" then some (sizing .bitBuffer bitsizeofBitBuffer)
  else none

/-- `zserio.array.<name>([numbits])`: the classes of array.py:799-1987, each with the type whose traits it implements -/
def traitsClass (name : PyStr) (arg : Option Nat) : Option ((b : Builtin) × Traits b.Elem) :=
  match arg with
  | some n =>
    if name = py! "BitFieldArrayTraits" then some ⟨.bitField n, Traits.bitField n⟩
    else if name = py! "SignedBitFieldArrayTraits" then some ⟨.signedBitField n, Traits.signedBitField n⟩
    else none
  | none =>
    if name = py! "VarUInt16ArrayTraits" then some ⟨.var .varuint16, Traits.var .varuint16⟩
    else if name = py! "VarUInt32ArrayTraits" then some ⟨.var .varuint32, Traits.var .varuint32⟩
    else if name = py! "VarUInt64ArrayTraits" then some ⟨.var .varuint64, Traits.var .varuint64⟩
    else if name = py! "VarUIntArrayTraits" then some ⟨.var .varuint, Traits.var .varuint⟩
    else if name = py! "VarSizeArrayTraits" then some ⟨.var .varsize, Traits.var .varsize⟩
    else if name = py! "VarInt16ArrayTraits" then some ⟨.var .varint16, Traits.var .varint16⟩
    else if name = py! "VarInt32ArrayTraits" then some ⟨.var .varint32, Traits.var .varint32⟩
    else if name = py! "VarInt64ArrayTraits" then some ⟨.var .varint64, Traits.var .varint64⟩
    else if name = py! "VarIntArrayTraits" then some ⟨.var .varint, Traits.var .varint⟩
    else if name = py! "Float16ArrayTraits" then some ⟨.float16, Traits.float16⟩
    else if name = py! "Float32ArrayTraits" then some ⟨.float32, Traits.float32⟩
    else if name = py! "Float64ArrayTraits" then some ⟨.float64, Traits.float64⟩
    else if name = py! "BytesArrayTraits" then some ⟨.bytes, Traits.bytes⟩
    else if name = py! "StringArrayTraits" then some ⟨.string, Traits.string⟩
    else if name = py! "BoolArrayTraits" then some ⟨.bool, Traits.bool⟩
    else if name = py! "BitBufferArrayTraits" then some ⟨.bitBuffer, Traits.bitBuffer⟩
    else none

/-! ### The generated calls -/

/-- CompoundField.inc.ftl:318 -/
def writeCall (t : TypeRef) : Option (Val → M Writer Unit) :=
  writerMethod (py! "write_" ++ (runtimeFunction t).suffix) (runtimeFunction t).arg

/-- CompoundField.inc.ftl:208 -/
def readCall (t : TypeRef) : Option (M Reader Val) :=
  readerMethod (py! "read_" ++ (runtimeFunction t).suffix) (runtimeFunction t).arg

/-- CompoundField.inc.ftl:93-96, 157-160; `runtimeFunction` of `BitSize` is made only if there is no value
(CompoundFieldTemplateData.java:270-273) -/
def sizeCall (t : TypeRef) : Option (Val → Except Err Nat) :=
  match bitSizeValue t with
  | some n => some fun _ => .ok n
  | none => sizeFunction (py! "bitsizeof_" ++ (runtimeFunction t).suffix)

/-- ArrayTraits.inc.ftl:1-7, CompoundField.inc.ftl:218-226: the size of elements is given only if it is required; the template fails if it is
required and missing -/
def traitsCall (t : TypeRef) : Option ((b : Builtin) × Traits b.Elem) :=
  match nativeTraits t with
  | none => none
  | some tr =>
    if tr.requiresElementBitSize then
      match bitSizeValue t with
      | none => none
      | some n => traitsClass tr.name (some n)
    else traitsClass tr.name none

end Zserio.RuntimeCalls
