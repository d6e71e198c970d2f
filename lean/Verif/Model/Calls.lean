import Verif.Model.VarDispatch
/-
Calls a user can make on a `BitStreamWriter` / `BitStreamReader`, as data, and their execution.
-/
namespace Zserio

/-- One public method call on a `BitStreamWriter` (bitwriter.py:36-344). -/
inductive WCall where
  | bits (value numbits : Int)
  | signedBits (value numbits : Int)
  | bitsUnchecked (value : Int) (numbits : Nat)
  | signedBitsUnchecked (value : Int) (numbits : Nat)
  | var (t : VarType) (value : Int)
  | float16 (x : PyFloat)
  | float32 (x : PyFloat)
  | float64 (x : PyFloat)
  | bytes (value : List UInt8)
  | string (value : PyStr)
  | bool (value : Bool)
  /-- `write_bitbuffer(BitBuffer(buffer, bitsize))` -/
  | bitBuffer (buffer : List UInt8) (bitsize : Option Int)
  | alignto (alignment : Nat)
  deriving DecidableEq, Repr

/-- Execution of a call: the method of the writer. -/
def WCall.run : WCall → M Writer Unit
  | .bits v n => Writer.writeBits v n
  | .signedBits v n => Writer.writeSignedBits v n
  | .bitsUnchecked v n => Writer.writeBitsUnchecked v n
  | .signedBitsUnchecked v n => Writer.writeSignedBitsUnchecked v n
  | .var t v => Writer.writeVar t v
  | .float16 x => Writer.writeFloat16 x
  | .float32 x => Writer.writeFloat32 x
  | .float64 x => Writer.writeFloat64 x
  | .bytes l => Writer.writeBytes l
  | .string s => Writer.writeString s
  | .bool b => Writer.writeBool b
  | .bitBuffer buf n => do
    let b ← M.lift (BitBuffer.make buf n)
    Writer.writeBitBuffer b
  | .alignto a => Writer.alignto a

/-- A client making a sequence of calls and catching every exception: the state left behind. -/
def Writer.runAll (w : Writer) : List WCall → Writer
  | [] => w
  | c :: cs => Writer.runAll (c.run w).2 cs

/-- A client making a sequence of calls and stopping at the first exception. -/
def Writer.runStrict : List WCall → M Writer Unit
  | [] => pure ()
  | c :: cs => do
    c.run
    Writer.runStrict cs

/-- The states of a writer a client can produce. -/
def Writer.Reachable (w : Writer) : Prop := ∃ calls, w = Writer.init.runAll calls

/-- Values returned by the read methods. -/
inductive RVal where
  | unit
  | int (v : Int)
  | float (x : PyFloat)
  | bytes (l : List UInt8)
  | string (s : PyStr)
  | bool (b : Bool)
  | bitBuffer (b : BitBuffer)
  deriving DecidableEq, Repr

/-- One public method call on a `BitStreamReader` (bitreader.py:67-619), including the position setter. -/
inductive RCall where
  | bits (numbits : Int)
  | signedBits (numbits : Int)
  | bitsUnchecked (numbits : Nat)
  | signedBitsUnchecked (numbits : Nat)
  | var (t : VarType)
  | float16
  | float32
  | float64
  | bytes
  | string
  | bool
  | bitBuffer
  | alignto (alignment : Int)
  | setPosition (bitposition : Int)
  deriving DecidableEq, Repr

/-- Execution of a call: the method of the reader. -/
def RCall.run : RCall → M Reader RVal
  | .bits n => do let v ← Reader.readBits n; pure (.int v)
  | .signedBits n => do let v ← Reader.readSignedBits n; pure (.int v)
  | .bitsUnchecked n => do let v ← Reader.readBitsUnchecked n; pure (.int v)
  | .signedBitsUnchecked n => do let v ← Reader.readSignedBitsUnchecked n; pure (.int v)
  | .var t => do let v ← Reader.readVar t; pure (.int v)
  | .float16 => do let v ← Reader.readFloat16; pure (.float v)
  | .float32 => do let v ← Reader.readFloat32; pure (.float v)
  | .float64 => do let v ← Reader.readFloat64; pure (.float v)
  | .bytes => do let v ← Reader.readBytes; pure (.bytes v)
  | .string => do let v ← Reader.readString; pure (.string v)
  | .bool => do let v ← Reader.readBool; pure (.bool v)
  | .bitBuffer => do let v ← Reader.readBitBuffer; pure (.bitBuffer v)
  | .alignto a => do Reader.alignto a; pure .unit
  | .setPosition p => do Reader.setBitposition p; pure .unit

/-- A client making a sequence of calls and catching every exception: the results and the state left behind. -/
def Reader.runAll : List RCall → Reader → List (Except Err RVal) × Reader
  | [], r => ([], r)
  | c :: cs, r =>
    let (x, r') := c.run r
    let (xs, r'') := Reader.runAll cs r'
    (x :: xs, r'')

/-- A client making a sequence of calls and stopping at the first exception. -/
def Reader.runStrict : List RCall → M Reader (List RVal)
  | [] => pure []
  | c :: cs => do
    let x ← c.run
    let xs ← Reader.runStrict cs
    pure (x :: xs)

/-- The read call which corresponds to a write call. -/
def WCall.dual : WCall → RCall
  | .bits _ n => .bits n
  | .signedBits _ n => .signedBits n
  | .bitsUnchecked _ n => .bitsUnchecked n
  | .signedBitsUnchecked _ n => .signedBitsUnchecked n
  | .var t _ => .var t
  | .float16 _ => .float16
  | .float32 _ => .float32
  | .float64 _ => .float64
  | .bytes _ => .bytes
  | .string _ => .string
  | .bool _ => .bool
  | .bitBuffer _ _ => .bitBuffer
  | .alignto a => .alignto a

end Zserio
