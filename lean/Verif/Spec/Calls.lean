import Verif.Spec.Wire
import Verif.Model.Calls
/-
Specification of a writer as an ever growing bit list: what each call appends, and when it is rejected.
-/
namespace Zserio

/-- `n` as a number of bits of a public fixed-width method. -/
def validNumbits (n : Int) : Prop := 1 ≤ n ∧ n ≤ 64

instance (n : Int) : Decidable (validNumbits n) := inferInstanceAs (Decidable (_ ∧ _))

/-- The value fits into `n` bits, unsigned. -/
def fitsUnsigned (v : Int) (n : Nat) : Prop := 0 ≤ v ∧ v ≤ 2 ^ n - 1
/-- The value fits into `n` bits, two's complement. -/
def fitsSigned (v : Int) (n : Nat) : Prop := 0 < n ∧ -(2 ^ (n - 1)) ≤ v ∧ v ≤ 2 ^ (n - 1) - 1

instance (v : Int) (n : Nat) : Decidable (fitsUnsigned v n) := inferInstanceAs (Decidable (_ ∧ _))
instance (v : Int) (n : Nat) : Decidable (fitsSigned v n) := inferInstanceAs (Decidable (_ ∧ _ ∧ _))

/-- Least number of bits which added to `p` give a multiple of `a`. -/
def gapTo (a p : Nat) : Nat := (a - p % a) % a

/-- A bit pattern of `n` bits, if the conversion produced one. -/
def patternBits (n : Nat) : Except Err Nat → Option (List Bool)
  | .ok v => if v < 2 ^ n then some (natBits n v) else none
  | .error _ => none

/-- The bits a call appends to a stream of `p` bits; `none` if the call must be rejected.
The numeric meaning of the floating point conversions is not specified here (see C23, C24). -/
def WCall.spec (p : Nat) : WCall → Option (List Bool)
  | .bits v n => if validNumbits n ∧ fitsUnsigned v n.toNat then some (natBits n.toNat v.toNat) else none
  | .signedBits v n => if validNumbits n ∧ fitsSigned v n.toNat then some (intBits n.toNat v) else none
  | .bitsUnchecked v n => if fitsUnsigned v n then some (natBits n v.toNat) else none
  | .signedBitsUnchecked v n => if fitsSigned v n then some (intBits n v) else none
  | .var t v => if t.InRange v then some (t.encode v) else none
  | .float16 x => patternBits 16 (floatToUint16 x)
  | .float32 x => patternBits 32 (floatToUint32 x)
  | .float64 x => some (natBits 64 x.toNat)
  | .bytes l => if l.length < 2 ^ 31 then some (VarType.varsize.encode l.length ++ bytesBits l) else none
  | .string s =>
    match utf8Encode s with
    | .ok l => if l.length < 2 ^ 31 then some (VarType.varsize.encode l.length ++ bytesBits l) else none
    | .error _ => none
  | .bool b => some [b]
  | .bitBuffer buf n =>
    let n := n.getD (8 * buf.length)
    if 0 ≤ n ∧ n ≤ 8 * buf.length ∧ n < 2 ^ 31 then
      some (VarType.varsize.encode n ++ (bytesBits buf).take n.toNat)
    else none
  | .alignto a => if a = 0 then none else some (zeros (gapTo a p))

/-- The stream after a sequence of calls, rejected calls having no effect. -/
def specStream (stream : List Bool) : List WCall → List Bool
  | [] => stream
  | c :: cs => specStream (stream ++ (c.spec stream.length).getD []) cs

end Zserio
