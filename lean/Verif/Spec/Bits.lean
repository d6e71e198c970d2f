/-
Specification vocabulary: streams are lists of bits, most significant bit first.
Nothing here refers to the code; it is the language in which the properties are stated.
-/
namespace Zserio

/-- The `n` low-order bits of `v`, most significant first: the `n`-bit big-endian representation of `v`
(of `v mod 2^n` if `v` does not fit). -/
def natBits : Nat → Nat → List Bool
  | 0, _ => []
  | n + 1, v => v.testBit n :: natBits n v

/-- The number denoted by a bit list, most significant bit first. -/
def bitsVal : List Bool → Nat
  | [] => 0
  | b :: bs => b.toNat * 2 ^ bs.length + bitsVal bs

/-- `n`-bit two's complement representation of an integer. -/
def intBits (n : Nat) (v : Int) : List Bool := natBits n (v % (2 ^ n : Nat)).toNat

/-- The eight bits of a byte. -/
def byteBits (b : UInt8) : List Bool := natBits 8 b.toNat

/-- The bits of a byte string in stream order. -/
def bytesBits (l : List UInt8) : List Bool := l.flatMap byteBits

/-- `k` zero bits. -/
abbrev zeros (k : Nat) : List Bool := List.replicate k false

/-- Pack a bit list into bytes: groups of eight bits, the last group padded with zero bits. -/
def packBits (bs : List Bool) : List UInt8 :=
  match bs with
  | [] => []
  | b :: rest =>
    UInt8.ofNat (bitsVal (((b :: rest).take 8) ++ zeros (8 - (b :: rest).length))) ::
      packBits ((b :: rest).drop 8)
termination_by bs.length
decreasing_by simp; omega

end Zserio
