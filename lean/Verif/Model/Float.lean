import Verif.Model.Base
/-
Model of zserio/float.py.  A Python `float` is represented by its IEEE 754 binary64 bit pattern; conversions
`struct.pack(">f", x)` / `struct.unpack(">f", b)` are modelled on bit patterns.
-/
namespace Zserio

/-- Python `float`, as its binary64 bit pattern. -/
abbrev PyFloat := UInt64

/-- round-to-nearest, ties-to-even, of `v / 2^s` -/
def rne (v s : Nat) : Nat :=
  let q := v / 2 ^ s
  let r := v % 2 ^ s
  if 2 * r > 2 ^ s ∨ (2 * r = 2 ^ s ∧ q % 2 = 1) then q + 1 else q

/-- The C conversion `(float)x` behind `struct.pack(">f", x)`: binary64 pattern to binary32 pattern, rounding to
nearest even; a finite value which would become infinite raises `OverflowError`.  A NaN keeps its leading payload
bits and becomes quiet (IEEE 754 6.2.3). -/
def packF32 (x : PyFloat) : Except Err Nat :=
  let p := x.toNat
  let s := p / 2 ^ 63
  let e := p / 2 ^ 52 % 2 ^ 11
  let m := p % 2 ^ 52
  if e = 2047 then
    if m = 0 then .ok (s * 2 ^ 31 + 255 * 2 ^ 23)
    else .ok (s * 2 ^ 31 + 255 * 2 ^ 23 + (m / 2 ^ 29 ||| 2 ^ 22))
  else
    let mag :=
      if 897 ≤ e then rne ((e - 896) * 2 ^ 52 + m) 29
      else if e = 0 then 0
      else rne (2 ^ 52 + m) (29 + (897 - e))
    if mag < 255 * 2 ^ 23 then .ok (s * 2 ^ 31 + mag) else .error .overflow

/-- The C conversion `(double)y` behind `struct.unpack(">f", b)`: exact widening of a binary32 pattern; a NaN
becomes quiet. -/
def unpackF32 (y : Nat) : PyFloat :=
  let s := y / 2 ^ 31
  let e := y / 2 ^ 23 % 2 ^ 8
  let m := y % 2 ^ 23
  UInt64.ofNat <|
    if e = 255 then
      if m = 0 then s * 2 ^ 63 + 2047 * 2 ^ 52 else s * 2 ^ 63 + 2047 * 2 ^ 52 + (m ||| 2 ^ 22) * 2 ^ 29
    else if e = 0 then
      if m = 0 then s * 2 ^ 63
      else s * 2 ^ 63 + (m.log2 + 874) * 2 ^ 52 + (m - 2 ^ m.log2) * 2 ^ (52 - m.log2)
    else s * 2 ^ 63 + (e + 896) * 2 ^ 52 + m * 2 ^ 29

/-- float.py:136-146 `uint32_to_float` -/
def uint32ToFloat (v : Nat) : PyFloat := unpackF32 v
/-- float.py:149-159 `float_to_uint32` -/
def floatToUint32 (x : PyFloat) : Except Err Nat := packF32 x
/-- float.py:162-172 `uint64_to_float` (struct.unpack(">d") keeps all bits) -/
def uint64ToFloat (v : Nat) : PyFloat := UInt64.ofNat v
/-- float.py:175-185 `float_to_uint64` -/
def floatToUint64 (x : PyFloat) : Nat := x.toNat

/-- The normalisation loop `while (significand32 & (FLOAT32_SIGNIFICAND_MASK + 1)) == 0`, float.py:36-38, with a
fuel argument (the loop runs at most 23 times for a non-zero significand below 2^23). -/
def normalizeLoop : Nat → Nat → Nat → Nat × Nat
  | 0, e, m => (e, m)
  | fuel + 1, e, m => if m &&& 2 ^ 23 = 0 then normalizeLoop fuel (e - 1) (m <<< 1) else (e, m)

/-- The integer part of `uint16_to_float`, float.py:22-55: binary16 pattern to binary32 pattern.
(`exponent16 - 15 + 127` of line 50 is written `exponent16 + 127 - 15`, natural numbers being used here.) -/
def f16ToF32 (v : Nat) : Nat :=
  let sign16 := v &&& 0x8000
  let exponent16 := (v &&& 0x7C00) >>> 10
  let significand16 := v &&& 0x03FF
  let significand32 := significand16 <<< (23 - 10)
  let (exponent32, significand32) :=
    if exponent16 = 0 then
      if significand32 ≠ 0 then
        let (e, m) := normalizeLoop 23 (1 + 127 - 15) significand32
        (e, m &&& 0x007FFFFF)
      else (0, significand32)
    else if exponent16 = 0x1F then (0xFF, significand32)
    else (exponent16 + 127 - 15, significand32)
  (sign16 <<< (31 - 15)) ||| (exponent32 <<< 23) ||| significand32

/-- float.py:14-58 `uint16_to_float`. -/
def uint16ToFloat (v : Nat) : PyFloat := uint32ToFloat (f16ToF32 v)

/-- The integer part of `float_to_uint16`, float.py:71-133: binary32 pattern to binary16 pattern. -/
def f32ToF16 (v : Nat) : Nat :=
  let sign32 := v &&& 0x80000000
  let exponent32 : Int := ((v &&& 0x7F800000) >>> 23 : Nat)
  let significand32 := v &&& 0x007FFFFF
  let significand16 := significand32 >>> (23 - 10)
  let (exponent16, significand16, needsRounding) : Nat × Nat × Bool :=
    if exponent32 = 0 then
      (0, if significand32 ≠ 0 then 0 else significand16, false)
    else if exponent32 = 0xFF then (0x1F, significand16, false)
    else
      let signedExponent16 : Int := exponent32 - 127 + 15
      if signedExponent16 > 0x1F then (0x1F, significand16, false)
      else if signedExponent16 ≤ 0 then
        if signedExponent16 ≤ -10 then (0, 0, false)
        else
          let full := significand32 ||| (0x007FFFFF + 1)
          let shift := (1 - signedExponent16).toNat
          (0, full >>> (23 - 10 + shift), (full >>> (23 - 10 + shift - 1)) &&& 1 != 0)
      else
        (signedExponent16.toNat, significand16, (significand32 >>> (23 - 10 - 1)) &&& 1 != 0)
  let float16 := (sign32 >>> (31 - 15)) ||| (exponent16 <<< 10) ||| significand16
  if needsRounding then float16 + 1 else float16

/-- float.py:61-133 `float_to_uint16` -/
def floatToUint16 (x : PyFloat) : Except Err Nat := do
  let f32 ← floatToUint32 x
  .ok (f32ToF16 f32)

end Zserio
