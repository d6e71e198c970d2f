import Verif.Model.Base
/-
Model of Python's `str.encode("utf-8")` and `bytes.decode("utf-8")` (strict error handling).
A Python `str` is a list of code points; lone surrogates can occur in it and are rejected by the encoder.
The codec itself is part of CPython; it is modelled here following Unicode table 3-6 / 3-7.
-/
namespace Zserio

/-- Python `str`: list of code points. -/
abbrev PyStr := List Nat

/-- Unicode scalar value: what UTF-8 can encode. -/
def isScalar (c : Nat) : Bool := (c < 0xD800) || (0xE000 ≤ c && c < 0x110000)

/-- Encode one code point. -/
def utf8EncodeChar (c : Nat) : Except Err (List UInt8) :=
  if c < 0x80 then .ok [UInt8.ofNat c]
  else if c < 0x800 then .ok [UInt8.ofNat (0xC0 + c / 64), UInt8.ofNat (0x80 + c % 64)]
  else if c < 0x10000 then
    if 0xD800 ≤ c ∧ c < 0xE000 then .error .unicode
    else .ok [UInt8.ofNat (0xE0 + c / 4096), UInt8.ofNat (0x80 + c / 64 % 64), UInt8.ofNat (0x80 + c % 64)]
  else if c < 0x110000 then
    .ok [UInt8.ofNat (0xF0 + c / 262144), UInt8.ofNat (0x80 + c / 4096 % 64),
         UInt8.ofNat (0x80 + c / 64 % 64), UInt8.ofNat (0x80 + c % 64)]
  else .error .unicode

/-- `str.encode("utf-8")`. -/
def utf8Encode : PyStr → Except Err (List UInt8)
  | [] => .ok []
  | c :: cs => do
    let b ← utf8EncodeChar c
    let bs ← utf8Encode cs
    .ok (b ++ bs)

/-- continuation byte `10xxxxxx` -/
def isCont (b : UInt8) : Bool := 0x80 ≤ b.toNat && b.toNat < 0xC0

/-- `bytes.decode("utf-8")`: shortest-form sequences of scalar values only. -/
def utf8Decode : List UInt8 → Except Err PyStr
  | [] => .ok []
  | b0 :: rest =>
    let c0 := b0.toNat
    if c0 < 0x80 then do
      let cs ← utf8Decode rest
      .ok (c0 :: cs)
    else if c0 < 0xC0 then .error .unicode
    else if c0 < 0xE0 then
      match rest with
      | b1 :: rest =>
        let c := (c0 - 0xC0) * 64 + (b1.toNat - 0x80)
        if isCont b1 ∧ 0x80 ≤ c then do
          let cs ← utf8Decode rest
          .ok (c :: cs)
        else .error .unicode
      | _ => .error .unicode
    else if c0 < 0xF0 then
      match rest with
      | b1 :: b2 :: rest =>
        let c := (c0 - 0xE0) * 4096 + (b1.toNat - 0x80) * 64 + (b2.toNat - 0x80)
        if isCont b1 ∧ isCont b2 ∧ 0x800 ≤ c ∧ isScalar c then do
          let cs ← utf8Decode rest
          .ok (c :: cs)
        else .error .unicode
      | _ => .error .unicode
    else if c0 < 0xF8 then
      match rest with
      | b1 :: b2 :: b3 :: rest =>
        let c := (c0 - 0xF0) * 262144 + (b1.toNat - 0x80) * 4096 + (b2.toNat - 0x80) * 64 + (b3.toNat - 0x80)
        if isCont b1 ∧ isCont b2 ∧ isCont b3 ∧ 0x10000 ≤ c ∧ c < 0x110000 then do
          let cs ← utf8Decode rest
          .ok (c :: cs)
        else .error .unicode
      | _ => .error .unicode
    else .error .unicode
termination_by l => l.length

end Zserio
