import Verif.Model.JsonText
/-
Specification vocabulary for JSON texts.
-/
namespace Zserio

/-- a decimal digit -/
def IsDecimal (c : Nat) : Prop := 48 ≤ c ∧ c ≤ 57

/-- The shape of the text of a finite float: `-`? digits (`.` digits)? (`e` sign? digits)?, with a fraction or an exponent. -/
structure FloatShape (s : PyStr) : Prop where
  shape : ∃ sign int frac exp : PyStr, s = sign ++ int ++ frac ++ exp ∧ (sign = [] ∨ sign = py! "-") ∧
    int ≠ [] ∧ (∀ c ∈ int, IsDecimal c) ∧
    (frac = [] ∨ ∃ ds, frac = ch! '.' :: ds ∧ ∀ c ∈ ds, IsDecimal c) ∧
    (exp = [] ∨ ∃ e sg ds, exp = e :: (sg ++ ds) ∧ (e = ch! 'e' ∨ e = ch! 'E') ∧
      (sg = [] ∨ sg = py! "+" ∨ sg = py! "-") ∧ ds ≠ [] ∧ ∀ c ∈ ds, IsDecimal c) ∧
    (frac ≠ [] ∨ exp ≠ [])

/-- What the properties need to know of the standard library: the digits among the ASCII characters and their values (Python
language reference, `str.isdigit`, `int`), and that `float(repr(x))` is `x` for finite `x`, where `repr(x)` has a fraction or
an exponent (Python tutorial, "Floating Point Arithmetic"; `float.__repr__`). -/
structure PyText.Lawful (t : PyText) : Prop where
  isDigit : ∀ c < 128, t.isDigit c = true ↔ IsDecimal c
  decimal : ∀ c, IsDecimal c → t.decimal c = some (c - 48)
  repr_shape : ∀ x : PyFloat, x.toNat % 2 ^ 63 < 2047 * 2 ^ 52 → FloatShape (t.floatRepr x)
  parse_repr : ∀ x : PyFloat, x.toNat % 2 ^ 63 < 2047 * 2 ^ 52 → t.floatParse (t.floatRepr x) = some x

/-- A library satisfying the laws: only ASCII digits, and floats written as the decimal number of their bit pattern followed
by `e0`.  (It shows that the laws are consistent.) -/
def PyText.simple : PyText where
  isDigit c := decide (48 ≤ c ∧ c ≤ 57)
  decimal c := if 48 ≤ c ∧ c ≤ 57 then some (c - 48) else none
  floatRepr x := Json.decimalNat x.toNat ++ py! "e0"
  floatParse s :=
    match Json.parseInt ⟨fun _ => false, fun c => if 48 ≤ c ∧ c ≤ 57 then some (c - 48) else none, fun _ => [], fun _ => none⟩
      (s.take (s.length - 2)) with
    | some v => some (UInt64.ofNat v.toNat)
    | none => none

namespace Json

/-- The characters which may follow an encoded number: any which the decoder would not take for a part of it. -/
def EndsNumber (t : PyText) (tail : PyStr) : Prop :=
  ∀ c, tail.head? = some c → t.isDigit c = false ∧ c ≠ ch! 'e' ∧ c ≠ ch! 'E' ∧ c ≠ ch! '.'

end Json
end Zserio
