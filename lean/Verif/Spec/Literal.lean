import Verif.Spec.Expression
import Mathlib.Data.Rat.Defs
import Mathlib.Algebra.Order.Ring.Rat
/-
The literals of the schema language and what they mean (doc/ZserioLanguageOverview.md, section Literals).
-/
namespace Zserio.Expression

/-! ### Integers -/

/-- `text` is an integer literal in the notation `b` with the given digits (ZserioLexer.g4:130-151): `101b`, `0377`, `255`, `0xFF`.
Its value is `b.value digits`. -/
def IntToken (b : Base) (digits text : PyStr) : Prop :=
  digits ≠ [] ∧ (∀ c ∈ digits, b.isDigit c) ∧
    match b with
    | .bin => text = digits ++ [ch! 'b'] ∨ text = digits ++ [ch! 'B']
    | .oct => text = ch! '0' :: digits
    | .dec => text = digits ∧ (digits.head? = some (ch! '0') → digits = [ch! '0'])
    | .hex => text = ch! '0' :: ch! 'x' :: digits ∨ text = ch! '0' :: ch! 'X' :: digits

/-! ### Floating point numbers -/

/-- the parts of a float literal: the digits before and behind the dot, the sign of the exponent (`true` for `-`) and its digits -/
structure FloatParts where
  whole : PyStr
  fraction : Option PyStr
  exponent : Option (Bool × PyStr)

/-- the number -/
def FloatParts.value (p : FloatParts) : ℚ :=
  let f := p.fraction.getD []
  let e : Int := match p.exponent with
    | none => 0
    | some (negative, digits) => if negative then -(Base.dec.value digits : Int) else (Base.dec.value digits : Int)
  (Base.dec.value (p.whole ++ f) : ℚ) * 10 ^ (e - f.length)

/-- texts of an exponent -/
def exponentText (text : PyStr) : Option (Bool × PyStr) → Prop
  | none => text = []
  | some (negative, digits) => digits ≠ [] ∧ ∃ c sign, (c = ch! 'e' ∨ c = ch! 'E') ∧ text = c :: (sign ++ digits) ∧
      (if negative then sign = [ch! '-'] else sign = [] ∨ sign = [ch! '+'])

/-- `text` is a float literal (ZserioLexer.g4:139-146): `3.14`, `.5`, `1.`, `314e-2`; the suffix `f` follows literals of the types
`float16` and `float32`. -/
def FloatToken (p : FloatParts) (text : PyStr) : Prop :=
  (∀ c ∈ p.whole, Base.dec.isDigit c) ∧ (∀ f, p.fraction = some f → ∀ c ∈ f, Base.dec.isDigit c) ∧
  (∀ s d, p.exponent = some (s, d) → ∀ c ∈ d, Base.dec.isDigit c) ∧
  (p.fraction = none → p.whole ≠ [] ∧ p.exponent ≠ none) ∧ (p.whole = [] → p.fraction ≠ some []) ∧
  ∃ exp suffix, exponentText exp p.exponent ∧ (suffix = [] ∨ suffix = [ch! 'f'] ∨ suffix = [ch! 'F']) ∧
    text = p.whole ++ (match p.fraction with
      | none => []
      | some f => ch! '.' :: f) ++ exp ++ suffix

/-! ### Strings -/

/-- The characters of a string literal (ZserioLexer.g4:121-127), see "Allowed string escape characters": a character, `\n`,
`\u####`, `\x##`, `\0oo` and `\0coo` (the lexer also accepts `\0o`). -/
inductive StrChar where
  | plain (c : Nat)
  | simple (c : Nat)
  | unicode (digits : PyStr)
  | hex (digits : PyStr)
  | octal (digits : PyStr)

/-- what is in the schema -/
def StrChar.text : StrChar → PyStr
  | .plain c => [c]
  | .simple c => [ch! '\\', c]
  | .unicode digits => ch! '\\' :: ch! 'u' :: digits
  | .hex digits => ch! '\\' :: ch! 'x' :: digits
  | .octal digits => ch! '\\' :: ch! '0' :: digits

/-- the character it stands for -/
def StrChar.value : StrChar → Nat
  | .plain c => c
  | .simple c =>
    if c = ch! 'r' then 13 else if c = ch! 'n' then 10 else if c = ch! 'f' then 12 else if c = ch! 't' then 9 else c
  | .unicode digits => Base.hex.value digits
  | .hex digits => Base.hex.value digits
  | .octal digits => Base.oct.value digits

/-- the characters allowed in a literal -/
def StrChar.Ok : StrChar → Prop
  | .plain c => c ≠ ch! '"' ∧ c ≠ ch! '\\' ∧ c ≠ 13 ∧ c ≠ 10 ∧ c ≠ 12
  | .simple c => c ∈ py! "\"\\rnft"
  | .unicode digits => digits.length = 4 ∧ ∀ c ∈ digits, Base.hex.isDigit c
  | .hex digits => digits.length = 2 ∧ ∀ c ∈ digits, Base.hex.isDigit c
  | .octal digits => (digits.length = 1 ∨ digits.length = 2 ∨ digits.length = 3 ∧ ∃ c ∈ digits.head?, c ≤ ch! '3') ∧
      ∀ c ∈ digits, Base.oct.isDigit c

/-- Escapes with octal digits are as long as possible: `\0123` is one character. -/
def Longest : List StrChar → Prop
  | [] => True
  | .octal digits :: cs =>
    (∀ c, (cs.flatMap StrChar.text).head? = some c → Base.oct.isDigit c → ¬ (StrChar.octal (digits ++ [c])).Ok) ∧ Longest cs
  | _ :: cs => Longest cs

/-- **`text` is the text between the quotes of a string literal which stands for `value`.** -/
def StrToken (cs : List StrChar) (text value : PyStr) : Prop :=
  (∀ c ∈ cs, c.Ok) ∧ Longest cs ∧ text = cs.flatMap StrChar.text ∧ value = cs.map StrChar.value

end Zserio.Expression
