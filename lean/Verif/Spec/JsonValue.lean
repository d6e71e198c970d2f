import Verif.Spec.JsonDoc
import Verif.Spec.JsonText
/-
The texts of JSON strings and numbers as the parser understands them, written as grammars.
-/
namespace Zserio.Json

/-- a hexadecimal digit and its value -/
def HexDigit (c n : Nat) : Prop :=
  (ch! '0' ≤ c ∧ c ≤ ch! '9' ∧ c = ch! '0' + n) ∨ (ch! 'a' ≤ c ∧ c ≤ ch! 'f' ∧ c + 10 = ch! 'a' + n) ∨
    (ch! 'A' ≤ c ∧ c ≤ ch! 'F' ∧ c + 10 = ch! 'A' + n)

/-- the letters which may follow a backslash, with the characters which they stand for -/
def escapes : List (Nat × Nat) :=
  [(ch! '\\', ch! '\\'), (ch! '"', ch! '"'), (ch! 'b', 8), (ch! 'f', 12), (ch! 'n', 10), (ch! 'r', 13), (ch! 't', 9)]

/-- What stands between the quotes of a string, and the characters of the string. -/
inductive StringBody : PyStr → PyStr → Prop
  | nil : StringBody [] []
  | plain {c s k} : c ≠ ch! '"' → c ≠ ch! '\\' → StringBody s k → StringBody (c :: s) (c :: k)
  | escape {e c s k} : (e, c) ∈ escapes → StringBody s k → StringBody (ch! '\\' :: e :: s) (c :: k)
  | unicode {a b c d a' b' c' d' s k} : HexDigit a a' → HexDigit b b' → HexDigit c c' → HexDigit d d' → StringBody s k →
      StringBody (ch! '\\' :: ch! 'u' :: a :: b :: c :: d :: s) ((a' * 4096 + b' * 256 + c' * 16 + d') :: k)

/-- characters which are digits for Python -/
def Digits (t : PyText) (s : PyStr) : Prop := ∀ c ∈ s, t.isDigit c = true

/-- digits with these values, the most significant one first -/
def DigitValues (t : PyText) (s : PyStr) (ds : List Nat) : Prop := s.map t.decimal = ds.map some

/-- an optional exponent: a letter, an optional sign and digits (possibly none) -/
def Exponent (t : PyText) (s : PyStr) : Prop :=
  s = [] ∨ ∃ e sg ds, s = e :: (sg ++ ds) ∧ (e = ch! 'e' ∨ e = ch! 'E') ∧ (sg = [] ∨ sg = [ch! '+'] ∨ sg = [ch! '-']) ∧ Digits t ds

/-- What is taken for a float: an optional minus, digits, an optional fraction and an optional exponent, at least one of the
two; `float()` decides about it. -/
def FloatLike (t : PyText) (s : PyStr) : Prop :=
  ∃ sign int frac exp, s = sign ++ int ++ frac ++ exp ∧ (sign = [] ∨ sign = [ch! '-']) ∧ Digits t int ∧
    (frac = [] ∨ ∃ ds, frac = ch! '.' :: ds ∧ Digits t ds) ∧ Exponent t exp ∧ (frac ≠ [] ∨ exp ≠ [])

end Zserio.Json
