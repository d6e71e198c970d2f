import Verif.Spec.Literal
import Verif.Model.Expression
/-
How literals get from the schema into Python code: the compiler strips prefixes and suffixes, the Python extension adds those of
Python, and Python reads the result.
-/
namespace Zserio.Expression

/-- `String.indexOf` -/
def indexOf (c : Nat) : PyStr → Option Nat
  | [] => none
  | x :: xs => if x = c then some 0 else (indexOf c xs).map (· + 1)

/-- Expression.java:1950-1957 `findChars` -/
def findChars (text : PyStr) (first second : Nat) : Option Nat :=
  match indexOf first text with
  | some i => some i
  | none => indexOf second text

/-- Expression.java:1911-1916 `stripBinaryLiteral` -/
def stripBinaryLiteral (text : PyStr) : PyStr :=
  match findChars text (ch! 'b') (ch! 'B') with
  | some i => text.take i
  | none => text

/-- Expression.java:1918-1923 `stripOctalLiteral` -/
def stripOctalLiteral (text : PyStr) : PyStr :=
  match indexOf (ch! '0') text with
  | some i => text.drop (i + 1)
  | none => text

/-- Expression.java:1925-1930 `stripHexadecimalLiteral` -/
def stripHexadecimalLiteral (text : PyStr) : PyStr :=
  match findChars text (ch! 'x') (ch! 'X') with
  | some i => text.drop (i + 1)
  | none => text

/-- Expression.java:1932-1937 `stripFloatLiteral`: for literals with a suffix -/
def stripFloatLiteral (text : PyStr) : PyStr :=
  match findChars text (ch! 'f') (ch! 'F') with
  | some i => text.take i
  | none => text

/-- Expression.java:1885-1909 `stripExpressionText` for integer literals -/
def stripIntLiteral : Base → PyStr → PyStr
  | .bin, text => stripBinaryLiteral text
  | .oct, text => stripOctalLiteral text
  | .dec, text => text
  | .hex, text => stripHexadecimalLiteral text

/-- PythonExpressionFormattingPolicy.java:49-76: an integer literal in Python code -/
def intLiteral (b : Base) (text : PyStr) : PyStr := b.prefix ++ stripIntLiteral b text

/-- PythonExpressionFormattingPolicy.java:78-90: a float literal in Python code; the lexer tells the types of literals apart, but
literals without suffix have no `f` -/
def floatLiteral (text : PyStr) : PyStr := stripFloatLiteral text

/-! ### Python (The Python Language Reference, 2.4) -/

/-- the digits at the beginning -/
def spanDigits (text : PyStr) : PyStr × PyStr := (text.takeWhile Base.dec.isDigit, text.dropWhile Base.dec.isDigit)

/-- the exponent of a float literal up to the end of the text, and its value -/
def pyExponent : PyStr → Option Int
  | [] => none
  | c :: rest =>
    if c = ch! 'e' ∨ c = ch! 'E' then
      let (negative, digits) := match rest with
        | [] => (false, [])
        | s :: ds => if s = ch! '-' then (true, ds) else if s = ch! '+' then (false, ds) else (false, rest)
      if digits ≠ [] ∧ digits.all Base.dec.isDigit then
        some (if negative then -(Base.dec.value digits : Int) else (Base.dec.value digits : Int))
      else none
    else none

/-- 2.4.6 Floating point literals: the number the text stands for, before it is rounded.  Underscores between digits, which
Python allows, are not modelled. -/
def pyFloat (text : PyStr) : Option ℚ :=
  let (whole, rest) := spanDigits text
  match rest with
  | 46 :: rest =>
    let (fraction, rest) := spanDigits rest
    if whole = [] ∧ fraction = [] then none
    else
      let value (e : Int) : ℚ := (Base.dec.value (whole ++ fraction) : ℚ) * 10 ^ (e - fraction.length)
      match rest with
      | [] => some (value 0)
      | _ => (pyExponent rest).map value
  | _ => if whole = [] then none else (pyExponent rest).map fun e => (Base.dec.value whole : ℚ) * 10 ^ e

/-- the value of hexadecimal digits, if they are some -/
def pyHex (digits : PyStr) (count : Nat) : Option Nat :=
  if digits.length = count ∧ digits.all Base.hex.isDigit then some (Base.hex.value digits) else none

/-- 2.4.1 String and Bytes literals, the table of escape sequences: the characters for what follows a backslash, and the number of
characters used.  Names of characters (`\N`) are not modelled. -/
def pyEscape : PyStr → Option (PyStr × Nat)
  | [] => none
  | c :: rest =>
    if c = 10 then some ([], 1)
    else if c = ch! '\\' ∨ c = ch! '\'' ∨ c = ch! '"' then some ([c], 1)
    else if c = ch! 'a' then some ([7], 1)
    else if c = ch! 'b' then some ([8], 1)
    else if c = ch! 'f' then some ([12], 1)
    else if c = ch! 'n' then some ([10], 1)
    else if c = ch! 'r' then some ([13], 1)
    else if c = ch! 't' then some ([9], 1)
    else if c = ch! 'v' then some ([11], 1)
    else if Base.oct.isDigit c then
      let digits := c :: (rest.take 2).takeWhile Base.oct.isDigit
      some ([Base.oct.value digits], digits.length)
    else if c = ch! 'x' then (pyHex (rest.take 2) 2).map fun x => ([x], 3)
    else if c = ch! 'u' then (pyHex (rest.take 4) 4).map fun x => ([x], 5)
    else if c = ch! 'U' then
      match pyHex (rest.take 8) 8 with
      | some x => if x ≤ 0x10FFFF then some ([x], 9) else none
      | none => none
    else if c = ch! 'N' then none
    else some ([ch! '\\', c], 1)

/-- The value of a string literal in double quotes, given the text between them; `skip` characters belong to the last escape
sequence. -/
def pyChars : (skip : Nat) → PyStr → Option PyStr
  | _, [] => some []
  | skip + 1, _ :: rest => pyChars skip rest
  | 0, c :: rest =>
    if c = ch! '\\' then
      match pyEscape rest with
      | some (cs, n) => (pyChars n rest).map (cs ++ ·)
      | none => none
    else if c = ch! '"' ∨ c = 10 ∨ c = 13 then none
    else (pyChars 0 rest).map (c :: ·)

/-- the value of the string literal with the given text between double quotes, if it is one -/
def pyString (text : PyStr) : Option PyStr := pyChars 0 text

end Zserio.Expression
