import Verif.Model.Schema
import Mathlib.Data.Nat.Digits.Defs
/-
Model of the value level of zserio/json.py: `JsonEncoder` (json.py:283-304, which delegates to the `json` module of the
standard library) and `JsonDecoder` (json.py:520-762).

Decoder functions take the rest of the content, `content[pos:]`, instead of `content` and `pos`; the only absolute position
in their results is relative to `pos` anyway (`num_read_chars`).
-/
namespace Zserio

/-- `ch! 'x'`: the code point of a character, as a numeral -/
macro "ch! " c:char : term => pure (Lean.Syntax.mkNumLit (toString c.getChar.toNat))

/-- `py! "text"`: the code points of a string, as a list of numerals -/
macro "py! " s:str : term => do
  let codes : Array (Lean.TSyntax `term) := s.getString.toList.toArray.map fun c => Lean.Syntax.mkNumLit (toString c.toNat)
  `(([$codes,*] : PyStr))

/-- The parts of the Python standard library which are not modelled but are parameters of the model: `str.isdigit` of one
character, the decimal value of a character as used by `int`, `float.__repr__` and `float(str)`. -/
structure PyText where
  isDigit : Nat → Bool
  decimal : Nat → Option Nat
  floatRepr : PyFloat → PyStr
  floatParse : PyStr → Option PyFloat

namespace Json

/-- `float("nan")` -/
def nan : PyFloat := 0x7FF8000000000000
/-- `float("inf")` -/
def inf : PyFloat := 0x7FF0000000000000
/-- `float("-inf")` -/
def negInf : PyFloat := 0xFFF0000000000000

/-! ### Encoder -/

/-- a digit of `'{0:04x}'.format(i)` -/
def hexChar (d : Nat) : Nat := if d < 10 then ch! '0' + d else ch! 'a' + (d - 10)

/-- CPython json/encoder.py:18-32 `ESCAPE`, `ESCAPE_DCT`: the replacement of a character -/
def escapeChar (c : Nat) : PyStr :=
  if c = ch! '\\' then py! "\\\\"
  else if c = ch! '"' then py! "\\\""
  else if c = 8 then py! "\\b"
  else if c = 12 then py! "\\f"
  else if c = ch! '\n' then py! "\\n"
  else if c = ch! '\r' then py! "\\r"
  else if c = ch! '\t' then py! "\\t"
  else if c < 0x20 then py! "\\u" ++ [hexChar (c / 16 ^ 3 % 16), hexChar (c / 16 ^ 2 % 16), hexChar (c / 16 % 16),
    hexChar (c % 16)]
  else [c]

/-- CPython json/encoder.py:37-44 `encode_basestring` (used because of `ensure_ascii=False`, json.py:292) -/
def encodeString (s : PyStr) : PyStr := [ch! '"'] ++ s.flatMap escapeChar ++ [ch! '"']

/-- decimal digits of a natural number -/
def decimalNat (n : Nat) : PyStr := if n = 0 then [ch! '0'] else ((Nat.digits 10 n).reverse.map (ch! '0' + ·))

/-- `int.__repr__`.  (The limit of 4300 digits of CPython 3.11 is not modelled: integers of zserio have at most 20.) -/
def decimalInt (v : Int) : PyStr := if v < 0 then ch! '-' :: decimalNat v.natAbs else decimalNat v.natAbs

/-- CPython json/encoder.py:224-243 `floatstr` -/
def encodeFloat (t : PyText) (x : PyFloat) : PyStr :=
  if x.toNat % 2 ^ 63 > 2047 * 2 ^ 52 then py! "NaN"
  else if x = inf then py! "Infinity"
  else if x = negInf then py! "-Infinity"
  else t.floatRepr x

/-- json.py:295-304 `JsonEncoder.encode_value` with CPython json/encoder.py:183-202; other objects raise `TypeError`. -/
def encodeValue (t : PyText) : Val → Except Err PyStr
  | .none => .ok (py! "null")
  | .bool true => .ok (py! "true")
  | .bool false => .ok (py! "false")
  | .int v => .ok (decimalInt v)
  | .float x => .ok (encodeFloat t x)
  | .str s => .ok (encodeString s)
  | _ => .error .type

/-! ### Decoder -/

/-- json.py:570-640 `JsonDecoder.Result`; `value` is `none` in case of failure. -/
structure DecodeResult where
  value : Option Val
  numRead : Nat

/-- json.py:584-593 `from_failure` -/
def failure (n : Nat) : DecodeResult := ⟨none, n⟩
/-- json.py:595-609 `from_success` -/
def success (v : Val) (n : Nat) : DecodeResult := ⟨some v, n⟩

/-- json.py:643-653 `_decode_literal` -/
def decodeLiteral (rest : PyStr) (text : PyStr) (value : Val) : DecodeResult :=
  if rest.length < text.length then failure rest.length
  else if rest.take text.length = text then success value text.length
  else failure text.length

/-- the value of a hexadecimal digit -/
def hexValue (c : Nat) : Option Nat :=
  if ch! '0' ≤ c ∧ c ≤ ch! '9' then some (c - ch! '0')
  else if ch! 'a' ≤ c ∧ c ≤ ch! 'f' then some (c - ch! 'a' + 10)
  else if ch! 'A' ≤ c ∧ c ≤ ch! 'F' then some (c - ch! 'A' + 10)
  else none

/-- json.py:704-709 `_decode_unicode_escape` applied to `\u` and four characters: the `unicode-escape` codec accepts four
hexadecimal digits, anything else raises a `ValueError`. -/
def decodeUnicodeEscape (a b c d : Nat) : Option Nat :=
  match hexValue a, hexValue b, hexValue c, hexValue d with
  | some a, some b, some c, some d => some (((a * 16 + b) * 16 + c) * 16 + d)
  | _, _, _, _ => none

/-- json.py:656-702, the loop of `_decode_string`; `n` is `end_of_string_pos - pos`, the list is `content[end_of_string_pos:]` -/
def decodeStringLoop : PyStr → Nat → PyStr → DecodeResult
  | [], n, _ => failure n
  | c :: rest, n, decoded =>
    if c = ch! '\\' then
      match rest with
      | [] => failure (n + 1)
      | e :: rest' =>
        if e = ch! '\\' ∨ e = ch! '"' then decodeStringLoop rest' (n + 2) (decoded ++ [e])
        else if e = ch! 'b' then decodeStringLoop rest' (n + 2) (decoded ++ [8])
        else if e = ch! 'f' then decodeStringLoop rest' (n + 2) (decoded ++ [12])
        else if e = ch! 'n' then decodeStringLoop rest' (n + 2) (decoded ++ [10])
        else if e = ch! 'r' then decodeStringLoop rest' (n + 2) (decoded ++ [13])
        else if e = ch! 't' then decodeStringLoop rest' (n + 2) (decoded ++ [9])
        else if e = ch! 'u' then
          match rest' with
          | a :: b :: c :: d :: x :: rest'' =>
            match decodeUnicodeEscape a b c d with
            | some u => decodeStringLoop (x :: rest'') (n + 6) (decoded ++ [u])
            | none => failure (n + 6)
          | _ => failure (n + 2 + rest'.length)
        else failure (n + 2)
    else if c = ch! '"' then success (.str decoded) (n + 1)
    else decodeStringLoop rest (n + 1) (decoded ++ [c])

/-- json.py:655-702 `_decode_string`; the content begins with `"` -/
def decodeString (rest : PyStr) : DecodeResult := decodeStringLoop rest.tail 1 []

/-- json.py:736-760, the loop of `_extract_number`: the number of accepted characters and `is_float` -/
def extractLoop (t : PyText) : PyStr → (acceptSign isScientific isFloat : Bool) → Nat × Bool
  | [], _, _, isFloat => (0, isFloat)
  | c :: rest, acceptSign, isScientific, isFloat =>
    if acceptSign && (c == ch! '+' || c == ch! '-') then
      let (n, f) := extractLoop t rest false isScientific isFloat
      (n + 1, f)
    else if t.isDigit c then
      let (n, f) := extractLoop t rest false isScientific isFloat
      (n + 1, f)
    else if (c == ch! 'e' || c == ch! 'E') && !isScientific then
      let (n, f) := extractLoop t rest true true true
      (n + 1, f)
    else if c == ch! '.' && !isFloat then
      let (n, f) := extractLoop t rest false isScientific true
      (n + 1, f)
    else (0, isFloat)

/-- json.py:728-762 `_extract_number` -/
def extractNumber (t : PyText) (rest : PyStr) : PyStr × Bool :=
  match rest with
  | [] => ([], false)
  | c :: tail =>
    if c = ch! '-' then
      let (n, f) := extractLoop t tail false false false
      (rest.take (n + 1), f)
    else
      let (n, f) := extractLoop t rest false false false
      (rest.take n, f)

/-- decimal digits to a number; `none` if some character has no decimal value -/
def parseDigits (t : PyText) : PyStr → Nat → Option Nat
  | [], acc => some acc
  | c :: rest, acc =>
    match t.decimal c with
    | some d => parseDigits t rest (acc * 10 + d)
    | none => none

/-- `int(text)` for texts of an optional `-` and characters which are digits for `str.isdigit`; `none` is `ValueError` -/
def parseInt (t : PyText) (text : PyStr) : Option Int :=
  match text with
  | [] => none
  | c :: tail =>
    if c = ch! '-' then
      if tail = [] then none else (parseDigits t tail 0).map fun (n : Nat) => -(n : Int)
    else (parseDigits t text 0).map fun (n : Nat) => (n : Int)

/-- json.py:711-726 `_decode_number` -/
def decodeNumber (t : PyText) (rest : PyStr) : DecodeResult :=
  let (number, isFloat) := extractNumber t rest
  if number.length = 0 then failure 1
  else if isFloat then
    match t.floatParse number with
    | some x => success (.float x) number.length
    | none => failure number.length
  else
    match parseInt t number with
    | some v => success (.int v) number.length
    | none => failure number.length

/-- json.py:525-568 `decode_value` -/
def decodeValue (t : PyText) (rest : PyStr) : DecodeResult :=
  match rest with
  | [] => failure 0
  | c :: tail =>
    if c = ch! 'n' then decodeLiteral rest (py! "null") .none
    else if c = ch! 't' then decodeLiteral rest (py! "true") (.bool true)
    else if c = ch! 'f' then decodeLiteral rest (py! "false") (.bool false)
    else if c = ch! 'N' then decodeLiteral rest (py! "NaN") (.float nan)
    else if c = ch! 'I' then decodeLiteral rest (py! "Infinity") (.float inf)
    else if c = ch! '"' then decodeString rest
    else if c = ch! '-' then
      match tail with
      | [] => failure 1
      | d :: _ => if d = ch! 'I' then decodeLiteral rest (py! "-Infinity") (.float negInf) else decodeNumber t rest
    else decodeNumber t rest

end Json
end Zserio
