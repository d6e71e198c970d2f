import Verif.Spec.JsonTokenizer
import Verif.Model.JsonParser
/-
Where the tokens of a JSON text are.
-/
namespace Zserio.Json

/-- a text with all line breaks written as `\n`: `\r\n` and `\r` are line breaks, too -/
def universal : PyStr → PyStr
  | [] => []
  | 13 :: 10 :: r => 10 :: universal r
  | 13 :: r => 10 :: universal r
  | c :: r => c :: universal r

/-- line and column, counted from 1, of what follows a text: one line more than there are line breaks, and one column more than there are
characters after the last line break -/
def position (before : PyStr) : Nat × Nat :=
  (1 + (universal before).count 10, 1 + ((universal before).reverse.takeWhile (· ≠ 10)).length)

/-- white space of JSON -/
def IsBlank (c : Nat) : Prop := c = ch! ' ' ∨ c = ch! '\t' ∨ c = ch! '\n' ∨ c = ch! '\r'

/-- the tokens of one character -/
def marks : List (Nat × Token) :=
  [(ch! '{', .beginObject), (ch! '}', .endObject), (ch! '[', .beginArray), (ch! ']', .endArray), (ch! ':', .keySeparator),
   (ch! ',', .itemSeparator)]

/-- a value, or an attempt at one, begins here -/
def BeginsValue (text : PyStr) : Prop := ∃ c r, text = c :: r ∧ ¬ IsBlank c ∧ c ∉ marks.map (·.1)

/-- the word, with the text after it, is a token with a value -/
inductive IsToken (t : PyText) : PyStr → PyStr → Token × Val → Prop where
  | mark {c : Nat} {tok : Token} {rest : PyStr} : (c, tok) ∈ marks → IsToken t [c] rest (tok, .str [c])
  | value {word rest : PyStr} {v : Val} : word ≠ [] → BeginsValue (word ++ rest) → decodeValue t (word ++ rest) = ⟨some v, word.length⟩ →
      IsToken t word rest (.value, v)

/-- a text without its last character if that is `\r` -/
def withoutCr (s : PyStr) : PyStr := if s.getLast? = some (ch! '\r') then s.dropLast else s

/-- `Reported t before rest xs`: of the text `rest`, which follows `before`, the tokens `xs` are reported one after the other, each at the
position of its first character, up to the end of the text, the first exception, or a word with a line break in it -/
inductive Reported (t : PyText) : PyStr → PyStr → List Seen → Prop where
  | nil {before rest : PyStr} : Reported t before rest []
  | token {before blanks word rest : PyStr} {x : Seen} {k : Token × Val} {xs : List Seen} :
      (∀ c ∈ blanks, IsBlank c) → x.result = .ok k → IsToken t word rest k → (x.line, x.column) = position (before ++ blanks) →
      ((ch! '\n' ∉ word ∧ ch! '\r' ∉ word) → Reported t (before ++ blanks ++ word) rest xs) →
      Reported t before (blanks ++ word ++ rest) (x :: xs)
  | unknown {before blanks rest : PyStr} {x : Seen} {xs : List Seen} :
      (∀ c ∈ blanks, IsBlank c) → x.result = .error .json → BeginsValue rest → (decodeValue t rest).value = none →
      (x.line, x.column) = position (before ++ blanks) → Reported t before (blanks ++ rest) (x :: xs)
  | eof {before rest : PyStr} {x : Seen} {xs : List Seen} : x.kind = some .endOfFile → (∀ c ∈ rest, IsBlank c) →
      (x.line, x.column) = position (before ++ withoutCr rest) → Reported t before rest (x :: xs)
  /-- the deviation of C45: a value which reaches the end of the text may be taken for the end -/
  | lost {before blanks rest : PyStr} {x : Seen} {xs : List Seen} : x.kind = some .endOfFile → (∀ c ∈ blanks, IsBlank c) → BeginsValue rest →
      (decodeValue t rest).numRead = rest.length → Reported t before (blanks ++ rest) (x :: xs)

end Zserio.Json
