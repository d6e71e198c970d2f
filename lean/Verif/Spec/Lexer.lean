import Verif.Model.Lexer
/-
What the forms of tokens are, and which token is at the beginning of a text.
-/
namespace Zserio.Lexer

/-- one comment which begins with `start` and ends at the first `*/` behind it -/
def Comment (start s : List Nat) : Prop :=
  ∃ body, s = start ++ (body ++ py! "*/") ∧ ∀ body' rest, body ++ py! "*/" = body' ++ (py! "*/" ++ rest) → rest = []

/-- a character of a string literal as it is written -/
def StringChar (s : List Nat) : Prop :=
  (∃ c, c ≠ 34 ∧ c ≠ 92 ∧ isLineEnd c = false ∧ s = [c]) ∨
  (∃ c ∈ py! "\"\\rnft", s = [92, c]) ∨
  (∃ a b c d, isHexDigit a ∧ isHexDigit b ∧ isHexDigit c ∧ isHexDigit d ∧ s = py! "\\u" ++ [a, b, c, d]) ∨
  (∃ a b, isHexDigit a ∧ isHexDigit b ∧ s = py! "\\x" ++ [a, b]) ∨
  (∃ a, isOctalDigit a ∧ s = py! "\\0" ++ [a]) ∨
  (∃ a b, isOctalDigit a ∧ isOctalDigit b ∧ s = py! "\\0" ++ [a, b]) ∨
  (∃ a b c, 48 ≤ a ∧ a ≤ 51 ∧ isOctalDigit b ∧ isOctalDigit c ∧ s = py! "\\0" ++ [a, b, c])

/-- an exponent, for instance `e-3` -/
def Exponent (s : List Nat) : Prop :=
  ∃ e sign ds, (e = ch! 'e' ∨ e = ch! 'E') ∧ (sign = [] ∨ sign = py! "+" ∨ sign = py! "-") ∧ ds ≠ [] ∧ (∀ d ∈ ds, isDigit d) ∧ s = e :: (sign ++ ds)

/-- a floating point number without suffix -/
def Double (s : List Nat) : Prop :=
  (∃ a e, a ≠ [] ∧ (∀ d ∈ a, isDigit d) ∧ Exponent e ∧ s = a ++ e) ∨
  (∃ a b e, (a ≠ [] ∨ b ≠ []) ∧ (∀ d ∈ a, isDigit d) ∧ (∀ d ∈ b, isDigit d) ∧ (e = [] ∨ Exponent e) ∧ s = a ++ 46 :: (b ++ e))

/-- the texts which are a token of a type -/
def Form : Kind → List Nat → Prop
  | .operator t, s => t ∈ operators ∧ s = t
  | .keyword t, s => t ∈ keywords ∧ s = t
  | .space, s => ∃ c, isSpace c ∧ s = [c]
  | .docComment, s => Comment (py! "/**") s
  | .markdownComment, s => Comment (py! "/*!") s
  | .blockComment, s => Comment (py! "/*") s
  | .lineComment, s => ∃ body, (∀ c ∈ body, isLineEnd c = false) ∧ s = py! "//" ++ body
  | .bool, s => s = py! "true" ∨ s = py! "false"
  | .string, s => ∃ parts : List (List Nat), (∀ p ∈ parts, StringChar p) ∧ s = 34 :: (parts.flatten ++ [34])
  | .binary, s => ∃ ds c, ds ≠ [] ∧ (∀ d ∈ ds, d = 48 ∨ d = 49) ∧ (c = ch! 'b' ∨ c = ch! 'B') ∧ s = ds ++ [c]
  | .octal, s => ∃ ds, ds ≠ [] ∧ (∀ d ∈ ds, isOctalDigit d) ∧ s = 48 :: ds
  | .hexadecimal, s => ∃ x ds, (x = ch! 'x' ∨ x = ch! 'X') ∧ ds ≠ [] ∧ (∀ d ∈ ds, isHexDigit d) ∧ s = 48 :: x :: ds
  | .double, s => Double s
  | .float, s => ∃ d c, Double d ∧ (c = ch! 'f' ∨ c = ch! 'F') ∧ s = d ++ [c]
  | .decimal, s => s = [48] ∨ ∃ c ds, 49 ≤ c ∧ c ≤ 57 ∧ (∀ d ∈ ds, isDigit d) ∧ s = c :: ds
  | .id, s => ∃ c w, isLetter c ∧ (∀ d ∈ w, isWordChar d) ∧ s = c :: w
  | .invalidString, s => ∃ body, (∀ c ∈ body, c ≠ 34) ∧ (s = 34 :: body ∨ s = 34 :: (body ++ [34]))
  | .invalid, s => s ≠ [] ∧ ∀ d ∈ s, isWordChar d

/-- which type is preferred, if a text has several forms -/
def rank : Kind → Nat
  | .operator _ => 0
  | .keyword _ => 1
  | .space => 2
  | .docComment => 3
  | .markdownComment => 4
  | .blockComment => 5
  | .lineComment => 6
  | .bool => 7
  | .string => 8
  | .binary => 9
  | .octal => 10
  | .hexadecimal => 11
  | .double => 12
  | .float => 13
  | .decimal => 14
  | .id => 15
  | .invalidString => 16
  | .invalid => 17

/-- `s` is the token of type `k` at the beginning of the text: it is the longest of the beginnings which are tokens, and `k` is preferred -/
def IsToken (text : List Nat) (k : Kind) (s : List Nat) : Prop :=
  s <+: text ∧ Form k s ∧ (∀ k' s', s' <+: text → Form k' s' → s'.length ≤ s.length) ∧ ∀ k', Form k' s → rank k ≤ rank k'

/-- a word which can be a keyword or a name -/
def Word (s : List Nat) : Prop := ∃ c w, isLetter c ∧ (∀ d ∈ w, isWordChar d) ∧ s = c :: w

/-- the type of a word -/
def wordKind (s : List Nat) : Kind :=
  if s ∈ keywords then .keyword s else if s = py! "true" ∨ s = py! "false" then .bool else .id

/-- the characters which are a token by themselves, whatever follows -/
def punctuation : List Nat := py! "(){}[],;:?~^+-%*"

/-- something between tokens: a white space, a comment which is not `/**/`, or a comment up to the end of the line -/
def Blank (s : List Nat) : Prop :=
  (∃ c, isSpace c ∧ s = [c]) ∨
  (Comment (py! "/*") s ∧ s ≠ py! "/**/") ∨
  (∃ body c, (∀ c ∈ body, isLineEnd c = false) ∧ isLineEnd c ∧ s = py! "//" ++ (body ++ [c]))

/-- a token which is seen by the parser and complete by itself -/
def Visible : Kind → Prop
  | .space => False
  | .docComment => False
  | .markdownComment => False
  | .blockComment => False
  | .lineComment => False
  | .invalidString => False
  | _ => True

/-- `Layout ts text`: the text consists of the tokens `ts`, and of white space and comments between them.  A token is followed by white space,
except that a word has to be followed only by some character which cannot be in a word, and that a character of `punctuation` can be followed
by anything. -/
inductive Layout : List (Kind × List Nat) → List Nat → Prop
  | nil : Layout [] []
  | last {k s} : Visible k → IsToken s k s → Layout [(k, s)] s
  | cons {k s c ts rest} : Visible k → IsToken s k s → isSpace c → Layout ts rest → Layout ((k, s) :: ts) (s ++ c :: rest)
  | word {s ts rest} : Word s → (∀ c, rest.head? = some c → isWordChar c = false) → Layout ts rest → Layout ((wordKind s, s) :: ts) (s ++ rest)
  | single {c ts rest} : c ∈ punctuation → Layout ts rest → Layout ((.operator [c], [c]) :: ts) (c :: rest)
  | blank {s ts rest} : Blank s → Layout ts rest → Layout ts (s ++ rest)

/-- the tokens of a text, one behind the other -/
inductive Tokenised : List Nat → List (Kind × List Nat) → Prop
  | nil : Tokenised [] []
  | cons {k s rest ts} : IsToken (s ++ rest) k s → Tokenised rest ts → Tokenised (s ++ rest) ((k, s) :: ts)

/-- the type of a comment: `/**` begins a documentation comment, `/*!` one in Markdown -/
def commentKind : List Nat → Kind
  | 47 :: 42 :: 42 :: _ => .docComment
  | 47 :: 42 :: 33 :: _ => .markdownComment
  | _ => .blockComment

/-- the type of a number which consists of digits: `0` before other digits means an octal number, and there is none with the digits 8 and 9 -/
def digitsKind (ds : List Nat) : Kind :=
  if ds.head? ≠ some 48 ∨ ds = [48] then .decimal else if ∀ d ∈ ds, isOctalDigit d = true then .octal else .invalid

end Zserio.Lexer
