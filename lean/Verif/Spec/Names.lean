import Verif.Model.JsonText
/-
What names are, in English terms: identifiers of zserio and of Python, and where the words of a name in camel case begin.
Nothing here refers to the conversions of the generator.
-/
namespace Zserio.Names

/-- A lower case letter. -/
abbrev LowerCase (c : Nat) : Prop := ch! 'a' ≤ c ∧ c ≤ ch! 'z'

/-- An upper case letter. -/
abbrev UpperCase (c : Nat) : Prop := ch! 'A' ≤ c ∧ c ≤ ch! 'Z'

/-- A digit. -/
abbrev Digit (c : Nat) : Prop := ch! '0' ≤ c ∧ c ≤ ch! '9'

/-- A character which may begin an identifier. -/
abbrev IdStart (c : Nat) : Prop := LowerCase c ∨ UpperCase c ∨ c = ch! '_'

/-- A character an identifier may contain. -/
abbrev IdPart (c : Nat) : Prop := IdStart c ∨ Digit c

/-- An ASCII identifier: what the lexer of zserio takes as a name (core/antlr/ZserioLexer.g4:154), and what the Python
language reference calls an identifier, restricted to ASCII. -/
def IsIdentifier : PyStr → Prop
  | [] => False
  | c :: rest => IdStart c ∧ ∀ x ∈ rest, IdPart x

instance (s : PyStr) : Decidable (IsIdentifier s) := by
  cases s <;> simp only [IsIdentifier] <;> infer_instance

/-- The keywords of Python 3.9 (`keyword.kwlist`). -/
def pythonKeywords : List PyStr :=
  [py! "False", py! "None", py! "True", py! "__peg_parser__", py! "and", py! "as", py! "assert", py! "async",
   py! "await", py! "break", py! "class", py! "continue", py! "def", py! "del", py! "elif", py! "else", py! "except",
   py! "finally", py! "for", py! "from", py! "global", py! "if", py! "import", py! "in", py! "is", py! "lambda",
   py! "nonlocal", py! "not", py! "or", py! "pass", py! "raise", py! "return", py! "try", py! "while", py! "with",
   py! "yield"]

/-- A name Python code may define: an identifier which is not a keyword. -/
def IsPythonName (s : PyStr) : Prop := IsIdentifier s ∧ s ∉ pythonKeywords

instance (s : PyStr) : Decidable (IsPythonName s) := inferInstanceAs (Decidable (_ ∧ _))

/-- A word of a name in camel case begins at the upper case letter `c`, which follows `prev` and precedes `next`:
either `prev` is lower case, or `prev` is upper case or a digit and `next` is lower case (the `S` of `JSONString`). -/
def WordBegins (prev c : Nat) (next : Option Nat) : Prop :=
  UpperCase c ∧ (LowerCase prev ∨ ((UpperCase prev ∨ Digit prev) ∧ ∃ n, next = some n ∧ LowerCase n))

instance (next : Option Nat) : Decidable (∃ n, next = some n ∧ LowerCase n) :=
  match next with
  | none => isFalse (by simp)
  | some n => decidable_of_iff (LowerCase n) (by simp)

instance (prev c : Nat) (next : Option Nat) : Decidable (WordBegins prev c next) :=
  inferInstanceAs (Decidable (_ ∧ _))

/-- The name with an underscore in front of each letter at which a word begins, except the first character. -/
def separated : Option Nat → PyStr → PyStr
  | _, [] => []
  | none, c :: rest => c :: separated (some c) rest
  | some prev, c :: rest =>
    if WordBegins prev c rest.head? then ch! '_' :: c :: separated (some c) rest else c :: separated (some c) rest

/-- A letter in lower case. -/
def lowerCaseOf (c : Nat) : Nat := if UpperCase c then c + 32 else c

/-- A letter in upper case. -/
def upperCaseOf (c : Nat) : Nat := if LowerCase c then c - 32 else c

/-- The name in lower snake case: words separated by underscores, in lower case. -/
def lowerSnake (s : PyStr) : PyStr := (separated none s).map lowerCaseOf

/-- The name in upper snake case: words separated by underscores, in upper case. -/
def upperSnake (s : PyStr) : PyStr := (separated none s).map upperCaseOf

end Zserio.Names
