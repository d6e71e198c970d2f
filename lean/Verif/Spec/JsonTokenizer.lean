import Verif.Model.JsonTokenizer
/-
What a user of the tokenizer sees.
-/
namespace Zserio.Json

/-- What can be seen of one call of `next()`: the token with its value, or the exception, and the position. -/
structure Seen where
  result : Except Err (Token × Val)
  line : Nat
  column : Nat

/-- What is seen of the next `n` calls of `next()`. -/
def Tokenizer.see (t : PyText) : Nat → Tokenizer → List Seen
  | 0, _ => []
  | n + 1, s =>
    let (r, s') := s.next t
    ⟨r.map fun token => (token, s'.value), s'.line, s'.tokenColumn⟩ :: Tokenizer.see t n s'

/-- The first `n` tokens of a text which is read in the given chunks. -/
def tokens (t : PyText) (chunks : List PyStr) (n : Nat) : List Seen := (Tokenizer.new chunks).see t n

/-- The text is read from a stream in non-empty pieces. -/
structure Chunks (text : PyStr) (chunks : List PyStr) : Prop where
  flatten : chunks.flatten = text
  nonempty : ∀ c ∈ chunks, c ≠ []

/-- the kind of token which was returned, if any -/
def Seen.kind (x : Seen) : Option Token :=
  match x.result with
  | .ok (token, _) => some token
  | .error _ => none

namespace Tokenizer

/-- The next token is a value (or an attempt at one) which reaches the end of the text. -/
def AtEnd (t : PyText) (w : PyStr) : Prop :=
  ∃ x r, (skipLoop w 1 1).1 = true ∧ (skipLoop w 1 1).2.1 = x :: r ∧ punctuation x = none ∧
    (x :: r).length ≤ (decodeValue t (x :: r)).numRead

/-- None of the next `n` tokens is a value which reaches the end of the text. -/
def NoValueAtEnd (t : PyText) : Nat → Tokenizer → Prop
  | 0, _ => True
  | n + 1, b => ¬ AtEnd t b.rest ∧ NoValueAtEnd t n (b.next t).2

end Tokenizer
end Zserio.Json
