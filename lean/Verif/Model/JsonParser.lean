import Verif.Model.JsonTokenizer
import Verif.Model.Base
/-
Model of `JsonParser` (json.py:329-517).

The observer is any object with the six methods; its state is a parameter.  The recursion of the parser over the nesting of
the text is bounded by a number which `parse` takes from the length of the remaining text; `C46_no_recursion_error` shows that
the bound is never reached.  (The recursion limit of the interpreter itself is not modelled.)
-/
namespace Zserio.Json

/-- json.py:336-386 `JsonParser.Observer` -/
structure Observer (σ : Type) where
  beginObject : M σ Unit
  endObject : M σ Unit
  beginArray : M σ Unit
  endArray : M σ Unit
  visitKey : PyStr → M σ Unit
  visitValue : Val → M σ Unit

namespace Parser
variable {σ : Type}

/-- `self._tokenizer.next()` -/
def next (t : PyText) : M (Tokenizer × σ) Token := fun (tk, s) =>
  match tk.next t with
  | (r, tk') => (r, (tk', s))

/-- `self._tokenizer.get_token()` -/
def token : M (Tokenizer × σ) Token := fun (tk, s) => (.ok tk.token, (tk, s))

/-- `self._tokenizer.get_value()` -/
def value : M (Tokenizer × σ) Val := fun (tk, s) => (.ok tk.value, (tk, s))

/-- a call of a method of `self._observer` -/
def observe (m : M σ Unit) : M (Tokenizer × σ) Unit := fun (tk, s) =>
  match m s with
  | (r, s') => (r, (tk, s'))

/-- json.py:498-500 `_check_token` (and `_raise_unexpected_token`, json.py:502-514) -/
def checkToken (expected : Token) : M (Tokenizer × σ) Unit := do
  if (← token) ≠ expected then M.throw .json

/-- json.py:494-496 `_consume_token` -/
def consumeToken (t : PyText) (expected : Token) : M (Tokenizer × σ) Unit := do
  checkToken expected
  let _ ← next t

/-- json.py:517 `ELEMENT_TOKENS` -/
def elementTokens : List Token := [.beginObject, .beginArray, .value]

/-- json.py:490-492 `_parse_value` -/
def parseValue (t : PyText) (ob : Observer σ) : M (Tokenizer × σ) Unit := do
  observe (ob.visitValue (← value))
  let _ ← next t

/-- json.py:455-457, 468-470: the loop `while self._tokenizer.get_token() == JsonToken.ITEM_SEPARATOR` -/
def parseMore (t : PyText) (item : M (Tokenizer × σ) Unit) : Nat → M (Tokenizer × σ) Unit
  | 0 => M.throw .recursion
  | n + 1 => do
    if (← token) = .itemSeparator then
      let _ ← next t
      item
      parseMore t item n

/-- json.py:453-457 `_parse_elements`, json.py:468-472 `_parse_members` -/
def parseItems (t : PyText) (item : M (Tokenizer × σ) Unit) (n : Nat) : M (Tokenizer × σ) Unit := do
  item
  parseMore t item n

/-- json.py:474-488 `_parse_member` -/
def parseMember (t : PyText) (ob : Observer σ) (element : M (Tokenizer × σ) Unit) : M (Tokenizer × σ) Unit := do
  checkToken .value
  match ← value with
  | .str key => do
    observe (ob.visitKey key)
    let _ ← next t
    consumeToken t .keySeparator
    element
  | _ => M.throw .json

/-- json.py:443-451 `_parse_array` -/
def parseArray (t : PyText) (ob : Observer σ) (element : M (Tokenizer × σ) Unit) (n : Nat) : M (Tokenizer × σ) Unit := do
  observe ob.beginArray
  let tok ← next t
  if tok ∈ elementTokens then parseItems t element n
  consumeToken t .endArray
  observe ob.endArray

/-- json.py:459-466 `_parse_object` -/
def parseObject (t : PyText) (ob : Observer σ) (element : M (Tokenizer × σ) Unit) (n : Nat) : M (Tokenizer × σ) Unit := do
  observe ob.beginObject
  let tok ← next t
  if tok = .value then parseItems t (parseMember t ob element) n
  consumeToken t .endObject
  observe ob.endObject

/-- json.py:432-441 `_parse_element` -/
def parseElement (t : PyText) (ob : Observer σ) : Nat → M (Tokenizer × σ) Unit
  | 0 => M.throw .recursion
  | n + 1 => do
    match ← token with
    | .beginArray => parseArray t ob (parseElement t ob n) n
    | .beginObject => parseObject t ob (parseElement t ob n) n
    | .value => parseValue t ob
    | _ => M.throw .json

/-- the length of the text which has not been read yet -/
def remaining (tk : Tokenizer) : Nat := (tk.rest ++ tk.chunks.flatten).length

/-- json.py:399-414 `parse` -/
def parse (t : PyText) (ob : Observer σ) : M (Tokenizer × σ) Bool := do
  if (← token) = .beginOfFile then
    let _ ← next t
  if (← token) = .endOfFile then return true
  let (tk, _) ← M.get
  parseElement t ob (remaining tk + 1)
  return (← token) = .endOfFile

end Parser
end Zserio.Json
