import Verif.Model.JsonText
/-
Model of `JsonTokenizer` (json.py:766-919).

The text stream is the list of the strings which successive calls `text_io.read(MAX_LINE_LEN)` return; an empty string, or
the end of the list, is the end of the stream.  Instead of `_content` and `_pos` the state has `content[pos:]`, which is all
the code ever looks at.
-/
namespace Zserio.Json

/-- json.py:307-320 `JsonToken` -/
inductive Token where
  | beginOfFile
  | endOfFile
  | beginObject
  | endObject
  | beginArray
  | endArray
  | keySeparator
  | itemSeparator
  | value
  deriving DecidableEq, Repr

/-- json.py:771-785: the attributes of the tokenizer -/
structure Tokenizer where
  /-- what `_io.read` will return -/
  chunks : List PyStr
  /-- `_content[_pos:]` -/
  rest : PyStr
  line : Nat
  column : Nat
  tokenColumn : Nat
  token : Token
  value : Val
  decoderResult : DecodeResult

namespace Tokenizer

/-- `self._io.read(JsonTokenizer.MAX_LINE_LEN)` -/
def ioRead (chunks : List PyStr) : PyStr × List PyStr :=
  match chunks with
  | [] => ([], [])
  | c :: cs => (c, cs)

/-- json.py:771-785 `__init__` -/
def new (chunks : List PyStr) : Tokenizer :=
  let (content, chunks) := ioRead chunks
  { chunks, rest := content, line := 1, column := 1, tokenColumn := 1,
    token := if content ≠ [] then .beginOfFile else .endOfFile, value := .none, decoderResult := failure 0 }

/-- json.py:901-903 `_set_token` -/
def setToken (s : Tokenizer) (token : Token) (value : Val) : Tokenizer := { s with token, value }

/-- json.py:905-907 `_set_position`, with the remaining content in place of the position -/
def setPosition (s : Tokenizer) (rest : PyStr) (column : Nat) : Tokenizer := { s with rest, column }

/-- json.py:878-899, the loop of `_skip_whitespaces`: whether there is another character, the remaining content, line and
column -/
def skipLoop : PyStr → Nat → Nat → Bool × PyStr × Nat × Nat
  | [], line, column => (false, [], line, column)
  | c :: rest, line, column =>
    if c = ch! ' ' ∨ c = ch! '\t' then skipLoop rest line (column + 1)
    else if c = ch! '\n' then skipLoop rest (line + 1) 1
    else if c = ch! '\r' then
      match rest with
      | [] => (false, [c], line, column)
      | d :: rest' => if d = ch! '\n' then skipLoop rest' (line + 1) 1 else skipLoop (d :: rest') (line + 1) 1
    else (true, c :: rest, line, column)

/-- json.py:878-899 `_skip_whitespaces` -/
def skipWhitespaces (s : Tokenizer) : Bool × Tokenizer :=
  let (found, rest, line, column) := skipLoop s.rest s.line s.column
  let s := { s with rest, line, column }
  (found, if found then s else s.setToken .endOfFile .none)

/-- json.py:909-917 `_set_token_value` -/
def setTokenValue (s : Tokenizer) : Except Err Unit × Tokenizer :=
  match s.decoderResult.value with
  | none => (.error .json, s)
  | some v =>
    (.ok (), (s.setToken .value v).setPosition (s.rest.drop s.decoderResult.numRead) (s.column + s.decoderResult.numRead))

/-- json.py:850-868: the tokens of one character -/
def punctuation (c : Nat) : Option Token :=
  if c = ch! '{' then some .beginObject
  else if c = ch! '}' then some .endObject
  else if c = ch! '[' then some .beginArray
  else if c = ch! ']' then some .endArray
  else if c = ch! ':' then some .keySeparator
  else if c = ch! ',' then some .itemSeparator
  else none

/-- json.py:844-876 `_decode_next` -/
def decodeNext (t : PyText) (s : Tokenizer) : Except Err Bool × Tokenizer :=
  let (found, s) := s.skipWhitespaces
  if !found then (.ok false, s)
  else
    let s := { s with tokenColumn := s.column }
    match s.rest with
    | [] => (.error .index, s)   -- not reached: `content[pos]`
    | c :: rest' =>
      match punctuation c with
      | some token => (.ok true, (s.setToken token (.str [c])).setPosition rest' (s.column + 1))
      | none =>
        let s := { s with decoderResult := decodeValue t s.rest }
        if s.decoderResult.numRead ≥ s.rest.length then (.ok false, s)
        else
          match s.setTokenValue with
          | (.ok (), s) => (.ok true, s)
          | (.error e, s) => (.error e, s)

/-- json.py:796-805: the stream is finished -/
def finish (s : Tokenizer) : Except Err Token × Tokenizer :=
  if s.token = .endOfFile then (.ok .endOfFile, { s with tokenColumn := s.column })
  else
    match s.setTokenValue with
    | (.ok (), s) => (.ok s.token, s)
    | (.error e, s) => (.error e, s)

/-- json.py:787-810, the loop of `next` -/
def nextLoop (t : PyText) : List PyStr → Tokenizer → Except Err Token × Tokenizer
  | chunks, s =>
    match s.decodeNext t with
    | (.error e, s) => (.error e, { s with chunks })
    | (.ok true, s) => (.ok s.token, { s with chunks })
    | (.ok false, s) =>
      match chunks with
      | [] => finish { s with chunks := [] }
      | c :: cs => if c = [] then finish { s with chunks := cs } else nextLoop t cs { s with rest := s.rest ++ c }

/-- json.py:787-810 `next` -/
def next (t : PyText) (s : Tokenizer) : Except Err Token × Tokenizer := nextLoop t s.chunks s

end Tokenizer
end Zserio.Json
