import Verif.Model.JsonParser
import Verif.Model.JsonWriter
import Verif.Model.Creator
/-
Model of `JsonReader` (json.py:922-1351) and of debugstring.py.

Simplifications: exceptions do not carry their texts, so that adding the position to the text (json.py:949-956) is not visible;
the exceptions `PythonRuntimeException` which json.py raises are `Err.json`, whatever their text; a `float` for an item of an
enumeration or for a bitmask is an error (in Python the item with an equal value is found, and the bitmask takes the `float`).
-/
namespace Zserio.Json

/-! ### Enumerations and bitmasks as strings -/

/-- json.py:1284, 1301: `("A" <= c <= "Z") or ("a" <= c <= "z") or c == "_"` -/
def isNameStart (c : Nat) : Bool :=
  (ch! 'A' ≤ c && c ≤ ch! 'Z') || (ch! 'a' ≤ c && c ≤ ch! 'z') || c == ch! '_'

/-- json.py:1305, 1348: `"0" <= c <= "9"` -/
def isAsciiDigit (c : Nat) : Bool := ch! '0' ≤ c && c ≤ ch! '9'

/-- json.py:1315-1323 `_parse_enum_string_value` -/
def parseEnumString (text : PyStr) : List EnumItem → Option Int
  | [] => none
  | item :: items => if text = item.name then some item.value else parseEnumString text items

/-- json.py:1278-1293 `_enum_from_string` -/
def enumFromString (e : EnumClass) (text : PyStr) : Except Err Int :=
  match text with
  | [] => .error .json
  | c :: _ =>
    if isNameStart c then
      match parseEnumString text e.items with
      | some v => .ok v
      | none => .error .json
    else .error .json

/-- `str.split("|")` -/
def splitBar : PyStr → List PyStr
  | [] => [[]]
  | c :: s =>
    if c = ch! '|' then [] :: splitBar s
    else
      match splitBar s with
      | [] => [[c]]
      | w :: ws => (c :: w) :: ws

/-- the characters which `str.strip` removes: those of Unicode with the property `White_Space` or of the bidirectional types
`WS`, `B`, `S` -/
def isPySpace (c : Nat) : Bool :=
  (9 ≤ c && c ≤ 13) || (28 ≤ c && c ≤ 32) || c == 133 || c == 160 || c == 5760 || (8192 ≤ c && c ≤ 8202) || c == 8232 || c == 8233 ||
    c == 8239 || c == 8287 || c == 12288

/-- `str.strip()` -/
def strip (s : PyStr) : PyStr := ((s.dropWhile isPySpace).reverse.dropWhile isPySpace).reverse

/-- json.py:1334-1338: the value of the first item with this name -/
def bitmaskItem (name : PyStr) : List (PyStr × Int) → Option Int
  | [] => none
  | (n, v) :: items => if name = n then some v else bitmaskItem name items

/-- json.py:1331-1343: the loop over the identifiers -/
def bitmaskLoop (items : List (PyStr × Int)) : List PyStr → Int → Option Int
  | [], value => some value
  | w :: ws, value =>
    match bitmaskItem (strip w) items with
    | none => none
    | some v => bitmaskLoop items ws (Int.lor value v)

/-- json.py:1325-1343 `_parse_bitmask_string_value` -/
def parseBitmaskString (text : PyStr) (items : List (PyStr × Int)) : Option Int := bitmaskLoop items (splitBar text) 0

/-- json.py:1348-1349: the digits after the first one; the loop raises an `IndexError` at the end of the text -/
def digitsAfter : PyStr → Except Err PyStr
  | [] => .error .index
  | c :: s => if isAsciiDigit c then (digitsAfter s).map (c :: ·) else .ok []

/-- `int(text)` of ASCII digits -/
def asciiNumber (text : PyStr) : Int := ((Nat.ofDigits 10 (text.reverse.map (· - ch! '0')) : Nat) : Int)

/-- json.py:1345-1351 `_parse_bitmask_numeric_string_value` -/
def parseBitmaskNumber : PyStr → Except Err Int
  | [] => .error .index
  | c :: s => (digitsAfter s).map fun ds => asciiNumber (c :: ds)

/-- json.py:1295-1313 `_bitmask_from_string` -/
def bitmaskFromString (d : BitmaskDef) (text : PyStr) : Except Err Int :=
  match text with
  | [] => .error .json
  | c :: _ =>
    if isNameStart c then
      match parseBitmaskString text d.values with
      | some v => (Bitmask.fromValue (d := d) v).map Bitmask.value
      | none => .error .json
    else if isAsciiDigit c then
      match parseBitmaskNumber text with
      | .ok v => (Bitmask.fromValue (d := d) v).map Bitmask.value
      | .error e => .error e
    else .error .json

/-- `isinstance(value, int)`, which holds for `bool` too -/
def asInt : Val → Option Int
  | .int x => some x
  | .bool b => some (if b then 1 else 0)
  | _ => none

/-- json.py:1258-1276 `_convert_value` -/
def convertValue (v : Val) : TypeInfo → Except Err Val
  | .enum e =>
    match v with
    | .none => .ok .none
    | .str s => (enumFromString e s).map .int
    | v =>
      match asInt v with
      | some x => (EnumClass.call (e := e) x).map fun r => .int (EnumClass.value r.1)
      | none => .error .enumValue
  | .bitmask d =>
    match v with
    | .none => .ok .none
    | .str s => (bitmaskFromString d s).map .int
    | v =>
      match asInt v with
      | some x => (Bitmask.fromValue (d := d) x).map fun b => .int b.value
      | none => .error .type
  | _ => .ok v

/-! ### Bit buffers and bytes -/

/-- json.py:1043-1047, 1112-1115 `_State` -/
inductive BufferState where
  | visitKey
  | beginArrayBuffer
  | visitValueBuffer
  | visitValueBitsize
  deriving DecidableEq

/-- `_BitBufferAdapter` (json.py:972-1047) or `_BytesAdapter` (json.py:1049-1115) with its attributes -/
inductive ValueAdapter where
  | bitBuffer (state : BufferState) (buffer : Option (List Int)) (bitSize : Option Int)
  | bytes (state : BufferState) (buffer : Option (List UInt8))

/-- `bytes(list)`: a `ValueError` for numbers which are no bytes -/
def toBytes : List Int → Except Err (List UInt8)
  | [] => .ok []
  | x :: xs => if 0 ≤ x ∧ x < 256 then (toBytes xs).map (UInt8.ofNat x.toNat :: ·) else .error .range

namespace ValueAdapter

/-- json.py:986-996, 1062-1072 `get` -/
def get : ValueAdapter → Except Err Val
  | .bitBuffer _ (some buffer) (some bitSize) =>
    match toBytes buffer with
    | .error e => .error e
    | .ok data => (BitBuffer.make data (some bitSize)).map .bitBuffer
  | .bytes _ (some buffer) => .ok (.bytes buffer)
  | _ => .error .json

/-- json.py:998-999, 1074-1075 `begin_object` -/
def beginObject : ValueAdapter → Except Err ValueAdapter := fun _ => .error .json

/-- json.py:1004-1009, 1080-1085 `begin_array` -/
def beginArray : ValueAdapter → Except Err ValueAdapter
  | .bitBuffer .beginArrayBuffer _ n => .ok (.bitBuffer .visitValueBuffer (some []) n)
  | .bytes .beginArrayBuffer _ => .ok (.bytes .visitValueBuffer (some []))
  | _ => .error .json

/-- json.py:1011-1015, 1087-1091 `end_array` -/
def endArray : ValueAdapter → Except Err ValueAdapter
  | .bitBuffer .visitValueBuffer b n => .ok (.bitBuffer .visitKey b n)
  | .bytes .visitValueBuffer b => .ok (.bytes .visitKey b)
  | _ => .error .json

/-- json.py:1017-1026, 1093-1100 `visit_key` -/
def visitKey (key : PyStr) : ValueAdapter → Except Err ValueAdapter
  | .bitBuffer .visitKey b n =>
    if key = py! "buffer" then .ok (.bitBuffer .beginArrayBuffer b n)
    else if key = py! "bitSize" then .ok (.bitBuffer .visitValueBitsize b n)
    else .error .json
  | .bytes .visitKey b => if key = py! "buffer" then .ok (.bytes .beginArrayBuffer b) else .error .json
  | _ => .error .json

/-- json.py:1028-1041, 1102-1110 `visit_value`; `bytearray.append` raises a `ValueError` for a number which is no byte -/
def visitValue (v : Val) (a : ValueAdapter) : Except Err ValueAdapter :=
  match asInt v with
  | none => .error .json
  | some x =>
    match a with
    | .bitBuffer .visitValueBuffer (some b) n => .ok (.bitBuffer .visitValueBuffer (some (b ++ [x])) n)
    | .bitBuffer .visitValueBitsize b _ => .ok (.bitBuffer .visitKey b (some x))
    | .bytes .visitValueBuffer (some b) =>
      if 0 ≤ x ∧ x < 256 then .ok (.bytes .visitValueBuffer (some (b ++ [UInt8.ofNat x.toNat]))) else .error .range
    | _ => .error .json

end ValueAdapter

/-! ### The observer of the parser -/

/-- `_CreatorAdapter` (json.py:1117-1276) with its attributes (json.py:1122-1130); the key stack has its top first -/
structure CreatorAdapter where
  creator : Option Creator
  keyStack : List PyStr
  object : Option Val
  valueAdapter : Option ValueAdapter

namespace CreatorAdapter

/-- json.py:1127-1130 `__init__` -/
def new : CreatorAdapter := ⟨none, [], none, none⟩

/-- json.py:1132-1141 `set_type` -/
def setType (id : Nat) (args : List Int) : M CreatorAdapter Unit := fun s =>
  (.ok (), { s with creator := some (Creator.new id args), object := none })

/-- json.py:1143-1154 `get`; all objects are true -/
def get : M CreatorAdapter Val := fun s =>
  match s.object with
  | none => (.error .json, s)
  | some o => (.ok o, s)

/-- a call of a method of `self._creator`, after the check that there is a creator -/
def create {α : Type} (x : M Creator α) : M CreatorAdapter α := fun s =>
  match s.creator with
  | none => (.error .json, s)
  | some c =>
    match x c with
    | (r, c) => (r, { s with creator := some c })

/-- a call of a method of `self._object_value_adapter`, if there is one -/
def delegate (f : ValueAdapter → Except Err ValueAdapter) (otherwise : M CreatorAdapter Unit) : M CreatorAdapter Unit := fun s =>
  match s.valueAdapter with
  | none => otherwise s
  | some a =>
    match f a with
    | .error e => (.error e, s)
    | .ok a => (.ok (), { s with valueAdapter := some a })

/-- `self._object_value_adapter = a` -/
def setAdapter (a : ValueAdapter) : M CreatorAdapter Unit := fun s => (.ok (), { s with valueAdapter := some a })

/-- `self._key_stack.append(key)` -/
def push (key : PyStr) : M CreatorAdapter Unit := fun s => (.ok (), { s with keyStack := key :: s.keyStack })

/-- `self._key_stack.pop()` -/
def pop : M CreatorAdapter Unit := fun s =>
  match s.keyStack with
  | [] => (.error .index, s)
  | _ :: ks => (.ok (), { s with keyStack := ks })

/-- the type of the field with the name at the top of the key stack or of the elements of the array: json.py:1166-1167, 1175,
1247-1248, 1255 -/
def expectedType (I : TypeInfos) (key : PyStr) : M CreatorAdapter TypeInfo :=
  if key ≠ [] then create (Creator.getFieldType I key) else create Creator.getElementType

/-- json.py:1168-1173, 1176-1181 -/
def beginTyped (I : TypeInfos) (key : PyStr) : TypeInfo → M CreatorAdapter Unit
  | .builtin .bitBuffer => setAdapter (.bitBuffer .visitKey none none)
  | .builtin .bytearray => setAdapter (.bytes .visitKey none)
  | _ => if key ≠ [] then create (Creator.beginCompound I key) else create (Creator.beginCompoundElement I)

/-- json.py:1156-1181 `begin_object` -/
def beginObject (I : TypeInfos) : M CreatorAdapter Unit := delegate ValueAdapter.beginObject fun s =>
  match s.keyStack with
  | [] => create (Creator.beginRoot I) s
  | key :: _ => (expectedType I key >>= beginTyped I key) s

/-- json.py:1247-1256: a converted value of a field or an element -/
def putValue (I : TypeInfos) (key : PyStr) (v : Val) : M CreatorAdapter Unit :=
  if key ≠ [] then do
    create (Creator.setValue I key v)
    pop
  else create (Creator.addValueElement v)

/-- json.py:1237-1256 `visit_value` -/
def visitValue (I : TypeInfos) (v : Val) : M CreatorAdapter Unit := delegate (ValueAdapter.visitValue v) fun s =>
  match s.keyStack with
  | [] => (.error .json, s)
  | key :: _ =>
    (do
      let ty ← expectedType I key
      let v ← M.lift (convertValue v ty)
      putValue I key v) s

/-- json.py:1192-1194: the root object is complete -/
def endRoot : M CreatorAdapter Unit := fun s =>
  match create Creator.endRoot s with
  | (.error e, s) => (.error e, s)
  | (.ok o, s) => (.ok (), { s with object := some o, creator := none })

/-- json.py:1183-1200 `end_object` -/
def endObject (I : TypeInfos) : M CreatorAdapter Unit := fun s =>
  match s.valueAdapter with
  | some a =>
    match a.get with
    | .error e => (.error e, s)
    | .ok v => visitValue I v { s with valueAdapter := none }
  | none =>
    match s.keyStack with
    | [] => endRoot s
    | key :: _ => if key ≠ [] then (create (Creator.endCompound I) >>= fun _ => pop) s else create Creator.endCompoundElement s

/-- json.py:1202-1214 `begin_array` -/
def beginArray (I : TypeInfos) : M CreatorAdapter Unit := delegate ValueAdapter.beginArray fun s =>
  match s.keyStack with
  | [] => (.error .json, s)
  | key :: _ => (create (Creator.beginArray I key) >>= fun _ => push []) s

/-- json.py:1216-1226 `end_array` -/
def endArray (I : TypeInfos) : M CreatorAdapter Unit := delegate ValueAdapter.endArray do
  create (Creator.endArray I)
  pop
  pop

/-- json.py:1228-1235 `visit_key` -/
def visitKey (key : PyStr) : M CreatorAdapter Unit := delegate (ValueAdapter.visitKey key) do
  create (pure ())
  push key

/-- the adapter as an observer of the parser -/
def observer (I : TypeInfos) : Observer CreatorAdapter where
  beginObject := beginObject I
  endObject := endObject I
  beginArray := beginArray I
  endArray := endArray I
  visitKey := visitKey
  visitValue := visitValue I

end CreatorAdapter

/-- json.py:927-935 `JsonReader.__init__`: the state of the tokenizer of its parser and of its adapter -/
def Reader.new (chunks : List PyStr) : Tokenizer × CreatorAdapter := (Tokenizer.new chunks, CreatorAdapter.new)

/-- `self._creator_adapter.get()` of json.py:958 -/
def Reader.result : M (Tokenizer × CreatorAdapter) Val := fun (tk, s) =>
  match CreatorAdapter.get s with
  | (r, s) => (r, (tk, s))

/-- json.py:937-958 `JsonReader.read` -/
def Reader.read (t : PyText) (I : TypeInfos) (id : Nat) (args : List Int) : M (Tokenizer × CreatorAdapter) Val := do
  Parser.observe (CreatorAdapter.setType id args)
  let _ ← Parser.parse t (CreatorAdapter.observer I)
  Reader.result

/-- debugstring.py:14-56 `to_json_stream`, 59-97 `to_json_string`: a walk of an object of the type `id` with the filter `F`, whose
events are sent to a writer.  (The walker calls the observer during the walk; the observer does not change what the walker does
unless it raises an exception.) -/
def toJsonString {σ : Type} (t : PyText) (I : TypeInfos) (F : WalkFilter σ) (st : σ) (indent : Indent) (id : Nat) (o : Val) :
    Except Err PyStr :=
  match Walker.walk I F (some (.compound id)) o st with
  | (r, _, es) =>
    match JsonWriter.observeAll t (WriterConfig.new none none true indent) es JsonWriter.new with
    | (.error e, _) => .error e
    | (.ok (), w) => r.map fun _ => w.out

/-- debugstring.py:140-166 `from_json_stream`, 169-193 `from_json_string`: an object of the type `id` with the parameters `args` from
a stream which returns `chunks` -/
def fromJsonStream (t : PyText) (I : TypeInfos) (id : Nat) (args : List Int) (chunks : List PyStr) : Except Err Val :=
  (Reader.read t I id args (Reader.new chunks)).1

end Zserio.Json
