import Verif.Model.Walker
import Verif.Model.JsonText
/-
Model of `JsonWriter` (json.py:42-280).

The text stream is modelled by the text written so far.  A value of a Python type which the type info does not announce is
taken to raise where its attributes are accessed.
-/
namespace Zserio.Json

/-- The argument `indent` of the constructor, json.py:54. -/
inductive Indent where
  | none
  | str (s : PyStr)
  | int (n : Int)

/-- The attributes which the constructor sets once: json.py:69-76. -/
structure WriterConfig where
  itemSeparator : PyStr
  keySeparator : PyStr
  /-- `_enumerable_format` is `JsonEnumerableFormat.STRING` -/
  stringFormat : Bool
  indent : Option PyStr

/-- json.py:72-74: the indent as a string; `" " * indent` of a negative number is empty -/
def Indent.text : Indent → Option PyStr
  | .none => Option.none
  | .str s => some s
  | .int n => some (List.replicate n.toNat (ch! ' '))

/-- json.py:47-80 `__init__`; an empty separator is replaced like `None` -/
def WriterConfig.new (itemSeparator keySeparator : Option PyStr) (stringFormat : Bool) (indent : Indent) : WriterConfig where
  itemSeparator := match itemSeparator with
    | some (c :: s) => c :: s
    | _ => match indent with
      | .none => py! ", "
      | _ => py! ","
  keySeparator := match keySeparator with
    | some (c :: s) => c :: s
    | _ => py! ": "
  stringFormat := stringFormat
  indent := indent.text

/-- The state: json.py:69, 78-79. -/
structure JsonWriter where
  isFirst : Bool
  level : Int
  out : PyStr

namespace JsonWriter

/-- json.py:69, 78-79 -/
def new : JsonWriter := { isFirst := true, level := 0, out := [] }

/-- `self._io.write(text)` -/
def write (text : PyStr) : M JsonWriter Unit := fun w => (.ok (), { w with out := w.out ++ text })

/-- `self._indent * self._level`; no repetitions for a negative level -/
def indentation (indent : PyStr) (level : Int) : PyStr := (List.replicate level.toNat indent).flatten

/-- `self._level += delta` -/
def addLevel (delta : Int) : M JsonWriter Unit := fun w => (.ok (), { w with level := w.level + delta })

/-- `self._is_first = value` -/
def setFirst (value : Bool) : M JsonWriter Unit := fun w => (.ok (), { w with isFirst := value })

variable (t : PyText) (cfg : WriterConfig)

/-- json.py:152-159 `_begin_item` -/
def beginItem : M JsonWriter Unit := do
  if !(← M.get).isFirst then write cfg.itemSeparator
  match cfg.indent with
  | none => pure ()
  | some indent => do
    write (py! "\n")
    if indent ≠ [] then write (indentation indent (← M.get).level)

/-- json.py:161-162 `_end_item` -/
def endItem : M JsonWriter Unit := setFirst false

/-- json.py:164-168 `_begin_object`, 179-183 `_begin_array`: the same but for the bracket -/
def beginBracket (bracket : Nat) : M JsonWriter Unit := do
  write [bracket]
  setFirst true
  addLevel 1

/-- json.py:170-177 `_end_object`, 185-192 `_end_array`: the same but for the bracket -/
def endBracket (bracket : Nat) : M JsonWriter Unit := do
  match cfg.indent with
  | none => pure ()
  | some _ => write (py! "\n")
  addLevel (-1)
  match cfg.indent with
  | none => pure ()
  | some indent => if indent ≠ [] then write (indentation indent (← M.get).level)
  write [bracket]

/-- `self._io.write(self._json_encoder.encode_value(value))` -/
def writeEncoded (v : Val) : M JsonWriter Unit := do
  let text ← M.lift (encodeValue t v)
  write text

/-- json.py:194-195 `_write_key` -/
def writeKey (key : PyStr) : M JsonWriter Unit := do
  let text ← M.lift (encodeValue t (.str key))
  write (text ++ cfg.keySeparator)

/-- json.py:119-120, 144-145: the key of a field; elements of arrays have none -/
def writeItemKey (m : MemberInfo) (idx : Option Nat) : M JsonWriter Unit :=
  if idx.isNone then writeKey t cfg m.schemaName else pure ()

/-- json.py:225-228, 242-245: the loop over the bytes -/
def writeByteItems : List UInt8 → M JsonWriter Unit
  | [] => pure ()
  | byte :: bytes => do
    beginItem cfg
    writeEncoded t (.int byte.toNat)
    endItem
    writeByteItems bytes

/-- json.py:220-235 `_write_bitbuffer` -/
def writeBitBuffer (b : BitBuffer) : M JsonWriter Unit := do
  beginBracket (ch! '{')
  beginItem cfg
  writeKey t cfg (py! "buffer")
  beginBracket (ch! '[')
  writeByteItems t cfg b.buffer
  endBracket cfg (ch! ']')
  endItem
  beginItem cfg
  writeKey t cfg (py! "bitSize")
  writeEncoded t (.int b.bitsize)
  endItem
  endBracket cfg (ch! '}')

/-- json.py:237-248 `_write_bytes` -/
def writeBytes (bytes : List UInt8) : M JsonWriter Unit := do
  beginBracket (ch! '{')
  beginItem cfg
  writeKey t cfg (py! "buffer")
  beginBracket (ch! '[')
  writeByteItems t cfg bytes
  endBracket cfg (ch! ']')
  endItem
  endBracket cfg (ch! '}')

/-- json.py:250-260 `_write_stringified_enum`, the text: the name of the first equal item -/
def enumText : List EnumItem → Int → PyStr
  | [], v => decimalInt v ++ py! " /* no match */"
  | item :: items, v => if item.value = v then item.name else enumText items v

/-- json.py:269-278, the loop of `_write_stringified_bitmask`: `value_check` and `string_value` -/
def bitmaskNames (v : Int) : List (PyStr × Int) → Int → PyStr → Int × PyStr
  | [], check, text => (check, text)
  | (name, item) :: items, check, text =>
    if (item ≠ 0 ∧ Int.land v item = item) ∨ (item = 0 ∧ v = 0) then
      bitmaskNames v items (Int.lor check item) ((if text ≠ [] then text ++ py! " | " else text) ++ name)
    else bitmaskNames v items check text

/-- json.py:262-280 `_write_stringified_bitmask`, the text -/
def bitmaskText (items : List (PyStr × Int)) (v : Int) : PyStr :=
  match bitmaskNames v items 0 [] with
  | (check, text) =>
    if text = [] then decimalInt v ++ py! " /* no match */"
    else if v ≠ check then decimalInt v ++ py! " /* partial match: " ++ text ++ py! " */"
    else text

/-- json.py:197-218 `_write_value` -/
def writeValue (v : Val) (m : MemberInfo) : M JsonWriter Unit :=
  if v.isNone then writeEncoded t .none
  else
    match m.type, v with
    | .builtin .bitBuffer, .bitBuffer b => writeBitBuffer t cfg b
    | .builtin .bitBuffer, _ => M.throw .type
    | .builtin .bytearray, .bytes bytes => writeBytes t cfg bytes
    | .builtin .bytearray, _ => M.throw .type
    | .enum e, .int x =>
      if cfg.stringFormat then writeEncoded t (.str (enumText e.items x)) else writeEncoded t (.int x)
    | .enum _, _ => M.throw .type
    | .bitmask d, .int x =>
      if cfg.stringFormat then writeEncoded t (.str (bitmaskText d.values x)) else writeEncoded t (.int x)
    | .bitmask _, _ => M.throw .type
    | _, v => writeEncoded t v

/-- json.py:91-150: the methods of the observer -/
def observe : Event → M JsonWriter Unit
  | .beginRoot _ => beginBracket (ch! '{')
  | .endRoot _ => endBracket cfg (ch! '}')
  | .beginArray _ m => do
    beginItem cfg
    writeKey t cfg m.schemaName
    beginBracket (ch! '[')
  | .endArray _ _ => do
    endBracket cfg (ch! ']')
    endItem
  | .beginCompound _ m idx => do
    beginItem cfg
    writeItemKey t cfg m idx
    beginBracket (ch! '{')
  | .endCompound _ _ _ => do
    endBracket cfg (ch! '}')
    endItem
  | .visitValue v m idx => do
    beginItem cfg
    writeItemKey t cfg m idx
    writeValue t cfg v m
    endItem

/-- The observer is told events until it raises an exception. -/
def observeAll : List Event → M JsonWriter Unit
  | [] => pure ()
  | e :: es => do
    observe t cfg e
    observeAll es

end JsonWriter
end Zserio.Json
