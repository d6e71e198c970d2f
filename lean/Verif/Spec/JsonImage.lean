import Verif.Spec.JsonDoc
import Verif.Model.JsonWriter
/-
What the JSON text of an object has to say: the JSON value of each visited value, and the order of the keys and values.
-/
namespace Zserio.Json

/-- the bytes as JSON numbers -/
def byteDocs (bytes : List UInt8) : List Doc := bytes.map fun b => .value (.int b.toNat)

/-- All NaNs have the same JSON value. -/
def canonical : Val → Val
  | .float x => if x.toNat % 2 ^ 63 > 2047 * 2 ^ 52 then .float nan else .float x
  | v => v

/-- The value can be written for a member of this type: `None`, or a value of a Python type which belongs to it. -/
def Writable (m : MemberInfo) (v : Val) : Prop :=
  v = .none ∨
  match m.type with
  | .builtin .bitBuffer => ∃ b, v = .bitBuffer b
  | .builtin .bytearray => ∃ bytes, v = .bytes bytes
  | .enum _ => ∃ x, v = .int x
  | .bitmask _ => ∃ x, v = .int x
  | _ => (∃ b, v = .bool b) ∨ (∃ x, v = .int x) ∨ (∃ x, v = .float x) ∨ (∃ s, v = .str s)

/-- The JSON value of a value: `null`; bit buffers and bytes as objects; items of enumerations and bitmasks by their numbers or
their texts; the others as they are. -/
def image (stringFormat : Bool) (m : MemberInfo) (v : Val) : Doc :=
  match m.type, v with
  | .builtin .bitBuffer, .bitBuffer b =>
    .object [(py! "buffer", .array (byteDocs b.buffer)), (py! "bitSize", .value (.int b.bitsize))]
  | .builtin .bytearray, .bytes bytes => .object [(py! "buffer", .array (byteDocs bytes))]
  | .enum e, .int x => .value (if stringFormat then .str (JsonWriter.enumText e.items x) else .int x)
  | .bitmask d, .int x => .value (if stringFormat then .str (JsonWriter.bitmaskText d.values x) else .int x)
  | _, v => .value (canonical v)

/-- The key of a field; elements of arrays have no keys. -/
def keyOf (m : MemberInfo) (idx : Option Nat) : List JsonEvent := if idx.isNone then [.key m.schemaName] else []

/-- What the text has to say for each call of the observer: objects for compounds, arrays for arrays, keys and values. -/
def jsonEvents (stringFormat : Bool) : Event → List JsonEvent
  | .beginRoot _ => [.beginObject]
  | .endRoot _ => [.endObject]
  | .beginArray _ m => [.key m.schemaName, .beginArray]
  | .endArray _ _ => [.endArray]
  | .beginCompound _ m idx => keyOf m idx ++ [.beginObject]
  | .endCompound _ _ _ => [.endObject]
  | .visitValue v m idx => keyOf m idx ++ (image stringFormat m v).events

/-- The separators and the indent are those of JSON: `,` and `:` with white space around them, and white space. -/
structure WriterConfig.Valid (cfg : WriterConfig) : Prop where
  item : ∃ a b, cfg.itemSeparator = a ++ ch! ',' :: b ∧ Blank a ∧ Blank b
  key : ∃ a b, cfg.keySeparator = a ++ ch! ':' :: b ∧ Blank a ∧ Blank b
  indent : ∀ s, cfg.indent = some s → Blank s

end Zserio.Json
