import Verif.Model.JsonReader
import Verif.Spec.JsonImage
import Verif.Lemmas.ValEq
/-
Vocabulary for the statements about the JSON reader.
-/
namespace Zserio.Json

/-- An identifier of the zserio language: a letter or `_`, then letters, digits and `_`. -/
def Identifier (s : PyStr) : Prop :=
  s ≠ [] ∧ (∀ c ∈ s, (ch! 'A' ≤ c ∧ c ≤ ch! 'Z') ∨ (ch! 'a' ≤ c ∧ c ≤ ch! 'z') ∨ c = ch! '_' ∨ (ch! '0' ≤ c ∧ c ≤ ch! '9')) ∧
    ∀ c ∈ s.head?, ¬ (ch! '0' ≤ c ∧ c ≤ ch! '9')

instance : DecidablePred Identifier := fun s => by unfold Identifier; infer_instance

/-- The compiler guarantees: the names of the items are identifiers and differ. -/
structure Names (names : List PyStr) : Prop where
  identifiers : ∀ n ∈ names, Identifier n
  nodup : names.Nodup

/-- The same for the type of a member, if it is an enumeration or a bitmask. -/
def NamesOf : TypeInfo → Prop
  | .enum e => Names (e.items.map EnumItem.name)
  | .bitmask d => Names (d.values.map Prod.fst)
  | _ => True

/-- A value of the type, as a Python program can have it: an item of the enumeration, a value within the bounds of the bitmask; a
number which is not a NaN; a bit buffer which is not longer than its bytes. -/
def Proper : TypeInfo → Val → Prop
  | .enum e, .int x => ∃ item ∈ e.items, item.value = x
  | .bitmask d, .int x => 0 ≤ x ∧ d.lowerBound ≤ x ∧ x ≤ d.upperBound
  | .builtin .float, .float x => canonical (.float x) = .float x
  | .builtin .bitBuffer, .bitBuffer b => b.bitsize ≤ 8 * b.buffer.length
  | .builtin .int, .int _ => True
  | .builtin .int, .bool _ => True
  | .builtin .bool, .bool _ => True
  | .builtin .str, .str _ => True
  | .builtin .bytearray, .bytes _ => True
  | _, _ => False

/-- a decision procedure, for examples -/
instance Proper.decidable (t : TypeInfo) (v : Val) : Decidable (Proper t v) := by
  unfold Proper
  split <;> infer_instance

end Zserio.Json
