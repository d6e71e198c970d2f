import Verif.Model.CompoundEq
/-
Model of the generated enumeration classes (Enumeration.py.ftl) and of the base class `zserio.Enum` (enum.py), at the level
of their own API.  `Model/Compound.lean` uses enumerations inside of compounds through the values of their items only.

An item is modelled as its index in the list of items: `enum.Enum` compares and looks up members by identity.  A call
which may fire a `DeprecationWarning` returns whether it does.
-/
namespace Zserio

/-- An item of an enumeration, EnumItem.java; `Name = value[, zserio.DeprecatedItem]`, Enumeration.py.ftl:16-21. -/
structure EnumItem where
  name : PyStr
  value : Int
  deprecated : Bool
  removed : Bool
  deriving DecidableEq

/-- An enumeration type, EnumType.java. -/
structure EnumClass where
  underlying : IntKind
  items : List EnumItem

namespace EnumClass
variable (e : EnumClass)

/-- A member of the class. -/
abbrev Member := Fin e.items.length

variable {e}

/-- `self.value` -/
def value (m : e.Member) : Int := e.items[m].value

/-- `self._is_deprecated`, enum.py:74-86 -/
def isDeprecated (m : e.Member) : Bool := e.items[m].deprecated

variable (e)

/-- The class call, enum.py:30-40 with `enum.EnumMeta.__call__`: the member with the value, or `ValueError`; fires a warning
if the member is deprecated. -/
def call (v : Int) : Except Err (e.Member × Bool) :=
  match (List.finRange e.items.length).find? fun m => decide (value m = v) with
  | some m => .ok (m, isDeprecated m)
  | none => .error .enumValue

/-- The chain of `if item_name == ...: item = ...` of Enumeration.py.ftl:34-38. -/
def fromNameChain (itemName : PyStr) : List e.Member → Option e.Member
  | [] => none
  | m :: ms => if itemName = e.items[m].name then some m else fromNameChain itemName ms

/-- Enumeration.py.ftl:23-41 `from_name`; the access to the attribute of the class fires the warning (enum.py:16-20). -/
def fromName (itemName : PyStr) : Except Err (e.Member × Bool) :=
  match fromNameChain e itemName (List.finRange e.items.length) with
  | some m => .ok (m, isDeprecated m)
  | none => .error .enumValue

/-- Enumeration.py.ftl:43-53 `from_reader` -/
def fromReader : M Reader (e.Member × Bool) := do
  let v ← e.underlying.traits.read 0
  M.lift (e.call v)

/-- Enumeration.py.ftl:56-73 `from_reader_packed` -/
def fromReaderPacked (c : DeltaContext) : M Reader ((e.Member × Bool) × DeltaContext) := do
  let (v, c) ← c.read e.underlying.traits
  let m ← M.lift (e.call v)
  pure (m, c)

variable {e}

/-- Enumeration.py.ftl:103-106 `__hash__` -/
def hash (m : e.Member) : Int := hashIntegral e.underlying.wide HASH_SEED (some (value m))

/-- Enumeration.py.ftl:138-153 `bitsizeof` -/
def bitsizeof (m : e.Member) (p : Nat) : Except Err Nat := e.underlying.traits.bitsizeof p (value m)

/-- Enumeration.py.ftl:207-215 `get_removed_items` -/
def removedItems : List e.Member := (List.finRange e.items.length).filter fun m => e.items[m].removed

/-- Enumeration.py.ftl:216-236 `removed_items_check`: `self == X` or `self in (X, Y, ...)` -/
def removedItemsCheck (m : e.Member) : Except Err Unit :=
  if m ∈ removedItems (e := e) then .error .removedItem else .ok ()

/-- Enumeration.py.ftl:237-248 `write` -/
def write (m : e.Member) : M Writer Unit := do
  M.lift (removedItemsCheck m)
  e.underlying.traits.write (value m)

/-- Enumeration.py.ftl:251-264 `write_packed` -/
def writePacked (m : e.Member) (c : DeltaContext) : M Writer DeltaContext := do
  M.lift (removedItemsCheck m)
  c.write e.underlying.traits (value m)

/-- The view of the class used by the model of compounds. -/
def toDef (e : EnumClass) : EnumDef where
  underlying := e.underlying
  items := e.items.map (·.value)
  removed := (e.items.filter (·.removed)).map (·.value)

end EnumClass
end Zserio
