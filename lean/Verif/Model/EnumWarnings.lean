import Verif.Model.Enumeration
/-
Model of the warnings which generated enumerations fire (enum.py:10-36, Enumeration.py.ftl): a computation which gives a
result, or an exception, and the list of the items for which `warnings.warn(DeprecationWarning(...))` was called.
-/
namespace Zserio
namespace EnumClass
variable (e : EnumClass)

/-- A computation with the warnings which it fires, in order. -/
abbrev Warns (α : Type) := Except Err α × List e.Member

variable {e}

/-- enum.py:18-19, 24-25, 34-35: `if member._is_deprecated: warnings.warn(...)` -/
def warned (m : e.Member) : Warns e e.Member := (.ok m, if isDeprecated m then [m] else [])

/-- enum.py:15-20 `__getattribute__` of the class for the name of an item: `Name.ITEM`.  Simplified: items of the names `name`
and `value`, which `enum.Enum` treats in a special way, are not modelled. -/
def getAttribute (m : e.Member) : Warns e e.Member := warned m

variable (e)

/-- enum.py:22-26 `__getitem__`: `Name['ITEM']`, an exception if there is no such item.  Simplified: the
exception is not told apart from that of `Name(value)`. -/
def getItem (itemName : PyStr) : Warns e e.Member :=
  match (List.finRange e.items.length).find? fun m => decide (e.items[m].name = itemName) with
  | some m => warned m
  | none => (.error .enumValue, [])

/-- enum.py:28-36 `__call__`: `Name(value)`, `ValueError` if there is no such value -/
def callWarns (v : Int) : Warns e e.Member :=
  match (List.finRange e.items.length).find? fun m => decide (value m = v) with
  | some m => warned m
  | none => (.error .enumValue, [])

/-- Enumeration.py.ftl:23-41 `from_name`: the attribute is accessed in the branch which is taken only -/
def fromNameWarns (itemName : PyStr) : List e.Member → Warns e e.Member
  | [] => (.error .enumValue, [])
  | m :: ms => if itemName = e.items[m].name then getAttribute m else fromNameWarns itemName ms

/-- Enumeration.py.ftl:43-53 `from_reader` and 56-73 `from_reader_packed`: `cls(value)` for the value which was read -/
def readWarns (read : Except Err Int) : Warns e e.Member :=
  match read with
  | .ok v => callWarns e v
  | .error x => (.error x, [])

variable {e}

/-- Enumeration.py.ftl:209-236 `removed_items_check` of `write` and `write_packed`: the attributes of all removed items are
accessed, then `self` is compared to them -/
def checkWarns (m : e.Member) : Warns e Unit :=
  (removedItemsCheck m, (removedItems (e := e)).flatMap fun r => (getAttribute r).2)

/-- typeinfo.py:457-520 `ItemInfo` -/
structure ItemInfo (e : EnumClass) where
  schemaName : PyStr
  pyItem : e.Member
  isDeprecated : Bool
  isRemoved : Bool

/-- Enumeration.py.ftl:76-100 `type_info`, the list `ENUM_ITEMS`: the attribute of each item is accessed.  Simplified: the
schema name of an item is its name in the schema, which `EnumItem.name` is too. -/
def typeInfoItems (e : EnumClass) : List e.Member → List (ItemInfo e) × List e.Member
  | [] => ([], [])
  | m :: ms =>
    let (infos, ws) := typeInfoItems e ms
    (⟨e.items[m].name, m, e.items[m].deprecated, e.items[m].removed⟩ :: infos, (getAttribute m).2 ++ ws)

/-- Enumeration.py.ftl:76-100 `type_info` -/
def typeInfo (e : EnumClass) : List (ItemInfo e) × List e.Member := typeInfoItems e (List.finRange e.items.length)

end EnumClass
end Zserio
