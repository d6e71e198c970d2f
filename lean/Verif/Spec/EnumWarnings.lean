import Verif.Model.EnumWarnings
/-
Specification vocabulary for the warnings of enumerations.
-/
namespace Zserio

/-- A call which gives an item fires one warning if the item is deprecated, and none otherwise; a call which fails fires
none. -/
def EnumClass.WarnsOnce {e : EnumClass} (r : Except Err e.Member × List e.Member) : Prop :=
  (∀ m, r.1 = .ok m → r.2 = if e.items[m].deprecated then [m] else []) ∧ (∀ x, r.1 = .error x → r.2 = [])

/-- The grammar (ZserioParser.g4:193-195 `enumItem`): no item is both deprecated and removed. -/
def EnumClass.Marked (e : EnumClass) : Prop := ∀ item ∈ e.items, ¬ (item.deprecated = true ∧ item.removed = true)

end Zserio
