import Verif.Model.Enumeration
/-
Specification vocabulary for enumerations.
-/
namespace Zserio

/-- What the compiler guarantees of an enumeration (EnumType.java:120-160): items have different names and different values,
and the values belong to the underlying type. -/
structure EnumClass.WellFormed (e : EnumClass) : Prop where
  names : (e.items.map (·.name)).Nodup
  values : (e.items.map (·.value)).Nodup
  inRange : ∀ item ∈ e.items, e.underlying.InRange item.value

end Zserio
