import Verif.Model.ServiceCheck
import Verif.Spec.Names
/-
What the language guide says about services and Pub/Sub types.
-/
namespace Zserio.ServiceCheck

/-- Request and Response Types, Message Types: "The types must be non-parameterized compound types or `bytes`" (and tables of databases are no types of
objects which can be written to a stream) -/
def Transportable (t : BaseType) : Prop := t = .bytes ∨ t = .compound 0

/-- names which can be used together: they are different, even if only the case of the first letter counts, and when they are written in snake case -/
def Distinct (names : List PyStr) : Prop := (names.map Names.normalizeFirst).Nodup ∧ (names.map Names.lowerSnake).Nodup

end Zserio.ServiceCheck
