import Verif.Model.Warnings
/-
What the warnings should say.
-/
namespace Zserio.Warnings

/-- a case of the choice lists the item -/
def EnumChoice.Lists (c : EnumChoice) (i : Item) : Prop := ∃ k ∈ c.cases, ∃ e ∈ k.1, e.value = i

/-- the expression is written without the conditional operator -/
def EnumExpr.Plain : EnumExpr → Prop
  | .item _ => True
  | .const _ => True
  | .cond _ _ _ => False

/-- the expression is an item -/
def EnumExpr.IsItem (e : EnumExpr) : Prop := ∃ i, e = .item i

/-- an enumeration: its items are different, belong to it and have different values -/
def IsEnum (enum : Nat) (items : List Item) : Prop := (items.map (·.value)).Nodup ∧ ∀ i ∈ items, i.enum = enum

/-- the name is used by a definition, as a type or in an expression -/
def Needed (ds : List Definition) (n : Nat) : Prop := ∃ d ∈ ds, n ∈ d.typeRefs ∨ n ∈ d.exprRefs

/-- all names in the definitions are defined -/
def Closed (ds : List Definition) : Prop := ∀ d ∈ ds, ∀ n, n ∈ d.typeRefs ∨ n ∈ d.exprRefs → ∃ d' ∈ ds, d'.name = n

end Zserio.Warnings
