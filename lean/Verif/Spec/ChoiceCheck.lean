import Verif.Model.ChoiceCheck
/-
What the cases of a choice mean.
-/
namespace Zserio.ChoiceCheck

/-- the value is one of those of the case -/
def CaseDecl.Lists (k : CaseDecl) (s : Int) : Prop := ∃ e ∈ k.exprs, e.value = s

/-- The case that lists the value of the selector is taken, otherwise the default; without a default there is no match. -/
def Prescribed (d : ChoiceDecl) (s : Int) (a : Action) : Prop :=
  (∃ k ∈ d.cases, k.Lists s ∧ a = .member k.field) ∨
  ((∀ k ∈ d.cases, ¬ k.Lists s) ∧ a = match d.default with
    | some f => .member f
    | none => .noMatch)

/-- no value is listed twice -/
def Distinct (d : ChoiceDecl) : Prop := ((d.cases.flatMap (·.exprs)).map (·.value)).Nodup

/-- The compiler knows which expressions have equal values: two expressions have the same value if and only if their integers
are the same, or both have no known integer and the same text.  Expressions with the same text have the same value. -/
def Faithful (d : ChoiceDecl) : Prop :=
  ∀ e ∈ d.cases.flatMap (·.exprs), ∀ e' ∈ d.cases.flatMap (·.exprs),
    (e.value = e'.value ↔ e.integer = e'.integer ∧ (e.integer = none → e.text = e'.text)) ∧ (e.text = e'.text → e.value = e'.value)

/-- the possible values of the selector -/
def Possible (d : ChoiceDecl) (s : Int) : Prop := d.selector = .boolean → s = 0 ∨ s = 1

/-- a choice as it can be written: a case has a value, which is a possible one -/
def Written (d : ChoiceDecl) : Prop := ∀ k ∈ d.cases, k.exprs ≠ [] ∧ ∀ e ∈ k.exprs, Possible d e.value

end Zserio.ChoiceCheck
