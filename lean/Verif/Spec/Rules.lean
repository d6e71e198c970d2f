import Verif.Model.Rules
/-
What identifiers of rules are, and when they are the same.
-/
namespace Zserio.Rules
open Json

/-- a small or capital letter without accents -/
def Letter (c : Nat) : Prop := (97 ≤ c ∧ c ≤ 122) ∨ (65 ≤ c ∧ c ≤ 90)

/-- a letter, and then letters, digits and the characters `_`, `-`, `:`, `.` -/
def IsRuleId (s : PyStr) : Prop :=
  (∃ c, s.head? = some c ∧ Letter c) ∧
  ∀ c ∈ s, Letter c ∨ (48 ≤ c ∧ c ≤ 57) ∨ c ∈ [95, 45, 58, 46]

/-- one is the small and the other the capital letter, or both are the same character -/
def SameLetter (a b : Nat) : Prop := a = b ∨ (97 ≤ a ∧ a ≤ 122 ∧ b + 32 = a) ∨ (97 ≤ b ∧ b ≤ 122 ∧ a + 32 = b)

/-- the texts differ at most in the use of capital letters -/
def SameId (s t : PyStr) : Prop := List.Forall₂ SameLetter s t

/-- no two rules have the same identifier -/
def Unique (ids : List PyStr) : Prop := ids.Pairwise fun s t => ¬ SameId s t

/-- all identifiers of the rules of a package are constants, which have the right form -/
def Package.HasIds (p : Package) (ids : List PyStr) : Prop := p.groups.flatten = ids.map some ∧ ∀ s ∈ ids, IsRuleId s

end Zserio.Rules
