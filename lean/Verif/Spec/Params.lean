import Verif.Model.Params
/-
Notions used in the statements on parameters which are objects.
-/
namespace Zserio.Params

/-- the expression is a reference: its result is something which exists (not the result of an operator of bitmasks) -/
def Arg.Refers : Arg → Prop
  | .mask _ _ _ => False
  | .cond _ x y => x.Refers ∧ y.Refers
  | .call _ body => body.Refers
  | _ => True

/-- the result of the expression is always the result of an operator of bitmasks -/
def Arg.Computes : Arg → Prop
  | .mask _ _ _ => True
  | .cond _ x y => x.Computes ∧ y.Computes
  | .call _ body => body.Computes
  | _ => False

/-- not a NaN -/
def Atom.NotNaN (a : Atom) : Prop := ∀ x, a = .float x → x.toNat % 2 ^ 63 ≤ 0x7FF0000000000000

/-- values of built-in types are equal: the same and no NaN, or zeros of either sign -/
def Atom.Equal (a b : Atom) : Prop :=
  (a = b ∧ a.NotNaN) ∨ ∃ x y : PyFloat, a = .float x ∧ b = .float y ∧ x.toNat % 2 ^ 63 = 0 ∧ y.toNat % 2 ^ 63 = 0

/-- the parameter is the result: the same value, or for types of objects the same object -/
def Same : Kind → Value → Result → Prop
  | .builtin, q, r => ∃ a b, q = .atom a ∧ r = .value (.atom b) ∧ a.Equal b
  | .object, q, r => r = .value q

/-- the result is a bitmask with the given bits: one which exists, or a new one -/
inductive HasBits (h : Heap) : Result → Int → Prop
  | old (a : Nat) (m : Int) : h[a]? = some (.item m) → HasBits h (.value (.ref a)) m
  | new (m : Int) : HasBits h (.fresh m) m

/-- the arguments of the field, if it has any -/
def Field.args (f : Field) : List (Kind × Arg) :=
  match f.content with
  | .plain _ => []
  | .compound args _ => args

end Zserio.Params
