import Verif.Model.ExprBounds
/-
What it means that the conclusions of the compiler about an expression hold for its value.
-/
namespace Zserio.ExprBounds
open Zserio.Expression
open Zserio.ConstEval (stripStringLiteral)

/-- The number has the known value and is within the known bounds. -/
def Known.Has (k : Known) (x : Int) : Prop :=
  (∀ v, k.value = some v → x = v) ∧ (∀ l, k.lower = some l → l ≤ x) ∧ (∀ u, k.upper = some u → x ≤ u)

/-- the number of an integer, an item of an enumeration or a bitmask -/
def number {O : Type} : Value O → Option Int
  | .int x | .enum _ x | .bitmask _ x => some x
  | _ => none

/-- What is known holds for the value: its number, its text; for an array its length and the numbers of its elements; for a function
the number or text of its result. -/
structure Info.Describes {O : Type} (W : World O) (i : Info) (v : Value O) : Prop where
  known : ∀ x, number v = some x → i.known.Has x
  text : ∀ s t, v = .str s → i.text = some t → s = t
  length : ∀ o n k, v = .other o → W.length o = some n → i.length = some k → (n : Int) = k
  element : ∀ o j w x, v = .other o → W.element o j = some w → number w = some x → i.element.Has x
  result : ∀ o w x, v = .other o → W.result o = some w → number w = some x → i.result.Has x
  resultText : ∀ o w s t, v = .other o → W.result o = some w → w = .str s → i.resultText = some t → s = t

/-- What is known of the names holds for their values; `T` tells which objects are of a compound type. -/
structure Names.Describe {O : Type} (N : Names) (W : World O) (T : O → Ty → Prop) : Prop where
  symbol : ∀ id v, W.symbol id = some v → (N.symbol id).Describes W v
  member : ∀ o c m v, T o (.compound c) → W.member o m = some v → (N.member c m).Describes W v

/-- No length which the expression takes is bigger than what the format can store, 2³¹ - 1. -/
def Sized {O : Type} (W : World O) : Expression.Expr → Prop
  | .lengthof e => Sized W e ∧ ∀ n, (Expression.Expr.lengthof e).eval W .java = some (.int n) → n ≤ 2 ^ 31 - 1
  | .paren e | .valueof e | .numbits e | .call e | .member e _ | .unary _ e => Sized W e
  | .element a b | .isset a b | .binary _ a b => Sized W a ∧ Sized W b
  | .cond c a b => Sized W c ∧ Sized W a ∧ Sized W b
  | _ => True

/-- Texts of literals are what stands between the quotation marks: they contain no escape sequences. -/
def PlainTexts {O : Type} (W : World O) : Expression.Expr → Prop
  | .strLit text => W.stringText text = stripStringLiteral text
  | .paren e | .lengthof e | .valueof e | .numbits e | .call e | .member e _ | .unary _ e => PlainTexts W e
  | .element a b | .isset a b | .binary _ a b => PlainTexts W a ∧ PlainTexts W b
  | .cond c a b => PlainTexts W c ∧ PlainTexts W a ∧ PlainTexts W b
  | _ => True

/-- The number of bits to shift by has a known value, which is small enough. -/
def Known.Amount (k : Known) : Prop := ∃ n : Nat, k = .exact n ∧ n < 2 ^ 31

/-- The number to shift and the number of bits to shift by are never negative, and the latter is small enough. -/
def Known.NaturalShift (a b : Known) : Prop :=
  ∃ l1 l2 u2, a.lower = some l1 ∧ b.lower = some l2 ∧ b.upper = some u2 ∧ 0 ≤ l1 ∧ 0 ≤ l2 ∧ u2 < 2 ^ 31

/-- Operators are applied only where the conclusions of the compiler are right: `-` to operands with a known value (or without known
bounds), `>>` with a known number of bits, `<<` with a known number of bits or without negative numbers, `~` not to a known value of a
bitmask, `numbits` to numbers which are known to be positive. -/
def Safe (Γ : Signature) (N : Names) : Expression.Expr → Prop
  | .unary op e => Safe Γ N e ∧ ∀ i, info Γ N e = .ok i →
      (op = .minus → e.type Γ = some .int → i.known.value.isSome ∨ i.known.lower = none ∨ i.known.upper = none) ∧
      (op = .tilde → e.type Γ ≠ some .int → i.known.value = none)
  | .numbits e => Safe Γ N e ∧ ∀ i, info Γ N e = .ok i → ∀ x, i.known.Has x → 1 ≤ x
  | .binary op a b => Safe Γ N a ∧ Safe Γ N b ∧ ∀ i j, info Γ N a = .ok i → info Γ N b = .ok j →
      (op = .shl → j.known.Amount ∨ i.known.NaturalShift j.known) ∧ (op = .shr → j.known.Amount)
  | .paren e | .lengthof e | .valueof e | .call e | .member e _ => Safe Γ N e
  | .element a b | .isset a b => Safe Γ N a ∧ Safe Γ N b
  | .cond c a b => Safe Γ N c ∧ Safe Γ N a ∧ Safe Γ N b
  | _ => True

end Zserio.ExprBounds
