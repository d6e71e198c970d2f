import Verif.Model.FieldCheck
import Verif.Spec.TypeCheck
import Verif.Spec.ExprBounds
import Verif.Spec.ConstEval
/-
What users rely on in a field which the compiler accepts.  The types, values and rules of expressions are in Spec/Expression.lean,
Spec/TypeCheck.lean (`Strict`, `Complete`, `Faults`) and Spec/ExprBounds.lean (`Safe`, `Sized`, `PlainTexts`).
-/
namespace Zserio.FieldCheck

open Zserio.Expression Zserio.TypeCheck
open Zserio.ExprBounds (Names Safe Sized PlainTexts)

variable {O : Type}

/-- The expression keeps to the rules of the guide which the compiler does not check, and its evaluation does not fail because of the
values it meets. -/
structure Ordinary (D : Decls) (W : World O) (e : Expression.Expr) : Prop where
  strict : Strict D.signature e
  noFault : ¬ Faults W .floor e

/-- What the compiler concludes about the number which the expression yields can be relied on: operators are used as property C86 says,
no text has escape sequences, no length is bigger than what the format can store, and only natural numbers are divided. -/
structure Calculable (D : Decls) (N : Names) (W : World O) (e : Expression.Expr) : Prop where
  safe : Safe D.signature N e
  sized : Sized W e
  plainTexts : PlainTexts W e
  natural : e.NaturalDivisions W

/-- The expression is an integer which is computed from integer literals and names with a known number (constants and items), without
a choice `? :`. -/
def Computed (N : Names) : Expression.Expr → Prop
  | .intLit _ _ => True
  | .symbol id => (N.symbol id).known.value.isSome
  | .paren e | .valueof e | .numbits e => Computed N e
  | .unary op e => op ≠ .bang ∧ Computed N e
  | .binary op a b => op ∈ [BinOp.mul, .div, .mod, .add, .sub, .shl, .shr, .band, .bxor, .bor] ∧ Computed N a ∧ Computed N b
  | _ => False

/-- `v` can be stored in a variable of the type: a value of the type, or an integer for a floating point type -/
def Fits (T : O → Ty → Prop) (v : Value O) (p : Plain) : Prop := v.HasType T p.ty ∨ (p = .float ∧ v.HasType T .int)

/-- the same for types of expressions -/
def TypeFits (t : Ty) (p : Plain) : Prop := t = p.ty ∨ (p = .float ∧ t = .int)

/-- `v` is a value which a field of the type can hold and which can be written; a bit field has the number of bits which its expression
yields. -/
def FieldType.Holds (T : O → Ty → Prop) (W : World O) : FieldType → Value O → Prop
  | .int k, .int x => k.InRange x
  | .bits signed l, .int x => ∃ n : Nat, l.eval W .floor = some (.int n) ∧
      (if signed then IntKind.signedBitField n else IntKind.bitField n).InRange x
  | .float, .float _ => True
  | .float, .int _ => True
  | .bool, .bool _ => True
  | .str, .str _ => True
  | .bytes, .bytes _ => True
  | .enum c, .enum c' _ => c = c'
  | .bitmask c, .bitmask c' x => c = c' ∧ W.inMask c x
  | .compound c _, .other o => T o (.compound c)
  | _, _ => False

/-- Two objects of one schema: constants and items have the same values in both, fields, parameters and functions may differ. -/
structure SameConstants (D : Decls) (W W' : World O) : Prop where
  symbol : ∀ id d, D.symbol id = some d → d.isMember = false → W.symbol id = W'.symbol id
  equal : W.equal = W'.equal
  width : W.width = W'.width
  floatText : W.floatText = W'.floatText
  stringText : W.stringText = W'.stringText
  floatMinus : W.floatMinus = W'.floatMinus
  floatArith : W.floatArith = W'.floatArith
  floatLess : W.floatLess = W'.floatLess

/-- the names of fields, parameters and functions in the expression, members of compounds and `@index` included -/
def Depends (D : Decls) : Expression.Expr → Prop
  | .index => True
  | .symbol id => ∃ d, D.symbol id = some d ∧ d.isMember
  | .member _ _ => True
  | .paren e | .call e | .lengthof e | .valueof e | .numbits e | .unary _ e => Depends D e
  | .element a b | .isset a b | .binary _ a b => Depends D a ∨ Depends D b
  | .cond c a b => Depends D c ∨ Depends D a ∨ Depends D b
  | _ => False

/-- the expressions of a field which are not arguments -/
def Field.others (f : Field) : List Expression.Expr :=
  f.type.length.toList ++ f.length.toList ++ f.alignment.toList ++ f.initializer.toList ++ f.clause.toList ++ f.constraint.toList

/-- the expressions of a field -/
def Field.expressions (f : Field) : List Expression.Expr := f.type.arguments ++ f.others

/-- `@index` occurs in the expression -/
def UsesIndex : Expression.Expr → Prop
  | .index => True
  | .paren e | .call e | .member e _ | .lengthof e | .valueof e | .numbits e | .unary _ e => UsesIndex e
  | .element a b | .isset a b | .binary _ a b => UsesIndex a ∨ UsesIndex b
  | .cond c a b => UsesIndex c ∨ UsesIndex a ∨ UsesIndex b
  | _ => False

/-- What the compiler knows of the value of an expression. -/
def Knows (D : Decls) (N : Names) (e : Expression.Expr) (k : ExprBounds.Known) : Prop :=
  ∃ i, ExprBounds.info D.signature N e = .ok i ∧ i.known = k

/-- The rules for the expressions of a field. -/
structure Field.Rules (D : Decls) (N : Names) (params : Nat → List Plain) (f : Field) : Prop where
  /-- `@index` stands only in the arguments of the elements of an array -/
  index : (∀ e ∈ f.type.arguments, UsesIndex e → f.isArray) ∧ ∀ e ∈ f.others, ¬ UsesIndex e
  /-- as many arguments as parameters -/
  count : ∀ c args, f.type = .compound c args → args.length = (params c).length
  /-- each argument has the type of its parameter -/
  arguments : ∀ c args, f.type = .compound c args → ∀ (i : Nat) e p, args[i]? = some e → (params c)[i]? = some p →
    ∃ t, e.type D.signature = some t ∧ TypeFits t p
  /-- the number of bits is an integer, from 1 to 64 if it is known (its last 32 bits are) -/
  bits : ∀ signed l, f.type = .bits signed l → l.type D.signature = some .int ∧
    ∃ k b, Knows D N l k ∧ ExprBounds.dynamicKnown signed k = .ok b
  /-- the length of an array is an integer -/
  length : ∀ e, f.length = some e → e.type D.signature = some .int
  /-- the alignment is a known number from 0 to 2147483647 -/
  alignment : ∀ e, f.alignment = some e → ∃ v k, Knows D N e k ∧ k.value = some v ∧ 0 ≤ v ∧ v ≤ 2 ^ 31 - 1
  /-- the default value has the type of the field, which is not an array, and does not depend on the object -/
  initializer : ∀ e, f.initializer = some e → f.isArray = false ∧ ¬ Depends D e ∧
    ∃ t, e.type D.signature = some t ∧ TypeFits t f.type.plain
  /-- the default value of a field with an integer type is within the bounds of the type if it is known -/
  range : ∀ e k v, f.initializer = some e → Knows D N e k → k.value = some v →
    (∀ kind, f.type = .int kind → ConstEval.lowerBound kind ≤ v ∧ v ≤ ConstEval.upperBound kind) ∧
    (∀ signed l kl b lo hi, f.type = .bits signed l → Knows D N l kl → ExprBounds.dynamicKnown signed kl = .ok b →
      b.lower = some lo → b.upper = some hi → lo ≤ v ∧ v ≤ hi)
  /-- the condition is a boolean expression -/
  clause : ∀ e, f.clause = some e → e.type D.signature = some .bool
  /-- the constraint is a boolean expression -/
  constraint : ∀ e, f.constraint = some e → e.type D.signature = some .bool
  /-- each expression has a type and can be evaluated -/
  expressions : ∀ e ∈ f.expressions, (∃ t, e.type D.signature = some t) ∧ ∃ k, Knows D N e k

end Zserio.FieldCheck
