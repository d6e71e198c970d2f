import Verif.Model.ConstEval
/-
Model of what the compiler concludes about the values of integer expressions: ExpressionIntegerValue.java and its use in
Expression.java, DynamicBitFieldInstantiation.java.

Simplifications:
* Names are resolved and the expression has a type (`Expr.type`), so errors of types are not modelled.
* The flag `needsBigInteger`, which only matters for the generated Java code, is left out.
* Integers of Java's `BigInteger` are not limited in size.
-/
namespace Zserio.ExprBounds
open Zserio.Expression
open Zserio.ConstEval (CompileError intValue shiftLeft shiftRight getNumBits arith stripStringLiteral)

/-- ExpressionIntegerValue.java:531-534: the value if it is known, and the bounds if these are known -/
structure Known where
  value : Option Int := none
  lower : Option Int := none
  upper : Option Int := none
  deriving DecidableEq, Repr

namespace Known

/-- ExpressionIntegerValue.java:28-31: a known value -/
def exact (v : Int) : Known := ⟨some v, some v, some v⟩

/-- ExpressionIntegerValue.java:50-53, 472-478: known bounds -/
def range (l u : Int) : Known := ⟨none, some l, some u⟩

/-- ExpressionIntegerValue.java:130-139 `negate` -/
def negate (a : Known) : Known :=
  match a.value with
  | some v => exact (-v)
  | none =>
    match a.lower, a.upper with
    | some l, some u => range (-l) (-u)
    | _, _ => {}

/-- ExpressionIntegerValue.java:371-377 `not` -/
def not (a : Known) : Known :=
  match a.value with
  | some v => exact (-v - 1)
  | none => {}

/-- ExpressionIntegerValue.java:384-393 `numbits` -/
def numbits (a : Known) : Known :=
  match a.value with
  | some v => exact (getNumBits v)
  | none =>
    match a.lower, a.upper with
    | some l, some u => range (getNumBits l) (getNumBits u)
    | _, _ => {}

/-- ExpressionIntegerValue.java:402-414 `conditional` -/
def conditional (a b : Known) : Known :=
  match a.value, b.value with
  | some v, some w => range (min v w) (max v w)
  | _, _ =>
    match a.lower, a.upper, b.lower, b.upper with
    | some l1, some u1, some l2, some u2 => range (min l1 l2) (max u1 u2)
    | _, _, _, _ => {}

/-- ExpressionIntegerValue.java:501-529 `MinMaxValue` after `add` of the numbers -/
def minMax (x : Int) (xs : List Int) : Known := range (xs.foldl min x) (xs.foldl max x)

/-- ExpressionIntegerValue.java:196-216 `multiply`, the bounds -/
def multiplyBounds (l1 u1 l2 u2 : Int) : Known := minMax (l1 * l2) [l1 * u2, u1 * l2, u1 * u2]

/-- ExpressionIntegerValue.java:232-263 `divide`, the bounds -/
def divideBounds (l1 u1 l2 u2 : Int) : Known :=
  if l2 ≠ 0 ∨ u2 ≠ 0 then
    let lo := if l2 = 0 then 1 else l2
    let hi := if u2 = 0 then -1 else u2
    minMax (l1.tdiv lo) ([l1.tdiv hi, u1.tdiv lo, u1.tdiv hi] ++ if lo ≤ 0 ∧ hi ≥ 0 then [l1, u1, -l1, -u1] else [])
  else {}

/-- The bounds of a binary operator when one of the values is not known: ExpressionIntegerValue.java:155-163 `add`, 176-184
`subtract`, 196-216 `multiply`, 226-268 `divide`, 277-298 `remainder`, 307-318 `shiftLeft`, 327-338 `shiftRight`, 347-364 `and`,
`or`, `xor` -/
def bounds (op : BinOp) (a b : Known) : Known :=
  match op with
  | .mod =>
    match a.lower, b.lower with
    | some l1, some l2 => if l1 ≥ 0 ∧ l2 > 0 then ⟨none, some 0, b.upper.map (· - 1)⟩ else {}
    | _, _ => {}
  | .band =>
    match b.lower with
    | some l2 => if l2 ≥ 0 then ⟨none, some 0, b.upper⟩ else {}
    | none => {}
  | _ =>
    match a.lower, a.upper, b.lower, b.upper with
    | some l1, some u1, some l2, some u2 =>
      match op with
      | .add => range (l1 + l2) (u1 + u2)
      | .sub => range (l1 - u2) (u1 - l2)
      | .mul => multiplyBounds l1 u1 l2 u2
      | .div => divideBounds l1 u1 l2 u2
      | .shl => range (shiftLeft l1 (intValue l2)) (shiftLeft u1 (intValue u2))
      | .shr => range (shiftRight l1 (intValue l2)) (shiftRight u1 (intValue u2))
      | _ => {}
    | _, _, _, _ => {}

/-- a binary operator: the value if both values are known, the bounds otherwise -/
def binary (op : BinOp) (a b : Known) : Except CompileError Known := do
  let v ← arith op a.value b.value
  match v with
  | some v => .ok (exact v)
  | none => .ok (bounds op a b)

/-- the bounds of `varsize`, VarIntegerType.java:143-146 -/
def varsize : Known := range 0 (2 ^ 31 - 1)

end Known

/-- What the compiler knows of an expression or of a name: Expression.java `expressionIntegerValue`, `expressionStringValue`; for
arrays the value of the length expression and what is known of the elements (`symbolInstantiation`); for functions what is known of
the result expression. -/
structure Info where
  known : Known := {}
  text : Option PyStr := none
  length : Option Int := none
  element : Known := {}
  result : Known := {}
  resultText : Option PyStr := none
  deriving DecidableEq, Repr

/-- What is known of names: Expression.java:1672-1870 `evaluateIdentifierScopeSymbol`, `evaluateConstant`, `evaluateExpressionType`:
for fields and parameters the bounds of the type, for constants the value, for items the number -/
structure Names where
  symbol : Nat → Info
  member : Nat → Nat → Info

/-- Expression.java:1251-1297 `evaluateLengthOfOperator` -/
def lengthOf (t : Option Ty) (i : Info) : Except CompileError Known :=
  match t with
  | some (.array _) =>
    match i.length with
    | some v => .ok (.exact v)
    | none => .ok .varsize
  | some .str =>
    match i.text with
    | some s =>
      match utf8Encode s with
      | .ok bs => .ok (.exact bs.length)
      | .error _ => .error .type
    | none => .ok .varsize
  | _ => .ok .varsize

/-- Expression.java:1372-1447 `evaluateArithmeticExpression`, 1449-1503 `evaluateBitExpression`: integers and bitmasks are computed,
texts are concatenated, which must be known -/
def binaryOf (op : BinOp) (ta tb : Option Ty) (a b : Info) : Except CompileError Info :=
  match ta, tb with
  | some .int, some .int | some (.bitmask _), some (.bitmask _) => do
    match op with
    | .mul | .div | .mod | .add | .sub | .shl | .shr | .band | .bxor | .bor =>
      let k ← Known.binary op a.known b.known
      .ok { known := k }
    | _ => .ok {}
  | some .str, some .str =>
    match a.text, b.text with
    | some s, some t => if op = .add then .ok { text := some (s ++ t) } else .ok {}
    | _, _ => if op = .add then .error .type else .ok {}
  | _, _ => .ok {}

/-- Expression.java:1326-1370 `evaluateUnaryPlusMinus`, `evaluateBitNotExpression` -/
def unaryOf (op : UnOp) (t : Option Ty) (i : Info) : Info :=
  match op, t with
  | .plus, some .int => { known := i.known }
  | .minus, some .int => { known := i.known.negate }
  | .tilde, _ => { known := i.known.not }
  | _, _ => {}

/-- What the evaluation finds out, Expression.java:543-711 -/
def info (Γ : Signature) (N : Names) : Expression.Expr → Except CompileError Info
  | .intLit b digits => .ok { known := .exact (b.value digits : Int) }
  | .floatLit _ => .ok {}
  | .strLit text => .ok { text := some (stripStringLiteral text) }
  | .boolLit _ => .ok {}
  | .index => .ok {}
  | .symbol id => .ok (N.symbol id)
  | .paren e => info Γ N e
  | .call e => do
    let i ← info Γ N e
    .ok { known := i.result, text := i.resultText }
  | .element e j => do
    let i ← info Γ N e
    let _ ← info Γ N j
    .ok { known := i.element }
  | .member e id => do
    let _ ← info Γ N e
    match e.type Γ with
    | some (.compound c) => .ok (N.member c id)
    | _ => .ok {}
  | .isset a b => do
    let _ ← info Γ N a
    let _ ← info Γ N b
    .ok {}
  | .lengthof e => do
    let i ← info Γ N e
    let k ← lengthOf (e.type Γ) i
    .ok { known := k }
  | .valueof e => do
    let i ← info Γ N e
    .ok { known := i.known }
  | .numbits e => do
    let i ← info Γ N e
    .ok { known := i.known.numbits }
  | .unary op e => do
    let i ← info Γ N e
    .ok (unaryOf op (e.type Γ) i)
  | .binary op a b => do
    let i ← info Γ N a
    let j ← info Γ N b
    binaryOf op (a.type Γ) (b.type Γ) i j
  | .cond c a b => do
    let _ ← info Γ N c
    let i ← info Γ N a
    let j ← info Γ N b
    if a.type Γ = some .int then .ok { known := i.known.conditional j.known } else .ok {}

/-- DynamicBitFieldInstantiation.java:118-147: the biggest number of bits -/
def maxBitSize (length : Known) : Except CompileError Int :=
  match length.value with
  | some v => if intValue v < 1 ∨ intValue v > 64 then .error .range else .ok (intValue v)
  | none =>
    match length.upper with
    | some u => if u > 64 then .ok 64 else .ok (intValue u)
    | none => .ok 64

/-- DynamicBitFieldInstantiation.java:107-167 `evaluate`: what is known of a bit field whose number of bits is an expression -/
def dynamicKnown (signed : Bool) (length : Known) : Except CompileError Known := do
  let n ← maxBitSize length
  if signed then .ok (.range (-(shiftLeft 1 (n - 1))) (shiftLeft 1 (n - 1) - 1))
  else .ok (.range 0 (shiftLeft 1 n - 1))

end Zserio.ExprBounds
