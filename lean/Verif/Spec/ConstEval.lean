import Verif.Model.ConstEval
import Verif.Spec.Packed
import Mathlib.Logic.Relation
/-
What the constants, enumerations and bitmasks of a schema mean (doc/ZserioLanguageOverview.md, sections Constants, Enumeration Types,
Bitmask Types and Expressions), independently of the order in which the compiler comes to them.
-/
namespace Zserio.ConstEval
open Zserio.Expression

/-- the items of an enumeration, the values of a bitmask -/
def Decl.items : Decl → List ItemDecl
  | .const _ _ _ => []
  | .enum _ items => items
  | .bitmask _ items => items

/-- the expressions of a declaration -/
def Decl.exprs : Decl → List Expression.Expr
  | .const _ _ e => [e]
  | .enum _ items => items.filterMap (·.expr)
  | .bitmask _ items => items.filterMap (·.expr)

/-- the symbols of an expression -/
def symbols : Expression.Expr → List Nat
  | .symbol id => [id]
  | .paren e | .call e | .member e _ | .lengthof e | .valueof e | .numbits e | .unary _ e => symbols e
  | .element a b | .isset a b | .binary _ a b => symbols a ++ symbols b
  | .cond c a b => symbols c ++ symbols a ++ symbols b
  | _ => []

/-- an expression of the first declaration names the second one or one of its items -/
def Uses (S : Schema) (d d' : Nat) : Prop :=
  ∃ decl e id ref, S.decls[d]? = some decl ∧ e ∈ decl.exprs ∧ id ∈ symbols e ∧ S.symbol id = some ref ∧ ref.decl = d'

/-- the integer types which can be declared: `bit:1` ... `bit:64`, `int:1` ... `int:64` and the variable-length integers -/
def ValidKind : IntKind → Prop
  | .bitField n => 1 ≤ n ∧ n ≤ 64
  | .signedBitField n => 1 ≤ n ∧ n ≤ 64
  | .var _ => True

/-- The values of the constants and items of a schema. -/
structure Meaning (O : Type) where
  const : Nat → Option (Value O)
  item : Nat → Nat → Option Int

/-- the value of a name -/
def Meaning.symbol {O : Type} (m : Meaning O) (S : Schema) (id : Nat) : Option (Value O) :=
  match S.symbol id with
  | none => none
  | some (.const d) => m.const d
  | some (.item d i) =>
    match S.decls[d]? with
    | some (.enum _ _) => (m.item d i).map (.enum d)
    | some (.bitmask _ _) => (m.item d i).map (.bitmask d)
    | _ => none

/-- the world in which the expressions of the schema are evaluated: `W` tells what literals mean -/
def Meaning.world {O : Type} (m : Meaning O) (S : Schema) (W : World O) : World O := { W with symbol := m.symbol S }

/-- an integer -/
def asInt {O : Type} : Value O → Option Int
  | .int x => some x
  | _ => none

/-- the first unused bit: the smallest power of two greater than the value -/
def nextBit (x : Int) : Int := 2 ^ Nat.size x.toNat

/-- The values are those which the language guide prescribes.  (Constants of floating point types, to which integers are converted, are
not described.) -/
structure Meaning.Describes {O : Type} (m : Meaning O) (S : Schema) (W : World O) : Prop where
  /-- a constant has the value of its expression -/
  const : ∀ (d : Nat) type kind e, S.decls[d]? = some (.const type kind e) → type ≠ .float →
    m.const d = e.eval (m.world S W) .java
  /-- an item with an initializer has the value of the initializer -/
  explicit : ∀ (d : Nat) decl (i : Nat) it e, S.decls[d]? = some decl → decl.items[i]? = some it → it.expr = some e →
    m.item d i = (e.eval (m.world S W) .java).bind asInt
  /-- "the value 0 if it is the first item" -/
  enumFirst : ∀ (d : Nat) kind items it, S.decls[d]? = some (.enum kind items) → items[0]? = some it → it.expr = none →
    m.item d 0 = some 0
  /-- "the value of its predecessor incremented by 1" -/
  enumNext : ∀ (d : Nat) kind items (i : Nat) it, S.decls[d]? = some (.enum kind items) → items[i + 1]? = some it → it.expr = none →
    m.item d (i + 1) = (m.item d i).map (· + 1)
  /-- "If the unspecified value is the first one, it will be assigned to 1." -/
  bitmaskFirst : ∀ (d : Nat) kind items it, S.decls[d]? = some (.bitmask kind items) → items[0]? = some it → it.expr = none →
    m.item d 0 = some 1
  /-- "the value calculated from its predecessor by finding the first unused bit" -/
  bitmaskNext : ∀ (d : Nat) kind items (i : Nat) it, S.decls[d]? = some (.bitmask kind items) → items[i + 1]? = some it →
    it.expr = none → m.item d (i + 1) = (m.item d i).map nextBit

/-- The expression contains none of the operations which the compiler does not compute as the language guide says: `numbits` of a number
which is not positive, `~` of a bitmask, `&`, `|` or `^` of values of different bitmasks, shifts by a negative number of bits or by
2147483648 or more bits, and literals which mean another text than is written between the quotation marks (escape sequences). -/
def Regular {O : Type} (W : World O) : Expression.Expr → Prop
  | .strLit text => ∃ s, text = ch! '"' :: s ++ [ch! '"'] ∧ W.stringText text = s
  | .paren e | .call e | .member e _ | .lengthof e | .valueof e => Regular W e
  | .numbits e => Regular W e ∧ ∀ x, e.eval W .java = some (.int x) → 0 < x
  | .unary op e => Regular W e ∧ (op = .tilde → ∀ c x, e.eval W .java ≠ some (.bitmask c x))
  | .binary op a b => Regular W a ∧ Regular W b ∧
      (op = .shl ∨ op = .shr → ∀ y, b.eval W .java = some (.int y) → 0 ≤ y ∧ y < 2 ^ 31) ∧
      ∀ c x c' y, a.eval W .java = some (.bitmask c x) → b.eval W .java = some (.bitmask c' y) →
        c = c' ∧ W.inMask c x ∧ W.inMask c y
  | .element a b | .isset a b => Regular W a ∧ Regular W b
  | .cond c a b => Regular W c ∧ Regular W a ∧ Regular W b
  | _ => True

/-- all expressions of the schema are regular, and no value of a bitmask without initializer follows the value 0 -/
structure Meaning.Regular {O : Type} (m : Meaning O) (S : Schema) (W : World O) : Prop where
  exprs : ∀ (d : Nat) decl e, S.decls[d]? = some decl → e ∈ decl.exprs → ConstEval.Regular (m.world S W) e
  zero : ∀ (d : Nat) kind items (i : Nat) it, S.decls[d]? = some (.bitmask kind items) → items[i + 1]? = some it →
    it.expr = none → m.item d i ≠ some 0

end Zserio.ConstEval
