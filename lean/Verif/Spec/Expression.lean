import Verif.Model.JsonText
import Verif.Model.Schema
import Mathlib.Data.Int.Bitwise
import Mathlib.Data.Nat.Log
/-
The expressions of the schema language (doc/ZserioLanguageOverview.md, section Expressions): their syntax, types and values.

"The semantics of expression and the precedence rules for operators is the same as in Java, except where stated otherwise."
Integers are mathematical integers here: what happens when a value leaves the range of its type in Java or C++ is not considered.
-/
namespace Zserio.Expression

/-- ZserioParser.g4 `unaryExpression` -/
inductive UnOp where
  | plus
  | minus
  | tilde
  | bang
  deriving DecidableEq, Repr

/-- The binary operators with one operand on each side, ZserioParser.g4 `multiplicativeExpression` ... `logicalOrExpression` -/
inductive BinOp where
  | mul
  | div
  | mod
  | add
  | sub
  | shl
  | shr
  | lt
  | le
  | gt
  | ge
  | eq
  | ne
  | band
  | bxor
  | bor
  | land
  | lor
  deriving DecidableEq, Repr

/-- the notations of integer literals, ZserioLexer.g4:130-151 -/
inductive Base where
  | bin
  | oct
  | dec
  | hex
  deriving DecidableEq, Repr

/-- An expression as the parser of the compiler reads it.  Parentheses are kept.  A symbol is a resolved name: a field, a
parameter, a function, a constant, an item of an enumeration or a value of a bitmask, including the names of packages and types in
front of it.  `member` is the access to a member of a compound. -/
inductive Expr where
  | intLit (base : Base) (digits : PyStr)
  | floatLit (text : PyStr)
  | strLit (text : PyStr)
  | boolLit (b : Bool)
  | index
  | symbol (id : Nat)
  | paren (e : Expr)
  | call (e : Expr)
  | element (e i : Expr)
  | member (e : Expr) (id : Nat)
  | isset (a b : Expr)
  | lengthof (e : Expr)
  | valueof (e : Expr)
  | numbits (e : Expr)
  | unary (op : UnOp) (e : Expr)
  | binary (op : BinOp) (a b : Expr)
  | cond (c a b : Expr)
  deriving DecidableEq, Repr

/-- The precedence of an operator, section Operator Precedence; a bigger number binds tighter. -/
def BinOp.level : BinOp → Nat
  | .mul | .div | .mod => 10
  | .add | .sub => 9
  | .shl | .shr => 8
  | .lt | .le | .gt | .ge => 7
  | .eq | .ne => 6
  | .band => 5
  | .bxor => 4
  | .bor => 3
  | .land => 2
  | .lor => 1

/-- The precedence of the outermost operator of an expression. -/
def Expr.level : Expr → Nat
  | .unary _ _ => 11
  | .binary op _ _ => op.level
  | .cond _ _ _ => 0
  | _ => 12

/-- The expression is one which the parser builds from some text: an operand whose operator binds less tightly than the operator
it belongs to is in parentheses; binary operators associate to the left. -/
def Expr.Parsed : Expr → Prop
  | .paren e | .lengthof e | .valueof e | .numbits e => e.Parsed
  | .call e | .member e _ => e.Parsed ∧ e.level = 12
  | .element e i => e.Parsed ∧ e.level = 12 ∧ i.Parsed
  | .isset a b => a.Parsed ∧ b.Parsed
  | .unary _ e => e.Parsed ∧ 11 ≤ e.level
  | .binary op a b => a.Parsed ∧ op.level ≤ a.level ∧ b.Parsed ∧ op.level < b.level
  | .cond c a b => c.Parsed ∧ 0 < c.level ∧ a.Parsed ∧ b.Parsed
  | _ => True

/-- the types of expressions -/
inductive Ty where
  | int
  | float
  | bool
  | str
  | bytes
  | enum (id : Nat)
  | bitmask (id : Nat)
  | compound (id : Nat)
  | array (elem : Ty)
  | func (result : Ty)
  deriving DecidableEq, Repr

/-- the types of symbols and of members of compounds -/
structure Signature where
  symbol : Nat → Option Ty
  member : Nat → Nat → Option Ty

/-- a number -/
def Ty.numeric : Ty → Bool
  | .int | .float => true
  | _ => false

/-- the type of a binary operator applied to operands of the given types -/
def BinOp.type : BinOp → Ty → Ty → Option Ty
  | .add, .str, .str => some .str
  | .mul, a, b | .div, a, b | .add, a, b | .sub, a, b =>
    if a.numeric && b.numeric then some (if a = .int ∧ b = .int then .int else .float) else none
  | .mod, .int, .int => some .int
  | .shl, .int, .int | .shr, .int, .int => some .int
  | .lt, a, b | .gt, a, b => if a.numeric ∧ a = b then some .bool else none
  | .le, .int, .int | .ge, .int, .int => some .bool
  | .eq, a, b | .ne, a, b =>
    match a with
    | .float | .str | .func _ | .array _ => none
    | _ => if a = b then some .bool else none
  | .band, .int, .int | .bxor, .int, .int | .bor, .int, .int => some .int
  | .band, .bitmask c, .bitmask c' | .bxor, .bitmask c, .bitmask c' | .bor, .bitmask c, .bitmask c' =>
    if c = c' then some (.bitmask c) else none
  | .land, .bool, .bool | .lor, .bool, .bool => some .bool
  | _, _, _ => none

/-- the type of a unary operator -/
def UnOp.type : UnOp → Ty → Option Ty
  | .plus, .int | .minus, .int | .tilde, .int => some .int
  | .plus, .float | .minus, .float => some .float
  | .tilde, .bitmask c => some (.bitmask c)
  | .bang, .bool => some .bool
  | _, _ => none

/-- The type of an expression.  These are the rules of the language guide; the compiler accepts some more operands (Expression.java:
1505-1546 accepts `<` for booleans, 1372-1447 accepts `%` for floats). -/
def Expr.type (Γ : Signature) : Expr → Option Ty
  | .intLit _ _ => some .int
  | .floatLit _ => some .float
  | .strLit _ => some .str
  | .boolLit _ => some .bool
  | .index => some .int
  | .symbol id => Γ.symbol id
  | .paren e => e.type Γ
  | .call e =>
    match e.type Γ with
    | some (.func t) => some t
    | _ => none
  | .element e i =>
    match e.type Γ, i.type Γ with
    | some (.array t), some .int => some t
    | _, _ => none
  | .member e id =>
    match e.type Γ with
    | some (.compound c) => Γ.member c id
    | _ => none
  | .isset a b =>
    match a.type Γ, b.type Γ with
    | some (.bitmask c), some (.bitmask c') => if c = c' then some .bool else none
    | _, _ => none
  | .lengthof e =>
    match e.type Γ with
    | some (.array _) | some .str | some .bytes => some .int
    | _ => none
  | .valueof e =>
    match e.type Γ with
    | some (.enum _) | some (.bitmask _) => some .int
    | _ => none
  | .numbits e => if e.type Γ = some .int then some .int else none
  | .unary op e => do op.type (← e.type Γ)
  | .binary op a b => do op.type (← a.type Γ) (← b.type Γ)
  | .cond c a b => if c.type Γ = some .bool ∧ a.type Γ = b.type Γ then a.type Γ else none

/-- The values of expressions.  `other` is a value of another kind: a compound, an array, a function. -/
inductive Value (O : Type) where
  | int (x : Int)
  | bool (b : Bool)
  | float (x : PyFloat)
  | str (s : PyStr)
  | bytes (bs : List UInt8)
  | enum (id : Nat) (x : Int)
  | bitmask (id : Nat) (x : Int)
  | other (o : O)

/-- What an expression refers to: the values of symbols, the index of the array element, the members of compounds, the elements of
arrays, the results of functions, the widths of bitmasks, and the operations on texts and floating point numbers. -/
structure World (O : Type) where
  symbol : Nat → Option (Value O)
  index : Option Nat
  member : O → Nat → Option (Value O)
  element : O → Nat → Option (Value O)
  length : O → Option Nat
  result : O → Option (Value O)
  equal : O → O → Bool
  width : Nat → Nat
  floatText : PyStr → PyFloat
  stringText : PyStr → PyStr
  floatMinus : PyFloat → PyFloat
  floatArith : BinOp → Value O → Value O → Option PyFloat
  floatLess : PyFloat → PyFloat → Bool

/-- the value of a digit -/
def digitValue (c : Nat) : Nat :=
  if c ≤ ch! '9' then c - ch! '0' else if c ≤ ch! 'F' then c - ch! 'A' + 10 else c - ch! 'a' + 10

/-- the number of digits -/
def Base.radix : Base → Nat
  | .bin => 2
  | .oct => 8
  | .dec => 10
  | .hex => 16

/-- a digit of the notation -/
def Base.isDigit (b : Base) (c : Nat) : Bool :=
  ((ch! '0' ≤ c && c ≤ ch! '9') || (ch! 'A' ≤ c && c ≤ ch! 'F') || (ch! 'a' ≤ c && c ≤ ch! 'f')) && digitValue c < b.radix

/-- the value of the digits of a literal -/
def Base.value (b : Base) (digits : PyStr) : Nat := digits.foldl (fun n c => n * b.radix + digitValue c) 0

/-- `n` is the number of bits needed for `x` different values, section numbits -/
def numBits (x : Nat) : Nat := if x = 1 then 1 else Nat.clog 2 x

/-- How integers are divided. -/
structure Division where
  quot : Int → Int → Int
  rem : Int → Int → Int

/-- the division of Java: the quotient is rounded towards zero -/
def Division.java : Division := ⟨Int.tdiv, Int.tmod⟩

/-- the division which rounds downwards -/
def Division.floor : Division := ⟨Int.fdiv, Int.fmod⟩

/-- the comparison of integers -/
def BinOp.compareInt (x y : Int) : BinOp → Option Bool
  | .lt => some (x < y)
  | .le => some (x ≤ y)
  | .gt => some (y < x)
  | .ge => some (y ≤ x)
  | .eq => some (x = y)
  | .ne => some (x ≠ y)
  | _ => none

/-- the operations on integers -/
def BinOp.arithInt (D : Division) (x y : Int) : BinOp → Option Int
  | .mul => some (x * y)
  | .div => if y = 0 then none else some (D.quot x y)
  | .mod => if y = 0 then none else some (D.rem x y)
  | .add => some (x + y)
  | .sub => some (x - y)
  | .shl => if y < 0 then none else some (x * 2 ^ y.toNat)
  | .shr => if y < 0 then none else some (x / 2 ^ y.toNat)
  | .band => some (Int.land x y)
  | .bxor => some (Int.xor x y)
  | .bor => some (Int.lor x y)
  | _ => none

/-- the equality of values of the same type, as `==` and `!=` -/
def BinOp.equality {α : Type} [DecidableEq α] (x y : α) : BinOp → Option Bool
  | .eq => some (x = y)
  | .ne => some (x ≠ y)
  | _ => none

/-- `x` is a value of the bitmask -/
def World.inMask {O : Type} (W : World O) (c : Nat) (x : Int) : Bool := 0 ≤ x && x < 2 ^ W.width c

/-- the value of a binary operator whose operands are both evaluated -/
def BinOp.apply {O : Type} (W : World O) (D : Division) (op : BinOp) : Value O → Value O → Option (Value O)
  | .int x, .int y =>
    match op.compareInt x y with
    | some b => some (.bool b)
    | none => (op.arithInt D x y).map .int
  | .float x, .float y =>
    match op with
    | .lt => some (.bool (W.floatLess x y))
    | .gt => some (.bool (W.floatLess y x))
    | .mul | .div | .add | .sub => (W.floatArith op (.float x) (.float y)).map .float
    | _ => none
  | .int x, .float y =>
    match op with
    | .mul | .div | .add | .sub => (W.floatArith op (.int x) (.float y)).map .float
    | _ => none
  | .float x, .int y =>
    match op with
    | .mul | .div | .add | .sub => (W.floatArith op (.float x) (.int y)).map .float
    | _ => none
  | .str s, .str t => if op = .add then some (.str (s ++ t)) else none
  | .bool x, .bool y => (op.equality x y).map .bool
  | .bytes x, .bytes y => (op.equality x y).map .bool
  | .enum c x, .enum c' y => if c = c' then (op.equality x y).map .bool else none
  | .bitmask c x, .bitmask c' y =>
    if c = c' ∧ W.inMask c x ∧ W.inMask c y then
      match op with
      | .band => some (.bitmask c (Int.land x y))
      | .bxor => some (.bitmask c (Int.xor x y))
      | .bor => some (.bitmask c (Int.lor x y))
      | _ => (op.equality x y).map .bool
    else none
  | .other o, .other o' =>
    match op with
    | .eq => some (.bool (W.equal o o'))
    | .ne => some (.bool (!W.equal o o'))
    | _ => none
  | _, _ => none

/-- the value of a unary operator; `~` of a bitmask is the complement within its bits -/
def UnOp.apply {O : Type} (W : World O) : UnOp → Value O → Option (Value O)
  | .plus, .int x => some (.int x)
  | .minus, .int x => some (.int (-x))
  | .tilde, .int x => some (.int (-x - 1))
  | .plus, .float x => some (.float x)
  | .minus, .float x => some (.float (W.floatMinus x))
  | .tilde, .bitmask c x => if W.inMask c x then some (.bitmask c (2 ^ W.width c - 1 - x)) else none
  | .bang, .bool b => some (.bool (!b))
  | _, _ => none

/-- The value of an expression, if it has one. -/
def Expr.eval {O : Type} (W : World O) (D : Division) : Expr → Option (Value O)
  | .intLit b digits => some (.int (b.value digits))
  | .floatLit text => some (.float (W.floatText text))
  | .strLit text => some (.str (W.stringText text))
  | .boolLit b => some (.bool b)
  | .index => W.index.map fun (i : Nat) => .int (i : Int)
  | .symbol id => W.symbol id
  | .paren e => e.eval W D
  | .call e =>
    match e.eval W D with
    | some (.other o) => W.result o
    | _ => none
  | .element e i =>
    match e.eval W D, i.eval W D with
    | some (.other o), some (.int i) => if i < 0 then none else W.element o i.toNat
    | _, _ => none
  | .member e id =>
    match e.eval W D with
    | some (.other o) => W.member o id
    | _ => none
  | .isset a b =>
    match a.eval W D, b.eval W D with
    | some (.bitmask c x), some (.bitmask c' y) =>
      if c = c' ∧ W.inMask c x ∧ W.inMask c y then some (.bool (Int.land x y = y)) else none
    | _, _ => none
  | .lengthof e =>
    match e.eval W D with
    | some (.other o) => (W.length o).map fun (n : Nat) => .int (n : Int)
    | some (.str s) =>
      match utf8Encode s with
      | .ok bs => some (.int bs.length)
      | .error _ => none
    | some (.bytes bs) => some (.int bs.length)
    | _ => none
  | .valueof e =>
    match e.eval W D with
    | some (.enum _ x) => some (.int x)
    | some (.bitmask _ x) => some (.int x)
    | _ => none
  | .numbits e =>
    match e.eval W D with
    | some (.int x) => if x < 0 then none else some (.int (numBits x.toNat))
    | _ => none
  | .unary op e =>
    match e.eval W D with
    | some v => op.apply W v
    | none => none
  | .binary .land a b =>
    match a.eval W D with
    | some (.bool true) =>
      match b.eval W D with
      | some (.bool y) => some (.bool y)
      | _ => none
    | some (.bool false) => some (.bool false)
    | _ => none
  | .binary .lor a b =>
    match a.eval W D with
    | some (.bool true) => some (.bool true)
    | some (.bool false) =>
      match b.eval W D with
      | some (.bool y) => some (.bool y)
      | _ => none
    | _ => none
  | .binary op a b =>
    match a.eval W D, b.eval W D with
    | some x, some y => op.apply W D x y
    | _, _ => none
  | .cond c a b =>
    match c.eval W D with
    | some (.bool true) => a.eval W D
    | some (.bool false) => b.eval W D
    | _ => none

/-- `v` is a value of the type; `T` tells the types of compounds, arrays and functions. -/
def Value.HasType {O : Type} (T : O → Ty → Prop) : Value O → Ty → Prop
  | .int _, .int => True
  | .bool _, .bool => True
  | .float _, .float => True
  | .str _, .str => True
  | .bytes _, .bytes => True
  | .enum c _, .enum c' => c = c'
  | .bitmask c _, .bitmask c' => c = c'
  | .other o, .compound c => T o (.compound c)
  | .other o, .array t => T o (.array t)
  | .other o, .func t => T o (.func t)
  | _, _ => False

/-- The values of symbols, members, elements and results have the types which the schema gives them. -/
structure World.Typed {O : Type} (W : World O) (Γ : Signature) (T : O → Ty → Prop) : Prop where
  symbol : ∀ id v t, W.symbol id = some v → Γ.symbol id = some t → v.HasType T t
  member : ∀ o c m v t, T o (.compound c) → W.member o m = some v → Γ.member c m = some t → v.HasType T t
  element : ∀ o t i v, T o (.array t) → W.element o i = some v → v.HasType T t
  result : ∀ o t v, T o (.func t) → W.result o = some v → v.HasType T t

/-- The integer literals of the expression are ones of the schema language: they have digits, and a decimal literal begins with `0`
only if it is `0`, ZserioLexer.g4:130-151. -/
def Expr.Literals : Expr → Prop
  | .intLit b digits => digits ≠ [] ∧ (∀ c ∈ digits, b.isDigit c) ∧ (b = .dec → digits.head? = some (ch! '0') → digits = [ch! '0'])
  | .paren e | .lengthof e | .valueof e | .numbits e | .call e | .member e _ | .unary _ e => e.Literals
  | .element a b | .isset a b | .binary _ a b => a.Literals ∧ b.Literals
  | .cond c a b => c.Literals ∧ a.Literals ∧ b.Literals
  | _ => True

/-- No negative integer is divided, and no integer is divided by a negative one, wherever in the expression. -/
def Expr.NaturalDivisions {O : Type} (W : World O) : Expr → Prop
  | .paren e | .lengthof e | .valueof e | .numbits e | .call e | .member e _ | .unary _ e => e.NaturalDivisions W
  | .element a b | .isset a b => a.NaturalDivisions W ∧ b.NaturalDivisions W
  | .binary op a b => a.NaturalDivisions W ∧ b.NaturalDivisions W ∧
      (op = .div ∨ op = .mod → ∀ x y, a.eval W .java = some (.int x) → b.eval W .java = some (.int y) → 0 ≤ x ∧ 0 ≤ y)
  | .cond c a b => c.NaturalDivisions W ∧ a.NaturalDivisions W ∧ b.NaturalDivisions W
  | _ => True

end Zserio.Expression
