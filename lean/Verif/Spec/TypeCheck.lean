import Verif.Model.TypeCheck
/-
What users rely on when the compiler accepts an expression: it has the type which the language guide gives it, and generated code
can compute its value.  The types of the guide and the values are in Verif/Spec/Expression.lean.
-/
namespace Zserio.TypeCheck

open Zserio.Expression

/-- the type of the guide -/
def Plain.ty : Plain → Ty
  | .int => .int
  | .float => .float
  | .bool => .bool
  | .str => .str
  | .bytes => .bytes
  | .enum c => .enum c
  | .bitmask c => .bitmask c
  | .compound c => .compound c

/-- the type of the guide which a symbol has -/
def Decl.ty : Decl → Ty
  | .field t | .param t | .const t _ => t.ty
  | .arrayField t => .array t.ty
  | .function t _ => .func t.ty
  | .item c => .enum c
  | .value c => .bitmask c

/-- a symbol which a compound can have as a member: a field, a parameter or a function -/
def Decl.isMember : Decl → Bool
  | .field _ | .arrayField _ | .param _ | .function _ _ => true
  | _ => false

/-- the types of the symbols and of the members of compounds, as the guide sees them -/
def Decls.signature (D : Decls) : Signature where
  symbol id := (D.symbol id).map Decl.ty
  member c id := ((D.member c id).filter Decl.isMember).map Decl.ty

/-- What the compiler keeps about an expression says that its type is `t`. -/
def Attr.Says (a : Attr) : Ty → Prop
  | .int => a.kind = .integer
  | .float => a.kind = .float
  | .bool => a.kind = .boolean
  | .str => a.kind = .string
  | .bytes => a.kind = .bytes
  | .enum c => a.kind = .enumeration ∧ a.ztype = some (.plain (.enum c))
  | .bitmask c => a.kind = .bitmask ∧ a.ztype = some (.plain (.bitmask c))
  | .compound c => a.kind = .compound ∧ a.ztype = some (.plain (.compound c))
  | .array t => a.kind = .unknown ∧ ∃ p, a.array = some p ∧ p.ty = t
  | .func t => a.kind = .unknown ∧ ∃ p k, a.func = some (p, k) ∧ p.ty = t

/-- The expression keeps to the rules of the guide in the places where the compiler does not look: only numbers are ordered, `%` has
integers on both sides, both sides of `==`, `!=`, `&`, `^` and `|` have one type, and a dot follows a compound. -/
def Strict (Γ : Signature) : Expression.Expr → Prop
  | .paren e | .lengthof e | .valueof e | .numbits e | .call e | .unary _ e => Strict Γ e
  | .element a b | .isset a b => Strict Γ a ∧ Strict Γ b
  | .member e _ => Strict Γ e ∧ ∃ c, e.type Γ = some (.compound c)
  | .binary op a b => Strict Γ a ∧ Strict Γ b ∧
      (op ∈ [BinOp.lt, .le, .gt, .ge] → a.type Γ = some .int ∨ a.type Γ = some .float) ∧
      (op = .mod → a.type Γ ≠ some .float ∧ b.type Γ ≠ some .float) ∧
      (op ∈ [BinOp.eq, .ne, .band, .bxor, .bor] → a.type Γ = b.type Γ)
  | .cond c a b => Strict Γ c ∧ Strict Γ a ∧ Strict Γ b
  | _ => True

/-- The compiler can know the value of the string: it is made of literals and constants. -/
def Constant (D : Decls) : Expression.Expr → Prop
  | .strLit _ => True
  | .symbol id => ∃ t, D.symbol id = some (.const t true)
  | .paren e => Constant D e
  | .binary .add a b => Constant D a ∧ Constant D b
  | _ => False

/-- The expression uses only what the compiler supports: strings are joined only if they are constant, and `? :` does not choose
between arrays or functions. -/
def Supported (D : Decls) : Expression.Expr → Prop
  | .paren e | .lengthof e | .valueof e | .numbits e | .call e | .unary _ e | .member e _ => Supported D e
  | .element a b | .isset a b => Supported D a ∧ Supported D b
  | .binary op a b => Supported D a ∧ Supported D b ∧
      (op = .add → a.type D.signature = some .str → Constant D a ∧ Constant D b)
  | .cond c a b => Supported D c ∧ Supported D a ∧ Supported D b ∧
      (∀ t, a.type D.signature ≠ some (.array t)) ∧ (∀ t, a.type D.signature ≠ some (.func t))
  | _ => True

/-- The value of the string is known to the compiler: it is made of literals, constants and results of functions which are such strings. -/
def Known (D : Decls) : Expression.Expr → Prop
  | .strLit _ => True
  | .symbol id => ∃ t, D.symbol id = some (.const t true)
  | .member _ id => ∃ t, D.package id = some (t, true)
  | .call _ => ∃ t, (∃ id, D.symbol id = some (.function t true)) ∨ ∃ c id, D.member c id = some (.function t true)
  | .paren e => Known D e
  | .binary .add a b => Known D a ∧ Known D b
  | _ => False

/-- Wherever strings are joined in the expression, both are known to the compiler. -/
def JoinsKnown (D : Decls) : Expression.Expr → Prop
  | .paren e | .lengthof e | .valueof e | .numbits e | .call e | .unary _ e | .member e _ => JoinsKnown D e
  | .element a b | .isset a b => JoinsKnown D a ∧ JoinsKnown D b
  | .binary op a b => JoinsKnown D a ∧ JoinsKnown D b ∧ (op = .add → a.type D.signature = some .str → Known D a ∧ Known D b)
  | .cond c a b => JoinsKnown D c ∧ JoinsKnown D a ∧ JoinsKnown D b
  | _ => True

/-- a value of a bitmask has only bits of the bitmask -/
def InMask {O : Type} (W : World O) : Value O → Prop
  | .bitmask c x => W.inMask c x = true
  | _ => True

/-- The object is complete: each symbol, index, member, element and result which the schema names has a value (nothing is left
unset), and values of bitmasks have only bits of their bitmasks. -/
structure Complete {O : Type} (W : World O) (Γ : Signature) (T : O → Ty → Prop) : Prop where
  symbol : ∀ id t, Γ.symbol id = some t → ∃ v, W.symbol id = some v ∧ InMask W v
  index : ∃ i, W.index = some i
  member : ∀ o c m t, T o (.compound c) → Γ.member c m = some t → ∃ v, W.member o m = some v ∧ InMask W v
  length : ∀ o t, T o (.array t) → ∃ n, W.length o = some n
  element : ∀ o t n i, T o (.array t) → W.length o = some n → i < n → ∃ v, W.element o i = some v ∧ InMask W v
  result : ∀ o t, T o (.func t) → ∃ v, W.result o = some v ∧ InMask W v

/-- An operator cannot be applied to these numbers: a division by zero, a shift by a negative number, a floating point operation
which has no result. -/
def OperatorFault {O : Type} (W : World O) (op : BinOp) : Value O → Value O → Prop
  | .int _, .int y => ((op = .div ∨ op = .mod) ∧ y = 0) ∨ ((op = .shl ∨ op = .shr) ∧ y < 0)
  | .int x, .float y => W.floatArith op (.int x) (.float y) = none
  | .float x, .int y => W.floatArith op (.float x) (.int y) = none
  | .float x, .float y => op ≠ .lt ∧ op ≠ .gt ∧ W.floatArith op (.float x) (.float y) = none
  | _, _ => False

/-- The evaluation of the expression meets something which depends on the values, not on the types: a fault of an operator, an index
which is not one of the array, `numbits` of a negative number, `lengthof` of a string which has no UTF-8 encoding. -/
def Faults {O : Type} (W : World O) (d : Division) : Expression.Expr → Prop
  | .paren e | .call e | .valueof e | .unary _ e | .member e _ => Faults W d e
  | .lengthof e => Faults W d e ∨ ∃ s err, e.eval W d = some (.str s) ∧ utf8Encode s = .error err
  | .numbits e => Faults W d e ∨ ∃ x, e.eval W d = some (.int x) ∧ x < 0
  | .element e i => Faults W d e ∨ Faults W d i ∨
      ∃ o n k, e.eval W d = some (.other o) ∧ W.length o = some n ∧ i.eval W d = some (.int k) ∧ (k < 0 ∨ n ≤ k)
  | .isset a b => Faults W d a ∨ Faults W d b
  | .binary .land a b => Faults W d a ∨ (a.eval W d = some (.bool true) ∧ Faults W d b)
  | .binary .lor a b => Faults W d a ∨ (a.eval W d = some (.bool false) ∧ Faults W d b)
  | .binary op a b => Faults W d a ∨ Faults W d b ∨ ∃ x y, a.eval W d = some x ∧ b.eval W d = some y ∧ OperatorFault W op x y
  | .cond c a b => Faults W d c ∨ (c.eval W d = some (.bool true) ∧ Faults W d a) ∨ (c.eval W d = some (.bool false) ∧ Faults W d b)
  | _ => False

end Zserio.TypeCheck
