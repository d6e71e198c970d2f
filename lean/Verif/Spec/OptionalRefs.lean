import Verif.Model.OptionalRefs
/-
What it means that an expression can be evaluated although fields are optional: doc/ZserioLanguageOverview.md, section Optional
Members.  "An optional member has an if clause with a boolean expression.  The member will be decoded only if the expression
evaluates to true at run-time."  "An optional member defined by the keyword optional will be decoded only if the member has been
set."
-/
namespace Zserio.Expression.OptionalRefs

/-- The second operand of a binary operator is evaluated after the first one had the value `v`. -/
def Continues {O : Type} : BinOp → Option (Value O) → Prop
  | .land, v => v = some (.bool true)
  | .lor, v => v = some (.bool false)
  | _, v => v ≠ none

/-- The evaluation of the first expression evaluates the second one, a part of it. -/
inductive Reaches {O : Type} (W : World O) (D : Division) : Expr → Expr → Prop
  | whole (e) : Reaches W D e e
  | paren {e r} : Reaches W D e r → Reaches W D (.paren e) r
  | call {e r} : Reaches W D e r → Reaches W D (.call e) r
  | array {e i r} : Reaches W D e r → Reaches W D (.element e i) r
  | subscript {e i r} : e.eval W D ≠ none → Reaches W D i r → Reaches W D (.element e i) r
  | owner {e id r} : Reaches W D e r → Reaches W D (.member e id) r
  | issetLeft {a b r} : Reaches W D a r → Reaches W D (.isset a b) r
  | issetRight {a b r} : a.eval W D ≠ none → Reaches W D b r → Reaches W D (.isset a b) r
  | lengthof {e r} : Reaches W D e r → Reaches W D (.lengthof e) r
  | valueof {e r} : Reaches W D e r → Reaches W D (.valueof e) r
  | numbits {e r} : Reaches W D e r → Reaches W D (.numbits e) r
  | unary {op e r} : Reaches W D e r → Reaches W D (.unary op e) r
  | left {op a b r} : Reaches W D a r → Reaches W D (.binary op a b) r
  | right {op a b r} : Continues op (a.eval W D) → Reaches W D b r → Reaches W D (.binary op a b) r
  | condition {c a b r} : Reaches W D c r → Reaches W D (.cond c a b) r
  | first {c a b r} : c.eval W D = some (.bool true) → Reaches W D a r → Reaches W D (.cond c a b) r
  | second {c a b r} : c.eval W D = some (.bool false) → Reaches W D b r → Reaches W D (.cond c a b) r

/-- the field is declared with the keyword `optional` or with a condition -/
def Optional (T : Table) (id : Nat) : Prop := ∃ p, T id = .field p ∧ (p.auto = true ∨ ∃ c, p.clause = some c)

/-- the condition of the field -/
def Condition (T : Table) (id : Nat) (c : Expr) : Prop := ∃ p, T id = .field p ∧ p.clause = some c

/-- The expression is a reference to an optional field which is not there. -/
def Missing {O : Type} (T : Table) (W : World O) (D : Division) : Expr → Prop
  | .symbol id => Optional T id ∧ W.symbol id = none
  | .member e id => Optional T id ∧ ∃ o, e.eval W D = some (.other o) ∧ W.member o id = none
  | _ => False

/-- The evaluation of the expression never asks for an optional field which is not there. -/
def Safe {O : Type} (T : Table) (W : World O) (D : Division) (e : Expr) : Prop := ∀ r, Reaches W D e r → ¬Missing T W D r

/-- What the object `o` sees: its own fields, parameters and functions. -/
def within {O : Type} (T : Table) (W : World O) (o : O) : World O :=
  { W with symbol := fun id => if T id = .other then W.symbol id else W.member o id }

/-- The fields which the object with the expression has, and the ones which the objects it refers to have. -/
structure Layout (O : Type) where
  this : Nat → Prop
  of : O → Nat → Prop

/-- In this object, and in all the others, a field with a condition is there exactly if its condition is true. -/
def Consistent {O : Type} (T : Table) (L : Layout O) (W : World O) (D : Division) : Prop :=
  (∀ id c, L.this id → Condition T id c → (W.symbol id ≠ none ↔ c.eval W D = some (.bool true))) ∧
  ∀ o id c, L.of o id → Condition T id c → (W.member o id ≠ none ↔ c.eval (within T W o) D = some (.bool true))

/-- the parts of an expression, itself included -/
def parts : Expr → List Expr
  | .paren e => .paren e :: parts e
  | .call e => .call e :: parts e
  | .element a b => .element a b :: (parts a ++ parts b)
  | .member e id => .member e id :: parts e
  | .isset a b => .isset a b :: (parts a ++ parts b)
  | .lengthof e => .lengthof e :: parts e
  | .valueof e => .valueof e :: parts e
  | .numbits e => .numbits e :: parts e
  | .unary op e => .unary op e :: parts e
  | .binary op a b => .binary op a b :: (parts a ++ parts b)
  | .cond c a b => .cond c a b :: (parts c ++ parts a ++ parts b)
  | e => [e]

/-- the expression is a reference to the field (or another symbol) `id` -/
def RefersTo (id : Nat) : Expr → Prop
  | .symbol i => i = id
  | .member _ i => i = id
  | _ => False

/-- the field (or another symbol) is mentioned in the expression -/
def Mentions (e : Expr) (id : Nat) : Prop := ∃ r ∈ parts e, RefersTo id r

/-- The fields of the expression are ones of the objects they are looked for in. -/
def Resolved {O : Type} (T : Table) (L : Layout O) (W : World O) (D : Division) (e : Expr) : Prop :=
  (∀ id, .symbol id ∈ parts e → Optional T id → L.this id) ∧
  ∀ e' id o, .member e' id ∈ parts e → Optional T id → e'.eval W D = some (.other o) → L.of o id

/-- a path of names, with dots between them -/
def Path : Expr → Prop
  | .symbol _ => True
  | .member e _ => Path e
  | .paren e => Path e
  | _ => False

/-- The conditional operator does not occur. -/
def NoTernary (e : Expr) : Prop := ∀ c a b, .cond c a b ∉ parts e

/-- `&&` does not occur. -/
def NoAnd (e : Expr) : Prop := ∀ a b, .binary .land a b ∉ parts e

/-- A conjunction of expressions without `&&`, in any grouping. -/
inductive Conjunction : Expr → Prop
  | single {e} : NoAnd e → Conjunction e
  | paren {e} : Conjunction e → Conjunction (.paren e)
  | and {a b} : Conjunction a → Conjunction b → Conjunction (.binary .land a b)

/-- The first expression is one of the operands of the conjunction which the second one is. -/
inductive Conjunct : Expr → Expr → Prop
  | whole (e) : Conjunct e e
  | paren {c e} : Conjunct c e → Conjunct c (.paren e)
  | left {c a b} : Conjunct c a → Conjunct c (.binary .land a b)
  | right {c a b} : Conjunct c b → Conjunct c (.binary .land a b)

/-- The expression begins with the field, except for parentheses and operators with one operand. -/
inductive Begins (id : Nat) : Expr → Prop
  | here : Begins id (.symbol id)
  | paren {e} : Begins id e → Begins id (.paren e)
  | unary {op e} : Begins id e → Begins id (.unary op e)
  | lengthof {e} : Begins id e → Begins id (.lengthof e)
  | valueof {e} : Begins id e → Begins id (.valueof e)
  | numbits {e} : Begins id e → Begins id (.numbits e)
  | owner {e i} : Begins id e → Begins id (.member e i)
  | array {e i} : Begins id e → Begins id (.element e i)
  | left {op a b} : Begins id a → Begins id (.binary op a b)

/-- how often the field (or another symbol) is mentioned -/
def mentions (id : Nat) : Expr → Nat
  | .symbol i => if i = id then 1 else 0
  | .member e i => mentions id e + if i = id then 1 else 0
  | .paren e | .call e | .lengthof e | .valueof e | .numbits e | .unary _ e => mentions id e
  | .element a b | .isset a b | .binary _ a b => mentions id a + mentions id b
  | .cond c a b => mentions id c + mentions id a + mentions id b
  | _ => 0

/-- The two expressions are the same, except for parentheses around them. -/
inductive SameUpToParens : Expr → Expr → Prop
  | same (e) : SameUpToParens e e
  | left {a b} : SameUpToParens a b → SameUpToParens (.paren a) b
  | right {a b} : SameUpToParens a b → SameUpToParens a (.paren b)

end Zserio.Expression.OptionalRefs
