import Verif.Spec.Expression
/-
The warnings of the compiler about references to optional fields: Expression.java (893-959, 400-480), Field.java (checkOptionalReferences
and what it calls), Function.java (112-127), ChoiceType.java (416-431) and ExpressionComparator.java, all in
compiler/core/src/zserio/ast.

Identifiers are resolved: the number of a symbol or of a member stands for the object of the syntax tree which declares it, so that
the field `has` of a structure has the same number wherever it is mentioned.  Simplified: hash codes of objects of the syntax tree are
taken to be different for different objects (ExpressionComparator.java:211-214 writes them into the texts it compares); the names of
packages and types in front of a symbol are part of the symbol.
-/
namespace Zserio.Expression.OptionalRefs

/-- Field.java:40-100: what a field says about its presence: the keyword `optional`, and the expression behind `if` -/
structure Presence where
  auto : Bool := false
  clause : Option Expr := none
  deriving DecidableEq, Repr

/-- What a symbol of an expression is declared as (`symbolObject`); `other` is a constant, an item of an enumeration or a value of a
bitmask. -/
inductive Node where
  | field (p : Presence)
  | parameter
  | function
  | other
  deriving DecidableEq, Repr

/-- the declarations -/
abbrev Table := Nat → Node

/-- Field.java:219-222 `isOptional` -/
def Presence.isOptional (p : Presence) : Bool := p.auto || p.clause.isSome

/-- `symbolObject instanceof Field && field.isOptional()`, Expression.java:901-905 -/
def Table.isOptional (T : Table) (id : Nat) : Bool :=
  match T id with
  | .field p => p.isOptional
  | _ => false

/-- `optionalClauseExpr` of a field -/
def Table.clause (T : Table) (id : Nat) : Option Expr :=
  match T id with
  | .field p => p.clause
  | _ => none

/-- Expression.java:402-451 `OptionalFieldInfo` -/
structure Info where
  pre : List Nat
  ands : List Expr
  deriving DecidableEq, Repr

/-- The map of referenced optional fields, the current dot prefix and the current left `and` expressions, the arguments of
`addReferencedOptionalField`, Expression.java:893-894.  All three are changed in place. -/
structure Scan where
  refs : List (Nat × Info) := []
  pre : List Nat := []
  ands : List Expr := []
  deriving DecidableEq, Repr

/-- `LinkedHashMap.put`: the value of a key which is there already is replaced, the order of the keys is kept -/
def put (refs : List (Nat × Info)) (id : Nat) (info : Info) : List (Nat × Info) :=
  if refs.any (·.1 == id) then refs.map fun p => if p.1 = id then (id, info) else p else refs ++ [(id, info)]

/-- Expression.java:896-915: a leaf -/
def leaf (T : Table) (id : Nat) (s : Scan) : Scan :=
  { s with
    refs := if T.isOptional id then put s.refs id ⟨s.pre, s.ands⟩ else s.refs
    pre := s.pre ++ [id] }

/-- Expression.java:946-959 `addReferencedLeftAndExpr`: the expression as it is, and its operands if it is `&&`, also in parentheses.
`inner` is the loop which removes the parentheses. -/
def conjunctsInner : Expr → List Expr
  | .paren e => conjunctsInner e
  | .binary .land a b => (a :: conjunctsInner a) ++ (b :: conjunctsInner b)
  | _ => []

/-- Expression.java:946-959 `addReferencedLeftAndExpr` -/
def conjuncts (e : Expr) : List Expr := e :: conjunctsInner e

/-- Expression.java:893-944 `addReferencedOptionalField` -/
def scan (T : Table) : Expr → Scan → Scan
  | .symbol id, s => leaf T id s
  | .member e id, s => leaf T id (scan T e s)
  | .paren e, s | .call e, s | .lengthof e, s | .valueof e, s | .numbits e, s | .unary _ e, s => scan T e { s with pre := [] }
  | .element a b, s | .isset a b, s => scan T b { scan T a { s with pre := [] } with pre := [], ands := [] }
  | .binary op a b, s =>
    let t := scan T a { s with pre := [] }
    scan T b { t with pre := [], ands := if op = .land then t.ands ++ conjuncts a else [] }
  | .cond c a b, s =>
    let t := scan T c { s with pre := [] }
    let u := scan T a { t with pre := [], ands := [] }
    scan T b { u with pre := [], ands := [] }
  | _, s => s

/-- Expression.java:462-471 `getReferencedOptionalFields` -/
def referenced (T : Table) (e : Expr) : List (Nat × Info) := (scan T e {}).refs

/-- Expression.java:513-516 `containsTernaryOperator` -/
def containsTernary : Expr → Bool
  | .paren e | .call e | .member e _ | .lengthof e | .valueof e | .numbits e | .unary _ e => containsTernary e
  | .element a b | .isset a b | .binary _ a b => containsTernary a || containsTernary b
  | .cond _ _ _ => true
  | _ => false

/-- ExpressionComparator.java:63-70 `removeParentheses` -/
def removeParentheses : Expr → Expr
  | .paren e => removeParentheses e
  | e => e

/-- the dot prefix, followed by a symbol, as an expression -/
def dotted : List Nat → Nat → Expr
  | [], id => .symbol id
  | p :: ps, id => ps.foldl .member (.symbol p) |> fun e => .member e id

/-- ExpressionComparator.java:143-165 `getIdentifier`: the dot prefix in front of fields, functions and parameters.  The formatter
writes texts; the text of an expression determines it, so that the model compares expressions. -/
def prefixed (T : Table) (pre : List Nat) : Expr → Expr
  | .symbol id => if T id = .other then .symbol id else dotted pre id
  | .paren e => .paren (prefixed T pre e)
  | .call e => .call (prefixed T pre e)
  | .element a b => .element (prefixed T pre a) (prefixed T pre b)
  | .member e id => .member (prefixed T pre e) id
  | .isset a b => .isset (prefixed T pre a) (prefixed T pre b)
  | .lengthof e => .lengthof (prefixed T pre e)
  | .valueof e => .valueof (prefixed T pre e)
  | .numbits e => .numbits (prefixed T pre e)
  | .unary op e => .unary op (prefixed T pre e)
  | .binary op a b => .binary op (prefixed T pre a) (prefixed T pre b)
  | .cond c a b => .cond (prefixed T pre c) (prefixed T pre a) (prefixed T pre b)
  | e => e

/-- ExpressionComparator.java:42-61 `equals` -/
def sameExpression (T : Table) (e₁ e₂ : Expr) (pre₂ : List Nat) : Bool :=
  removeParentheses e₁ == prefixed T pre₂ (removeParentheses e₂)

/-- the warnings; each names the referenced field -/
inductive Warning where
  | optionalToOptional (id : Nat)
  | differentCondition (id : Nat)
  | notOptional (id : Nat)
  | autoInClause (id : Nat)
  | noLeftAnd (id : Nat)
  deriving DecidableEq, Repr

/-- the field which the warning is about -/
def Warning.about : Warning → Nat
  | .optionalToOptional id | .differentCondition id | .notOptional id | .autoInClause id | .noLeftAnd id => id

/-- Field.java:582-596 `haveFieldsDifferentOptional` -/
def differentOptional (T : Table) (self : Nat) (id : Nat) (pre : List Nat) : Bool :=
  if pre = [] ∧ self = id then false
  else
    match T.clause self, T.clause id with
    | some c, some c' => !sameExpression T c c' pre
    | _, _ => true

/-- Field.java:534-580 `checkOptionalReferencesInExpression` for the field `self` -/
def warnings (T : Table) (self : Nat) (e : Expr) : List Warning :=
  if containsTernary e then []
  else
    (referenced T e).flatMap fun (id, info) =>
      if differentOptional T self id info.pre then
        if T.isOptional self then
          if T.clause self = none ∨ T.clause id = none then [.optionalToOptional id] else [.differentCondition id]
        else [.notOptional id]
      else []

/-- Field.java:456-508 `checkOptionalReferencesInOptionalClause` for an expression behind `if` -/
def clauseWarnings (T : Table) (e : Expr) : List Warning :=
  if containsTernary e then []
  else
    (referenced T e).flatMap fun (id, info) =>
      match T.clause id with
      | none => [.autoInClause id]
      | some c => if info.ands.any fun a => sameExpression T a c [] then [] else [.noLeftAnd id]

/-- Function.java:112-127 `checkOptionalReferencesInFunction` and ChoiceType.java:416-431 `checkOptionalReferencesInSelector`: the
optional fields which the result of the function or the selector refers to -/
def mentionWarnings (T : Table) (e : Expr) : List Nat :=
  if containsTernary e then [] else (referenced T e).map (·.1)

/-- The expressions of a field: Field.java:415-441, 510-532 -/
structure FieldExprs where
  offset : Option Expr := none
  arguments : List Expr := []
  constraint : Option Expr := none
  arrayLength : Option Expr := none
  bitLength : Option Expr := none

/-- Field.java:421-429 `checkOptionalReferences` for the field `self` -/
def fieldWarnings (T : Table) (self : Nat) (f : FieldExprs) : List Warning :=
  f.offset.toList.flatMap (warnings T self) ++
  f.arguments.flatMap (warnings T self) ++
  (T.clause self).toList.flatMap (clauseWarnings T) ++
  f.constraint.toList.flatMap (warnings T self) ++
  f.arrayLength.toList.flatMap (warnings T self) ++
  f.bitLength.toList.flatMap (warnings T self)

end Zserio.Expression.OptionalRefs
