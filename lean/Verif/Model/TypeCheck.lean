import Verif.Spec.Expression
/-
The types which the compiler gives to expressions: compiler/core/src/zserio/ast/Expression.java, `evaluate` and the functions it
calls (560-712, 984-1875).

The compiler evaluates the operands of an expression first (ZserioAstWalker visits them), then the expression.  It keeps with each
expression a rough kind (`expressionType`), the type of the schema if it knows one (`zserioType`), and the symbol it stands for.

Simplified: names are resolved already (an identifier, together with the names of packages and types in front of it, is one symbol).
Template parameters are left out: templates are checked once more after their instantiation.  Extern types are left out.  The ranges
of integer expressions (`expressionIntegerValue`) have no influence on the types and are left out; so is the evaluation of the
declarations which a symbol stands for, which have been checked before.  Of a string value (`expressionStringValue`) only is kept
whether it is known.
-/
namespace Zserio.TypeCheck

open Zserio.Expression

/-- the base types which a field, a parameter, a constant, an element of an array or the result of a function can have,
Expression.java:1762-1851 -/
inductive Plain where
  | int
  | float
  | bool
  | str
  | bytes
  | enum (id : Nat)
  | bitmask (id : Nat)
  | compound (id : Nat)
  deriving DecidableEq, Repr

/-- Expression.java:219-260 `ExpressionType` (without the kinds of template parameters and extern types) -/
inductive Kind where
  | unknown
  | integer
  | float
  | string
  | boolean
  | compound
  | enumeration
  | bitmask
  | bytes
  deriving DecidableEq, Repr

/-- `expressionType` for a base type, Expression.java:1762-1851 -/
def Plain.kind : Plain → Kind
  | .int => .integer
  | .float => .float
  | .bool => .boolean
  | .str => .string
  | .bytes => .bytes
  | .enum _ => .enumeration
  | .bitmask _ => .bitmask
  | .compound _ => .compound

/-- `zserioType`: a base type, or the type of arrays -/
inductive ZType where
  | plain (t : Plain)
  | array
  deriving DecidableEq, Repr

/-- What is kept with an evaluated expression, Expression.java:1863-1875: `expressionType`, `zserioType`, the result of the function
if `symbolObject` is one (and whether its string value is known), the type of the elements if `symbolInstantiation` is an array, and
whether `expressionStringValue` is set. -/
structure Attr where
  kind : Kind := .unknown
  ztype : Option ZType := none
  func : Option (Plain × Bool) := none
  array : Option Plain := none
  known : Bool := false
  deriving DecidableEq, Repr

/-- `evaluateExpressionType` for a type which is not an array, Expression.java:1762-1851 -/
def Plain.attr (t : Plain) : Attr := { kind := t.kind, ztype := some (.plain t) }

/-- What a symbol stands for. -/
inductive Decl where
  | field (t : Plain)
  | arrayField (elem : Plain)
  | param (t : Plain)
  | function (result : Plain) (known : Bool)
  | const (t : Plain) (known : Bool)
  | item (enum : Nat)
  | value (bitmask : Nat)
  deriving DecidableEq, Repr

/-- the symbols of the schema: the ones visible where the expression is, the members of a compound, the items of an enumeration, the
values of a bitmask, and the constants of packages -/
structure Decls where
  symbol : Nat → Option Decl
  member : Nat → Nat → Option Decl
  isItem : Nat → Nat → Bool
  isValue : Nat → Nat → Bool
  package : Nat → Option (Plain × Bool)

/-- `evaluateIdentifierScopeSymbol`, `evaluateIdentifierPackageSymbol`, `evaluateConstant`, Expression.java:1618-1746.  A function
has no type until it is called. -/
def Decl.attr : Decl → Attr
  | .field t | .param t => t.attr
  | .arrayField t => { ztype := some .array, array := some t }
  | .function t known => { func := some (t, known) }
  | .const t known => { t.attr with known := known }
  | .item c => (Plain.enum c).attr
  | .value c => (Plain.bitmask c).attr

/-- the messages of ParserException -/
inductive Problem where
  | unresolved
  | notFunction
  | notArray
  | integerExpected
  | unexpectedDot
  | undefinedMember
  | notBitmask
  | typeMismatch
  | lengthof
  | valueof
  | numberExpected
  | booleanExpected
  | constantStringExpected
  | bitsExpected
  | incompatible
  | floatEquality
  | stringComparison
  deriving DecidableEq, Repr

/-- `evaluateFunctionCallExpression`, Expression.java:996-1039 -/
def checkCall (a : Attr) : Except Problem Attr :=
  match a.func with
  | none => .error .notFunction
  | some (t, known) => .ok { t.attr with known := known }

/-- `evaluateArrayElement`, Expression.java:1041-1064 -/
def checkElement (a i : Attr) : Except Problem Attr :=
  match a.array with
  | none => .error .notArray
  | some t => if i.kind ≠ .integer then .error .integerExpected else .ok t.attr

/-- `evaluateDotExpression` with `evaluatePackageDotExpression`, `evaluateEnumDotExpression`, `evaluateBitmaskDotExpression` and
`evaluateCompoundDotExpression`, Expression.java:1066-1136, 1155-1223.  Without a type on the left the name is looked up in the packages:
`operand1.unresolvedIdentifiers` is empty for an operand which is not part of a package name.  (A type in a package, which needs
another dot, is left out.) -/
def checkDot (D : Decls) (a : Attr) (id : Nat) : Except Problem Attr :=
  match a.ztype with
  | none =>
    match D.package id with
    | none => .error .unresolved
    | some (t, known) => .ok { t.attr with known := known }
  | some (.plain (.enum c)) => if D.isItem c id then .ok (Plain.enum c).attr else .error .undefinedMember
  | some (.plain (.bitmask c)) => if D.isValue c id then .ok (Plain.bitmask c).attr else .error .undefinedMember
  | some (.plain (.compound c)) =>
    match D.member c id with
    | some (.field t) => .ok (Decl.field t).attr
    | some (.arrayField t) => .ok (Decl.arrayField t).attr
    | some (.param t) => .ok (Decl.param t).attr
    | some (.function t known) => .ok (Decl.function t known).attr
    | _ => .error .undefinedMember
  | some _ => .error .unexpectedDot

/-- `evaluateIsSetOperator`, Expression.java:1225-1249 -/
def checkIsset (a b : Attr) : Except Problem Attr :=
  if a.kind ≠ .bitmask then .error .notBitmask
  else if b.kind ≠ .bitmask then .error .notBitmask
  else if a.ztype ≠ b.ztype then .error .typeMismatch
  else .ok { kind := .boolean }

/-- `evaluateLengthOfOperator`, Expression.java:1251-1297 -/
def checkLengthof (a : Attr) : Except Problem Attr :=
  if a.array.isSome then .ok { kind := .integer }
  else if a.kind = .string then .ok { kind := .integer }
  else if a.kind = .bytes then .ok { kind := .integer }
  else .error .lengthof

/-- `evaluateValueOfOperator`, Expression.java:1299-1312 -/
def checkValueof (a : Attr) : Except Problem Attr :=
  if a.kind ≠ .enumeration ∧ a.kind ≠ .bitmask then .error .valueof else .ok { kind := .integer }

/-- `evaluateNumBitsOperator`, Expression.java:1314-1324 -/
def checkNumbits (a : Attr) : Except Problem Attr :=
  if a.kind ≠ .integer then .error .integerExpected else .ok { kind := .integer }

/-- `evaluateUnaryPlusMinus`, `evaluateNegationOperator`, `evaluateBitNotExpression`, Expression.java:1326-1370 -/
def checkUnary : UnOp → Attr → Except Problem Attr
  | .plus, a | .minus, a =>
    if a.kind ≠ .integer ∧ a.kind ≠ .float then .error .numberExpected else .ok { kind := a.kind }
  | .bang, a => if a.kind ≠ .boolean then .error .booleanExpected else .ok { kind := .boolean }
  | .tilde, a =>
    if a.kind ≠ .integer ∧ a.kind ≠ .bitmask then .error .bitsExpected else .ok { kind := a.kind, ztype := a.ztype }

/-- `evaluateArithmeticExpression`, Expression.java:1372-1447 -/
def checkArithmetic (op : BinOp) (a b : Attr) : Except Problem Attr :=
  if op = .add ∧ a.kind = .string ∧ b.kind = .string then
    if a.known && b.known then .ok { kind := .string, known := true } else .error .constantStringExpected
  else if (a.kind ≠ .integer ∧ a.kind ≠ .float) ∨ (b.kind ≠ .integer ∧ b.kind ≠ .float) then .error .numberExpected
  else if a.kind = .float ∨ b.kind = .float then .ok { kind := .float }
  else .ok { kind := .integer }

/-- `evaluateBitExpression`, Expression.java:1449-1503 -/
def checkBits (op : BinOp) (a b : Attr) : Except Problem Attr :=
  if a.kind ≠ b.kind ∨ (a.kind ≠ .integer ∧ a.kind ≠ .bitmask) then .error .bitsExpected
  else if (op = .shl ∨ op = .shr) ∧ a.kind ≠ .integer then .error .integerExpected
  else .ok { kind := a.kind, ztype := a.ztype }

/-- `evaluateRelationalExpression`, Expression.java:1505-1546 -/
def checkRelation (op : BinOp) (a b : Attr) : Except Problem Attr :=
  if a.kind = .unknown ∨ a.kind ≠ b.kind then .error .incompatible
  else if a.kind = .float ∧ op ≠ .lt ∧ op ≠ .gt then .error .floatEquality
  else if a.kind = .string ∧ op ≠ .eq ∧ op ≠ .ne then .error .stringComparison
  else if a.kind = .string then .error .stringComparison
  else .ok { kind := .boolean }

/-- `evaluateLogicalExpression`, Expression.java:1548-1561 -/
def checkLogical (a b : Attr) : Except Problem Attr :=
  if a.kind ≠ .boolean ∨ b.kind ≠ .boolean then .error .booleanExpected else .ok { kind := .boolean }

/-- the operators with one operand on each side, Expression.java:607-655 -/
def checkBinary (op : BinOp) (a b : Attr) : Except Problem Attr :=
  match op with
  | .mul | .div | .mod | .add | .sub => checkArithmetic op a b
  | .shl | .shr | .band | .bxor | .bor => checkBits op a b
  | .lt | .le | .gt | .ge | .eq | .ne => checkRelation op a b
  | .land | .lor => checkLogical a b

/-- `evaluateConditionalExpression`, Expression.java:1563-1610 -/
def checkConditional (c a b : Attr) : Except Problem Attr :=
  if c.kind ≠ .boolean then .error .booleanExpected
  else if a.kind = .unknown ∨ a.kind ≠ b.kind then .error .incompatible
  else if (a.kind = .compound ∨ a.kind = .bitmask ∨ a.kind = .enumeration) ∧ a.ztype ≠ b.ztype then .error .incompatible
  else .ok { kind := a.kind, ztype := a.ztype }

/-- `evaluate`, Expression.java:560-712; parentheses copy everything (984-994) -/
def check (D : Decls) : Expression.Expr → Except Problem Attr
  | .intLit _ _ => .ok { kind := .integer }
  | .floatLit _ => .ok { kind := .float }
  | .strLit _ => .ok { kind := .string, known := true }
  | .boolLit _ => .ok { kind := .boolean }
  | .index => .ok { kind := .integer }
  | .symbol id =>
    match D.symbol id with
    | none => .error .unresolved
    | some d => .ok d.attr
  | .paren e => check D e
  | .call e => do checkCall (← check D e)
  | .element e i => do
    let a ← check D e
    checkElement a (← check D i)
  | .member e id => do checkDot D (← check D e) id
  | .isset a b => do
    let x ← check D a
    checkIsset x (← check D b)
  | .lengthof e => do checkLengthof (← check D e)
  | .valueof e => do checkValueof (← check D e)
  | .numbits e => do checkNumbits (← check D e)
  | .unary op e => do checkUnary op (← check D e)
  | .binary op a b => do
    let x ← check D a
    checkBinary op x (← check D b)
  | .cond c a b => do
    let x ← check D c
    let y ← check D a
    checkConditional x y (← check D b)

end Zserio.TypeCheck
