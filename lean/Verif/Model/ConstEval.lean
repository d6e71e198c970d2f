import Verif.Spec.Expression
import Verif.Model.Enumeration
import Verif.Model.Bitmask
import Verif.Model.Utf8
/-
Model of the evaluation of constants, enumerations and bitmasks in the compiler: ZserioAstEvaluator.java, Expression.java
`evaluate`, ExpressionIntegerValue.java, EnumType.java, EnumItem.java, BitmaskType.java, BitmaskValue.java, Constant.java.

The generated classes of enumerations and bitmasks contain the numbers computed here (EnumerationEmitterTemplateData.java:86,
BitmaskEmitterTemplateData.java), not the expressions of the schema.

Simplifications:
* Names are resolved already (`Expression.Expr.symbol`); an expression refers to constants, items of enumerations and values of
  bitmasks only, as fields, parameters and functions are not in the scope of these declarations.
* Of an integer expression only the value is modelled, not its bounds, which are used where the value is not known.
* Expressions are not marked as evaluated one by one, but declarations as a whole.  Visiting a type or a constant whose expression is
  in evaluation always comes to this expression, because everything before it has been evaluated, and raises the exception there
  (Expression.java:562-563).
* Integers of Java's `BigInteger` are not limited in size.
-/
namespace Zserio.ConstEval
open Zserio.Expression

/-- Why the compiler refuses a schema.  `arithmetic` and `null` are exceptions of Java (`ArithmeticException`,
`NullPointerException`), the others are `ParserException`s.  `depth` is not an error of the compiler: the recursion of the model is
too deep, which never happens (`C81_depth`). -/
inductive CompileError where
  | type
  | cyclic
  | arithmetic
  | null
  | unresolved
  | negative
  | duplicate
  | range
  | depth
  deriving DecidableEq, Repr

/-- What is known of an expression: Expression.java `expressionType` with `zserioType`, `expressionIntegerValue.value` and
`expressionStringValue`, Expression.java:1960-1990 -/
structure Result where
  type : Ty
  value : Option Int := none
  text : Option PyStr := none
  deriving DecidableEq, Repr

/-- the kind of the type: Expression.java:215-300 `ExpressionType` does not distinguish enumerations -/
def sameKind : Ty → Ty → Bool
  | .enum _, .enum _ => true
  | .bitmask _, .bitmask _ => true
  | .compound _, .compound _ => true
  | a, b => decide (a = b)

/-- `BigInteger.intValue`: the low 32 bits as a signed number -/
def intValue (x : Int) : Int := Int.bmod x (2 ^ 32)

/-- `BigInteger.shiftLeft`: a negative distance shifts to the right -/
def shiftLeft (x n : Int) : Int := if n < 0 then x / 2 ^ (-n).toNat else x * 2 ^ n.toNat

/-- `BigInteger.shiftRight`: a negative distance shifts to the left -/
def shiftRight (x n : Int) : Int := if n < 0 then x * 2 ^ (-n).toNat else x / 2 ^ n.toNat

/-- ExpressionIntegerValue.java:429-437 `getNumBits` -/
def getNumBits (x : Int) : Int := if x < 2 then 1 else (Nat.size (x - 1).toNat : Int)

/-- ExpressionIntegerValue.java:152-358, the parts for known values: `add`, `subtract`, `multiply`, `divide`, `remainder`,
`shiftLeft`, `shiftRight`, `and`, `or`, `xor`; the value is not known if one of the operands is not known -/
def arith (op : BinOp) : Option Int → Option Int → Except CompileError (Option Int)
  | some x, some y =>
    match op with
    | .add => .ok (some (x + y))
    | .sub => .ok (some (x - y))
    | .mul => .ok (some (x * y))
    | .div => if y = 0 then .error .arithmetic else .ok (some (Int.tdiv x y))
    | .mod => if y = 0 then .error .arithmetic else .ok (some (Int.tmod x y))
    | .shl => .ok (some (shiftLeft x (intValue y)))
    | .shr => .ok (some (shiftRight x (intValue y)))
    | .band => .ok (some (Int.land x y))
    | .bor => .ok (some (Int.lor x y))
    | .bxor => .ok (some (Int.xor x y))
    | _ => .ok none
  | _, _ => .ok none

/-- Expression.java:1326-1370 `evaluateUnaryPlusMinus`, `evaluateNegationOperator`, `evaluateBitNotExpression`; `~` of a bitmask is
computed like `~` of an integer -/
def unary : UnOp → Result → Except CompileError Result
  | .plus, r =>
    if r.type = .int then .ok { type := .int, value := r.value }
    else if r.type = .float then .ok { type := .float }
    else .error .type
  | .minus, r =>
    if r.type = .int then .ok { type := .int, value := r.value.map fun x => -x }
    else if r.type = .float then .ok { type := .float }
    else .error .type
  | .bang, r => if r.type = .bool then .ok { type := .bool } else .error .type
  | .tilde, r =>
    match r.type with
    | .int => .ok { type := .int, value := r.value.map fun x => -x - 1 }
    | .bitmask c => .ok { type := .bitmask c, value := r.value.map fun x => -x - 1 }
    | _ => .error .type

/-- Expression.java:1372-1447 `evaluateArithmeticExpression`; the concatenation of strings needs known texts -/
def arithmetic (op : BinOp) (a b : Result) : Except CompileError Result :=
  if op = .add ∧ a.type = .str ∧ b.type = .str then
    match a.text, b.text with
    | some s, some t => .ok { type := .str, text := some (s ++ t) }
    | _, _ => .error .type
  else if !a.type.numeric || !b.type.numeric then .error .type
  else if a.type = .float ∨ b.type = .float then .ok { type := .float }
  else do
    let v ← arith op a.value b.value
    .ok { type := .int, value := v }

/-- Expression.java:1449-1503 `evaluateBitExpression` -/
def bitExpression (op : BinOp) (a b : Result) : Except CompileError Result :=
  match a.type, b.type with
  | .int, .int => do
    let v ← arith op a.value b.value
    .ok { type := .int, value := v }
  | .bitmask c, .bitmask _ =>
    if op = .shl ∨ op = .shr then .error .type
    else do
      let v ← arith op a.value b.value
      .ok { type := .bitmask c, value := v }
  | _, _ => .error .type

/-- Expression.java:1505-1546 `evaluateRelationalExpression` -/
def relational (op : BinOp) (a b : Result) : Except CompileError Result :=
  if !sameKind a.type b.type then .error .type
  else if a.type = .float ∧ op ≠ .lt ∧ op ≠ .gt then .error .type
  else if a.type = .str then .error .type
  else .ok { type := .bool }

/-- Expression.java:611-650: which method evaluates a binary operator; 1548-1561 `evaluateLogicalExpression` -/
def binary (op : BinOp) (a b : Result) : Except CompileError Result :=
  match op with
  | .mul | .div | .mod | .add | .sub => arithmetic op a b
  | .shl | .shr | .band | .bxor | .bor => bitExpression op a b
  | .lt | .le | .gt | .ge | .eq | .ne => relational op a b
  | .land | .lor => if a.type = .bool ∧ b.type = .bool then .ok { type := .bool } else .error .type

/-- Expression.java:1563-1610 `evaluateConditionalExpression`: the value is not known, even if the operands are literals
(ExpressionIntegerValue.java:391-405 `conditional` keeps only the bounds) -/
def conditional (c a b : Result) : Except CompileError Result :=
  if c.type ≠ .bool then .error .type
  else if a.type ≠ b.type then .error .type
  else .ok { type := a.type }

/-- Expression.java:1940-1949 `stripStringLiteral` -/
def stripStringLiteral (literal : PyStr) : PyStr :=
  let s := if ch! '"' ∈ literal then (literal.dropWhile (· ≠ ch! '"')).drop 1 else literal
  if ch! '"' ∈ s then ((s.reverse.dropWhile (· ≠ ch! '"')).drop 1).reverse else s

/-- Expression.java:1251-1297 `evaluateLengthOfOperator` for texts: the number of bytes of the text between the quotation marks as it
is written, escape sequences included -/
def lengthOf (r : Result) : Except CompileError Result :=
  match r.type with
  | .str =>
    match r.text with
    | some s =>
      match utf8Encode s with
      | .ok bs => .ok { type := .int, value := some (bs.length : Int) }
      | .error _ => .error .type
    | none => .ok { type := .int }
  | .bytes => .ok { type := .int }
  | _ => .error .type

/-- Expression.java:1299-1312 `evaluateValueOfOperator` -/
def valueOf (r : Result) : Except CompileError Result :=
  match r.type with
  | .enum _ | .bitmask _ => .ok { type := .int, value := r.value }
  | _ => .error .type

/-- Expression.java:1314-1324 `evaluateNumBitsOperator` -/
def numBitsOf (r : Result) : Except CompileError Result :=
  if r.type = .int then .ok { type := .int, value := r.value.map getNumBits } else .error .type

/-- Expression.java:1225-1249 `evaluateIsSetOperator` -/
def isSetOf (a b : Result) : Except CompileError Result :=
  match a.type, b.type with
  | .bitmask c, .bitmask c' => if c = c' then .ok { type := .bool } else .error .type
  | _, _ => .error .type

/-- An item of an enumeration or a value of a bitmask: EnumItem.java:17-32, BitmaskValue.java:12-27 -/
structure ItemDecl where
  name : PyStr
  expr : Option Expression.Expr
  deprecated : Bool := false
  removed : Bool := false
  deriving DecidableEq, Repr

/-- A declaration which takes part in the evaluation: Constant.java, EnumType.java, BitmaskType.java.  Types of constants are given
as the type of their values, with the underlying type for integers. -/
inductive Decl where
  | const (type : Ty) (kind : Option IntKind) (e : Expression.Expr)
  | enum (kind : IntKind) (items : List ItemDecl)
  | bitmask (kind : IntKind) (items : List ItemDecl)

/-- What a name refers to: a constant, or an item of an enumeration or value of a bitmask. -/
inductive Ref where
  | const (decl : Nat)
  | item (decl index : Nat)
  deriving DecidableEq, Repr

/-- the declarations of a schema and what its names refer to -/
structure Schema where
  decls : List Decl
  symbol : Nat → Option Ref

/-- the result of the evaluation of a declaration: the value expression of a constant, the values of the items -/
inductive Evaluated where
  | const (r : Result)
  | items (values : List Int)
  deriving DecidableEq, Repr

/-- what has been evaluated so far -/
abbrev Table := List (Nat × Evaluated)

/-- the entry of a declaration -/
def Table.find (t : Table) (d : Nat) : Option Evaluated := t.lookup d

/-- computations of the compiler -/
abbrev K := StateT Table (Except CompileError)

/-- an error or a value -/
def liftK {α : Type} (x : Except CompileError α) : K α := fun t =>
  match x with
  | .ok a => .ok (a, t)
  | .error e => .error e

/-- The evaluation of an expression, Expression.java:543-711 with ZserioAstEvaluator.java:127-157: the operands first.  `lookup` is the
evaluation of a name. -/
def evaluateExpr (lookup : Nat → K Result) : Expression.Expr → K Result
  | .intLit b digits => liftK (.ok { type := .int, value := some (b.value digits : Int) })
  | .floatLit _ => liftK (.ok { type := .float })
  | .strLit text => liftK (.ok { type := .str, text := some (stripStringLiteral text) })
  | .boolLit _ => liftK (.ok { type := .bool })
  | .index => liftK (.ok { type := .int })
  | .symbol id => lookup id
  | .paren e => evaluateExpr lookup e
  | .call e => do
    let _ ← evaluateExpr lookup e
    liftK (.error .type)
  | .element e i => do
    let _ ← evaluateExpr lookup e
    let _ ← evaluateExpr lookup i
    liftK (.error .type)
  | .member e _ => do
    let _ ← evaluateExpr lookup e
    liftK (.error .type)
  | .isset a b => do
    let a ← evaluateExpr lookup a
    let b ← evaluateExpr lookup b
    liftK (isSetOf a b)
  | .lengthof e => do
    let r ← evaluateExpr lookup e
    liftK (lengthOf r)
  | .valueof e => do
    let r ← evaluateExpr lookup e
    liftK (valueOf r)
  | .numbits e => do
    let r ← evaluateExpr lookup e
    liftK (numBitsOf r)
  | .unary op e => do
    let r ← evaluateExpr lookup e
    liftK (unary op r)
  | .binary op a b => do
    let a ← evaluateExpr lookup a
    let b ← evaluateExpr lookup b
    liftK (binary op a b)
  | .cond c a b => do
    let c ← evaluateExpr lookup c
    let a ← evaluateExpr lookup a
    let b ← evaluateExpr lookup b
    liftK (conditional c a b)

/-- EnumItem.java:112-125 `evaluate` with the use of the value in EnumType.java:120; BitmaskValue.java:88-104 `evaluate` -/
def explicitValue (isBitmask : Bool) (r : Result) : Except CompileError Int :=
  if r.type ≠ .int then .error .type
  else
    match r.value with
    | none => .error .null
    | some v => if isBitmask ∧ v < 0 then .error .negative else .ok v

/-- ZserioAstEvaluator.java:79-84 `visitEnumItem`, 102-109 `visitBitmaskValue` -/
def visitItem (lookup : Nat → K Result) (isBitmask : Bool) (i : ItemDecl) : K (Option Int) :=
  match i.expr with
  | none => liftK (.ok none)
  | some e => do
    let r ← evaluateExpr lookup e
    let v ← liftK (explicitValue isBitmask r)
    liftK (.ok (some v))

/-- The visit of the items: EnumType.java:42-50 `visitChildren`, BitmaskType.java -/
def visitItems (lookup : Nat → K Result) (isBitmask : Bool) : List ItemDecl → K (List (Option Int))
  | [] => liftK (.ok [])
  | i :: is => do
    let v ← visitItem lookup isBitmask i
    let vs ← visitItems lookup isBitmask is
    liftK (.ok (v :: vs))

/-- The loop of EnumType.java:112-121 `evaluate` -/
def enumValues (default : Int) : List (Option Int) → List Int
  | [] => []
  | v :: vs =>
    let v := v.getD default
    v :: enumValues (v + 1) vs

/-- The loop of BitmaskType.java:132-139 `getNextValue`: `while (!(lastValue = lastValue.shiftRight(1)).equals(ZERO)) n++` for the
number of shifts, with values which are not negative -/
def shifts (x : Nat) : Nat := if h : x / 2 = 0 then 0 else shifts (x / 2) + 1
termination_by x
decreasing_by omega

/-- BitmaskType.java:132-139 `getNextValue` -/
def getNextValue (x : Int) : Int := 2 ^ (shifts x.toNat + 1)

/-- The loop of BitmaskType.java:112-120 `evaluate` -/
def bitmaskValues (default : Int) : List (Option Int) → List Int
  | [] => []
  | v :: vs =>
    let v := v.getD default
    v :: bitmaskValues (getNextValue v) vs

/-- signed types, IntegerType.java `isSigned` -/
def isSigned : IntKind → Bool
  | .bitField _ => false
  | .signedBitField _ => true
  | .var .varint16 | .var .varint32 | .var .varint64 | .var .varint => true
  | .var _ => false

/-- The evaluation of a declaration: ZserioAstEvaluator.java:72-99 `visitEnumType`, `visitBitmaskType`, and the walk through constants.
A bitmask needs an unsigned type (BitmaskType.java:103-109). -/
def Decl.evaluate (lookup : Nat → K Result) : Decl → K Evaluated
  | .const _ _ e => do
    let r ← evaluateExpr lookup e
    liftK (.ok (.const r))
  | .enum _ items => do
    let vs ← visitItems lookup false items
    liftK (.ok (.items (enumValues 0 vs)))
  | .bitmask kind items => do
    let vs ← visitItems lookup true items
    if isSigned kind then liftK (.error .type)
    else liftK (.ok (.items (bitmaskValues 1 vs)))

/-- the type of the items of a declaration -/
def Decl.itemType (d : Nat) : Decl → Option Ty
  | .const _ _ _ => none
  | .enum _ _ => some (.enum d)
  | .bitmask _ _ => some (.bitmask d)

/-- The evaluated declaration as an operand.  A constant has its declared type and the value of its expression
(Expression.java:1734-1746 `evaluateConstant`), an item its type and value (Expression.java:1762-1790). -/
def operand (S : Schema) (t : Table) : Ref → Except CompileError Result
  | .const d =>
    match S.decls[d]?, t.find d with
    | some (.const type _ _), some (.const r) => .ok { type := type, value := r.value, text := r.text }
    | _, _ => .error .unresolved
  | .item d i =>
    match S.decls[d]?.bind (Decl.itemType d), t.find d with
    | some type, some (.items vs) =>
      match vs[i]? with
      | some v => .ok { type := type, value := some v }
      | none => .error .unresolved
    | _, _ => .error .unresolved

/-- the declaration a name refers to -/
def Ref.decl : Ref → Nat
  | .const d => d
  | .item d _ => d

/-- The evaluation of a declaration, unless it has been evaluated (`isEvaluated`, `EvaluationState.EVALUATED`); `busy` are the
declarations one of whose expressions is in evaluation (`EvaluationState.IN_EVALUATION`, Expression.java:562-571).  A name makes the
declaration it refers to be evaluated first: Expression.java:1618-1790 `evaluateIdentifier`, `evaluateEnumDotExpression`,
`evaluateBitmaskDotExpression`, `evaluateConstant`, `evaluateExpressionType`. -/
def evaluateDecl (S : Schema) : Nat → List Nat → Nat → K Unit
  | 0, _, _ => liftK (.error .depth)
  | n + 1, busy, d => fun t =>
    if (t.find d).isSome then .ok ((), t)
    else if d ∈ busy then .error .cyclic
    else
      match S.decls[d]? with
      | none => .error .unresolved
      | some decl => do
        let lookup : Nat → K Result := fun id t => do
          match S.symbol id with
          | none => .error .unresolved
          | some ref => do
            let ((), t) ← evaluateDecl S n (d :: busy) ref.decl t
            let r ← operand S t ref
            .ok (r, t)
        let (v, t) ← Decl.evaluate lookup decl t
        .ok ((), (d, v) :: t)

/-- the declarations are visited in the given order -/
def evaluateAll (S : Schema) : List Nat → Table → Except CompileError Table
  | [], t => .ok t
  | d :: ds, t => do
    let ((), t) ← evaluateDecl S (S.decls.length + 1) [] d t
    evaluateAll S ds t

/-- the bounds of integer types: IntegerType.java `getLowerBound`, `getUpperBound` with an instantiation -/
def lowerBound (k : IntKind) : Int := (BitmaskDef.mk k []).lowerBound

/-- see `lowerBound` -/
def upperBound (k : IntKind) : Int := (BitmaskDef.mk k []).upperBound

/-- EnumType.java:137-172 `checkEnumerationItems`, BitmaskType.java:142-178 `checkBitmaskValues`: no value twice, all within the bounds.
(The types of the expressions have been checked by `explicitValue`.) -/
def checkItems (k : IntKind) (seen : List Int) : List Int → Except CompileError Unit
  | [] => .ok ()
  | v :: vs =>
    if v ∈ seen then .error .duplicate
    else if v < lowerBound k ∨ v > upperBound k then .error .range
    else checkItems k (v :: seen) vs

/-- ExpressionUtil.java:93-165 `checkExpressionType` -/
def checkType (declared : Ty) (r : Result) : Bool :=
  match declared with
  | .float => r.type.numeric
  | t => decide (t = r.type)

/-- Constant.java:81-97 `check` -/
def checkConst (type : Ty) (kind : Option IntKind) (r : Result) : Except CompileError Unit :=
  if !checkType type r then .error .type
  else
    match type, kind, r.value with
    | .int, some k, some v => if v < lowerBound k ∨ v > upperBound k then .error .range else .ok ()
    | _, _, _ => .ok ()

/-- the check of one declaration, ZserioAstChecker.java -/
def checkDecl : Decl → Evaluated → Except CompileError Unit
  | .const type kind _, .const r => checkConst type kind r
  | .enum kind _, .items vs => checkItems kind [] vs
  | .bitmask kind _, .items vs => checkItems kind [] vs
  | _, _ => .error .unresolved

/-- the check of the declarations in the given order -/
def checkAll (S : Schema) (t : Table) : List Nat → Except CompileError Unit
  | [] => .ok ()
  | d :: ds =>
    match S.decls[d]?, t.find d with
    | some decl, some v => do
      checkDecl decl v
      checkAll S t ds
    | _, _ => .error .unresolved

/-- The phases of the compiler which deal with values: all declarations are evaluated, then all are checked.  `order` is the order in
which the compiler comes to the declarations, which depends on the order of packages and of declarations in them. -/
def compile (S : Schema) (order : List Nat) : Except CompileError Table := do
  let t ← evaluateAll S order []
  checkAll S t order
  .ok t

/-- The class generated for an enumeration: EnumerationEmitterTemplateData.java:40-120, Enumeration.py.ftl:16-21.  The names of items
in Python are not modelled here. -/
def enumClass (kind : IntKind) (items : List ItemDecl) (values : List Int) : EnumClass where
  underlying := kind
  items := items.zipWith (fun i v => ⟨i.name, v, i.deprecated, i.removed⟩) values

/-- The class generated for a bitmask: BitmaskEmitterTemplateData.java, Bitmask.py.ftl:331-338 -/
def bitmaskDef (kind : IntKind) (items : List ItemDecl) (values : List Int) : BitmaskDef where
  underlying := kind
  values := items.zipWith (fun i v => (i.name, v)) values

end Zserio.ConstEval
