import Verif.Spec.TypeCheck
import Verif.Model.ExprBounds
/-
The checks of the expressions which a field has: its alignment, its default value, its condition and its constraint, the length of an
array, the number of bits of a bit field and the arguments of a parameterized type (compiler/core/src/zserio/ast: Field.java,
ExpressionUtil.java, TypeInstantiation.java, ParameterizedTypeInstantiation.java, DynamicBitFieldInstantiation.java,
ArrayInstantiation.java, ZserioParseTreeChecker.java).

Simplified: names are resolved already, subtypes are replaced by the types they stand for.  Fields which are used as offsets
(`checkOffsetFields`, `checkOffsetExpression`) are the subject of property C93, references to optional fields of C98, the other checks of
arrays of C72.  Extern types (which have no default values) and templates, which are checked when they are instantiated, are left out;
so is `explicit`.  What the compiler knows of the values of expressions is modelled for well-typed operands (Model/ExprBounds.lean).
-/
namespace Zserio.FieldCheck

open Zserio.Expression Zserio.TypeCheck
open Zserio.ExprBounds (Known info dynamicKnown)
open Zserio.ConstEval (lowerBound upperBound)

/-- The type of a field, or of its elements if it is an array: TypeInstantiation.java, DynamicBitFieldInstantiation.java,
ParameterizedTypeInstantiation.java -/
inductive FieldType where
  | int (kind : IntKind)
  | bits (signed : Bool) (length : Expression.Expr)
  | float
  | bool
  | str
  | bytes
  | enum (id : Nat)
  | bitmask (id : Nat)
  | compound (id : Nat) (arguments : List Expression.Expr)

/-- `getBaseType` -/
def FieldType.plain : FieldType → Plain
  | .int _ | .bits _ _ => .int
  | .float => .float
  | .bool => .bool
  | .str => .str
  | .bytes => .bytes
  | .enum c => .enum c
  | .bitmask c => .bitmask c
  | .compound c _ => .compound c

/-- Field.java:24-90 with ArrayInstantiation.java; `length` is the expression between the brackets of an array -/
structure Field where
  type : FieldType
  isArray : Bool := false
  length : Option Expression.Expr := none
  alignment : Option Expression.Expr := none
  initializer : Option Expression.Expr := none
  clause : Option Expression.Expr := none
  constraint : Option Expression.Expr := none

/-- the messages -/
inductive Problem where
  | index
  | parameterized
  | notParameterized
  | argumentCount
  | expression
  | bitLength
  | arrayLength
  | alignment
  | wrongType
  | ownerContext
  | range
  | notBoolean
  deriving DecidableEq, Repr

/-- a `ParserException` unless the condition holds -/
def require (p : Problem) (b : Bool) : Except Problem Unit := if b then .ok () else .error p


/-- a check of something which may be missing, `if (… != null)` -/
def ifPresent {α : Type} (f : α → Except Problem Unit) : Option α → Except Problem Unit
  | none => .ok ()
  | some x => f x

/-- the arguments of the type -/
def FieldType.arguments : FieldType → List Expression.Expr
  | .compound _ args => args
  | _ => []

/-- the number of bits of the type -/
def FieldType.length : FieldType → Option Expression.Expr
  | .bits _ l => some l
  | _ => none

/-- Expression.java:508-519 `containsOperand`: `@index` in the expression -/
def containsIndex : Expression.Expr → Bool
  | .index => true
  | .paren e | .call e | .member e _ | .lengthof e | .valueof e | .numbits e | .unary _ e => containsIndex e
  | .element a b | .isset a b | .binary _ a b => containsIndex a || containsIndex b
  | .cond c a b => containsIndex c || containsIndex a || containsIndex b
  | _ => false

/-- ZserioParseTreeChecker.java:417-433 `visitIndexExpression`, 468-483 `visitTypeArgument`, 43-60 `visitStructureFieldDefinition`:
outside of offsets, `@index` can only stand in the arguments of the elements of an array.  (This is a field of a structure; in choices and unions
`@index` is refused everywhere, see Model/ParseCheck.lean.) -/
def checkIndex (f : Field) : Except Problem Unit := do
  require .index (f.isArray || !f.type.arguments.any containsIndex)
  require .index (!(f.type.length.toList ++ f.length.toList ++ f.alignment.toList ++ f.initializer.toList ++ f.clause.toList ++
    f.constraint.toList).any containsIndex)

/-- TypeInstantiation.java:95-116 `resolve`, ParameterizedTypeInstantiation.java:116-150 `resolve`: a type which has parameters is used
with as many arguments -/
def resolve (params : Nat → List Plain) : FieldType → Except Problem Unit
  | .compound c [] => require .parameterized (params c).isEmpty
  | .compound c (arg :: args) => do
    require .notParameterized (!(params c).isEmpty)
    require .argumentCount (decide ((arg :: args).length = (params c).length))
  | _ => .ok ()

/-- The evaluation of an expression, Expression.java:543-711: its type, and what is known of its value -/
def evaluate (D : Decls) (N : ExprBounds.Names) (e : Expression.Expr) : Except Problem (Attr × Known) :=
  match TypeCheck.check D e, info D.signature N e with
  | .ok a, .ok i => .ok (a, i.known)
  | _, _ => .error .expression

/-- DynamicBitFieldInstantiation.java:107-167 `evaluate`: the bounds of a bit field -/
def evaluateBits (D : Decls) (N : ExprBounds.Names) (signed : Bool) (l : Expression.Expr) : Except Problem Known := do
  let (a, k) ← evaluate D N l
  require .bitLength (decide (a.kind = .integer))
  match dynamicKnown signed k with
  | .ok b => .ok b
  | .error _ => .error .bitLength

/-- IntegerType.java:52-73 `getUpperBound`, `getLowerBound`: the bounds of the type, none if it is not an integer type -/
def bounds (D : Decls) (N : ExprBounds.Names) : FieldType → Except Problem (Option Known)
  | .int k => .ok (some (.range (lowerBound k) (upperBound k)))
  | .bits signed l => do
    let b ← evaluateBits D N signed l
    .ok (some b)
  | _ => .ok none

/-- ExpressionUtil.java:93-165 `checkExpressionType`, 167-176 `checkUserTypes`; the type is none for an array -/
def checkExpressionType (a : Attr) : Option Plain → Bool
  | none => false
  | some .int => a.kind = .integer
  | some .float => a.kind = .float || a.kind = .integer
  | some .str => a.kind = .string
  | some .bool => a.kind = .boolean
  | some (.enum c) => a.kind = .enumeration && a.ztype = some (.plain (.enum c))
  | some (.bitmask c) => a.kind = .bitmask && a.ztype = some (.plain (.bitmask c))
  | some (.compound c) => a.kind = .compound && a.ztype = some (.plain (.compound c))
  | some .bytes => a.kind = .bytes

/-- ExpressionUtil.java:47-68 `checkIntegerExpressionRange` -/
def inRange (b : Option Known) (k : Known) : Bool :=
  match b with
  | none => true
  | some b =>
    match k.value, b.lower, b.upper with
    | some v, some l, some u => !(v < l || v > u)
    | _, _, _ => true

/-- a field, a parameter or a function -/
def isOwned : Decl → Bool
  | .field _ | .arrayField _ | .param _ | .function _ _ => true
  | _ => false

/-- Expression.java:481-496 `requiresOwnerContext`: one of the symbols in the expression is a field, a parameter or a function -/
def requiresOwnerContext (D : Decls) : Expression.Expr → Bool
  | .symbol id => (D.symbol id).any isOwned
  | .member e id => requiresOwnerContext D e ||
      match TypeCheck.check D e with
      | .ok a =>
        match a.ztype with
        | some (.plain (.compound c)) => (D.member c id).any isOwned
        | _ => false
      | .error _ => false
  | .paren e | .call e | .lengthof e | .valueof e | .numbits e | .unary _ e => requiresOwnerContext D e
  | .element a b | .isset a b | .binary _ a b => requiresOwnerContext D a || requiresOwnerContext D b
  | .cond c a b => requiresOwnerContext D c || requiresOwnerContext D a || requiresOwnerContext D b
  | _ => false

/-- ParameterizedTypeInstantiation.java:169-187 `check`: the arguments and the parameters -/
def checkArguments (D : Decls) (N : ExprBounds.Names) : List Expression.Expr → List Plain → Except Problem Unit
  | e :: es, p :: ps => do
    let (a, _) ← evaluate D N e
    require .wrongType (checkExpressionType a (some p))
    checkArguments D N es ps
  | _, _ => .ok ()

/-- DynamicBitFieldInstantiation.java:107-167, ParameterizedTypeInstantiation.java:169-187 -/
def checkType (D : Decls) (N : ExprBounds.Names) (params : Nat → List Plain) : FieldType → Except Problem Unit
  | .bits signed l => do
    let _ ← evaluateBits D N signed l
    .ok ()
  | .compound c args => checkArguments D N args (params c)
  | _ => .ok ()

/-- ArrayInstantiation.java:160-170 `check` -/
def checkLength (D : Decls) (N : ExprBounds.Names) (e : Expression.Expr) : Except Problem Unit := do
  let (a, _) ← evaluate D N e
  require .arrayLength (decide (a.kind = .integer))

/-- Field.java:261-274 `check`: the alignment.  Only the number is looked at, not the type. -/
def checkAlignment (D : Decls) (N : ExprBounds.Names) (e : Expression.Expr) : Except Problem Unit := do
  let (_, k) ← evaluate D N e
  match k.value with
  | none => .error .alignment
  | some v => do
    require .alignment (!(v < 0))
    require .alignment (!(v > 2 ^ 31 - 1))

/-- Field.java:276-289 `check`: the default value -/
def checkInitializer (D : Decls) (N : ExprBounds.Names) (f : Field) (e : Expression.Expr) : Except Problem Unit := do
  let (a, k) ← evaluate D N e
  require .wrongType (checkExpressionType a (if f.isArray then none else some f.type.plain))
  require .ownerContext (!requiresOwnerContext D e)
  let b ← bounds D N f.type
  require .range (inRange b k)

/-- Field.java:291-309 `check`: the condition and the constraint -/
def checkBoolean (D : Decls) (N : ExprBounds.Names) (e : Expression.Expr) : Except Problem Unit := do
  let (a, _) ← evaluate D N e
  require .notBoolean (decide (a.kind = .boolean))

/-- All checks of a field, in the order of the phases of the compiler: ZserioParseTreeChecker, ZserioAstTypeResolver.java
`visitTypeInstantiation`, ZserioAstEvaluator.java:101-105, 168-172, ZserioAstChecker.java:233-238, 292-296.  `params` are the types of
the parameters of compounds. -/
def check (D : Decls) (N : ExprBounds.Names) (params : Nat → List Plain) (f : Field) : Except Problem Unit := do
  checkIndex f
  resolve params f.type
  checkType D N params f.type
  ifPresent (checkLength D N) f.length
  ifPresent (checkAlignment D N) f.alignment
  ifPresent (checkInitializer D N f) f.initializer
  ifPresent (checkBoolean D N) f.clause
  ifPresent (checkBoolean D N) f.constraint

end Zserio.FieldCheck
