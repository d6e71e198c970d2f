import Verif.Model.ExprParse
/-
The checks on parse trees: ZserioParseTreeChecker.java, a visitor with flags.  Expressions are the trees of Model/ExprParse.lean.

Left out: the encoding of the file (`checkUtf8Encoding`, `checkNonPrintableCharacters`), and `IdentifierValidator`, which depends only on the
identifier and is modelled in Model/ClashCheckers.lean.
-/
namespace Zserio.ParseCheck
open Zserio.ExprParse (Tree Token)

/-- Why a tree is refused -/
inductive Problem where
  | forbiddenInOffset | implicitIndexed | indexNotAllowed | indexTwice
  | optionalWithClause | implicitDeprecated | implicitNoArray | implicitLength | packedNoArray | packedImplicit
  | virtualWithoutRowId | explicitNotAllowed
  deriving DecidableEq, Repr

/-- ZserioParseTreeChecker.java:563-572: the flags of the visitor -/
structure Flags where
  arrayField : Bool := false
  implicitField : Bool := false
  indexAllowed : Bool := false
  offset : Bool := false
  offsetArray : Bool := false
  indexUsed : Bool := false
  sqlField : Bool := false
  deriving DecidableEq, Repr

/-- a check which does not change the flags -/
def refuseIf (b : Bool) (p : Problem) (s : Flags) : Except Problem Flags := if b then .error p else .ok s

/-- ZserioParseTreeChecker.java:417-444 `visitIndexExpression` -/
def visitIndex (s : Flags) : Except Problem Flags :=
  if !s.indexAllowed then
    if s.implicitField then .error .implicitIndexed else .error .indexNotAllowed
  else if s.offset then
    if s.indexUsed then .error .indexTwice else .ok { s with indexUsed := true }
  else .ok s

/-- ZserioParseTreeChecker.java:149-466: `visit` of an expression, in the order of the children -/
def visitExpr (s : Flags) : Tree → Except Problem Flags
  | .paren _ e _ => do visitExpr (← refuseIf s.offset .forbiddenInOffset s) e
  | .call e _ _ => do visitExpr (← refuseIf s.offset .forbiddenInOffset s) e
  | .array e _ i _ => do
    let s ← refuseIf s.offsetArray .forbiddenInOffset s
    let s ← visitExpr s e
    let s := if s.offset then { s with indexAllowed := if s.arrayField && !s.implicitField then true else s.indexAllowed, offsetArray := true } else s
    let s ← visitExpr s i
    return if s.offset then { s with indexAllowed := false, offsetArray := false } else s
  | .dot e _ _ => do
    let s ← refuseIf s.offsetArray .forbiddenInOffset s
    let s ← visitExpr s e
    refuseIf s.offsetArray .forbiddenInOffset s
  | .isset _ _ a _ b _ => do visitExpr (← visitExpr (← refuseIf s.offset .forbiddenInOffset s) a) b
  | .function _ _ e _ => do visitExpr (← refuseIf s.offset .forbiddenInOffset s) e
  | .unary _ e => do visitExpr (← refuseIf s.offset .forbiddenInOffset s) e
  | .binary a _ b => do visitExpr (← visitExpr (← refuseIf s.offset .forbiddenInOffset s) a) b
  | .rshift a _ _ b => do visitExpr (← visitExpr (← refuseIf s.offset .forbiddenInOffset s) a) b
  | .ternary a _ b _ c => do visitExpr (← visitExpr (← visitExpr (← refuseIf s.offset .forbiddenInOffset s) a) b) c
  | .atom t =>
    match t.kind with
    | .index => visitIndex s
    | .lit _ => refuseIf s.offset .forbiddenInOffset s
    | _ => refuseIf s.offsetArray .forbiddenInOffset s

/-- the children of a node which may be there or not -/
def visitOpt (s : Flags) : Option Tree → Except Problem Flags
  | none => .ok s
  | some e => visitExpr s e

/-- ZserioParser.g4:422-425 `typeArgument` -/
inductive Argument where
  | explicit
  | expr (e : Tree)
  deriving DecidableEq

/-- ZserioParser.g4:386-388 `typeInstantiation`: arguments or the length of a bit field.  (Names are left out.) -/
structure TypeUse where
  arguments : List Argument := []
  length : Option Tree := none
  deriving DecidableEq

/-- ZserioParseTreeChecker.java:468-483 `visitTypeArgument` -/
def visitArgument (s : Flags) (a : Argument) : Except Problem Flags := do
  let s ← refuseIf (a = .explicit && !s.sqlField) .explicitNotAllowed s
  let s := if s.arrayField then { s with indexAllowed := true } else s
  let s ← match a with
    | .explicit => .ok s
    | .expr e => visitExpr s e
  return { s with indexAllowed := false }

/-- the arguments from left to right -/
def visitArguments (s : Flags) : List Argument → Except Problem Flags
  | [] => .ok s
  | a :: rest => do visitArguments (← visitArgument s a) rest

/-- `visitChildren` of `typeInstantiation` -/
def visitType (s : Flags) (t : TypeUse) : Except Problem Flags := do visitOpt (← visitArguments s t.arguments) t.length

/-- ZserioParser.g4:117-123 `fieldTypeId`; `range`: none without brackets, `some none` for empty brackets -/
structure TypeId where
  packed : Bool := false
  implicit : Bool := false
  type : TypeUse
  range : Option (Option Tree) := none
  deriving DecidableEq

/-- ZserioParseTreeChecker.java:76-121 `visitFieldTypeId` -/
def visitTypeId (allowImplicit : Bool) (s : Flags) (t : TypeId) : Except Problem Flags := do
  let s ← refuseIf (t.implicit && !allowImplicit) .implicitDeprecated s
  let s ← refuseIf (t.implicit && t.range.isNone) .implicitNoArray s
  let s ← refuseIf (t.implicit && t.range.join.isSome) .implicitLength s
  let s ← refuseIf (t.packed && t.range.isNone) .packedNoArray s
  let s ← refuseIf (t.packed && t.implicit) .packedImplicit s
  let s ← visitType s t.type
  visitOpt s t.range.join

/-- ZserioParser.g4:96-107 `structureFieldDefinition` -/
structure StructField where
  alignment : Option Tree := none
  offset : Option Tree := none
  optional : Bool := false
  typeId : TypeId
  initializer : Option Tree := none
  clause : Option Tree := none
  constraint : Option Tree := none
  deriving DecidableEq

/-- ZserioParseTreeChecker.java:64-74 `visitFieldOffset` -/
def visitOffset (s : Flags) : Option Tree → Except Problem Flags
  | none => .ok s
  | some e => do
    let s ← visitExpr { s with offset := true } e
    return { s with offset := false, indexUsed := false }

/-- ZserioParseTreeChecker.java:41-62 `visitStructureFieldDefinition` -/
def visitStructField (allowImplicit : Bool) (s : Flags) (f : StructField) : Except Problem Flags := do
  let s ← refuseIf (f.optional && f.clause.isSome) .optionalWithClause s
  let s := if f.typeId.range.isSome then { s with arrayField := true, implicitField := if f.typeId.implicit then true else s.implicitField } else s
  let s ← visitOpt s f.alignment
  let s ← visitOffset s f.offset
  let s ← visitTypeId allowImplicit s f.typeId
  let s ← visitOpt s f.initializer
  let s ← visitOpt s f.clause
  let s ← visitOpt s f.constraint
  return { s with arrayField := false, implicitField := false }

/-- ZserioParser.g4:162-164 `choiceFieldDefinition`: a field of a choice or a union -/
structure BranchField where
  typeId : TypeId
  constraint : Option Tree := none
  deriving DecidableEq

/-- `visitChildren` of `choiceFieldDefinition`: there is no method for it -/
def visitBranchField (allowImplicit : Bool) (s : Flags) (f : BranchField) : Except Problem Flags := do
  visitOpt (← visitTypeId allowImplicit s f.typeId) f.constraint

/-- ZserioParser.g4:210-238 `sqlTableDeclaration` -/
structure SqlTable where
  virtual : Bool := false
  withoutRowId : Bool := false
  fields : List (TypeUse × Option Tree) := []
  constraint : Option Tree := none
  deriving DecidableEq

/-- ZserioParseTreeChecker.java:139-147 `visitSqlTableFieldDefinition` -/
def visitSqlField (s : Flags) (f : TypeUse × Option Tree) : Except Problem Flags := do
  let s ← visitType { s with sqlField := true } f.1
  let s ← visitOpt s f.2
  return { s with sqlField := false }

/-- all fields of a table -/
def visitSqlFields (s : Flags) : List (TypeUse × Option Tree) → Except Problem Flags
  | [] => .ok s
  | f :: rest => do visitSqlFields (← visitSqlField s f) rest

/-- ZserioParseTreeChecker.java:123-137 `visitSqlTableDeclaration` -/
def visitSqlTable (s : Flags) (t : SqlTable) : Except Problem Flags := do
  let s ← refuseIf (t.virtual && t.withoutRowId) .virtualWithoutRowId s
  visitOpt (← visitSqlFields s t.fields) t.constraint

/-- What the checks of a file depend on, in the order of the file: fields, tables, types in other places (constants, enumerations, bitmasks,
databases) and expressions in other places (values, cases, functions, selectors, topics, rules). -/
inductive Item where
  | structField (f : StructField)
  | branchField (f : BranchField)
  | sqlTable (t : SqlTable)
  | type (t : TypeUse)
  | expr (e : Tree)
  deriving DecidableEq

/-- one of them -/
def visitItem (allowImplicit : Bool) (s : Flags) : Item → Except Problem Flags
  | .structField f => visitStructField allowImplicit s f
  | .branchField f => visitBranchField allowImplicit s f
  | .sqlTable t => visitSqlTable s t
  | .type t => visitType s t
  | .expr e => visitExpr s e

/-- ZserioParseTreeChecker.java:31-39 `visitPackageDeclaration`: the whole file; all flags are false in the beginning -/
def visitItems (allowImplicit : Bool) (s : Flags) : List Item → Except Problem Flags
  | [] => .ok s
  | i :: rest => do visitItems allowImplicit (← visitItem allowImplicit s i) rest

/-- whether a file passes the checks -/
def check (allowImplicit : Bool) (items : List Item) : Except Problem Unit :=
  match visitItems allowImplicit {} items with
  | .error p => .error p
  | .ok _ => .ok ()

end Zserio.ParseCheck
