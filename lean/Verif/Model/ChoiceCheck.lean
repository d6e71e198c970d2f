import Verif.Model.Compound
/-
Choices: what the compiler checks (ChoiceType.java) and the `if` statements that are generated for them (Choice.py.ftl:22-46).

Expressions of cases are given by what the compiler and the generated code see of them.
-/
namespace Zserio.ChoiceCheck

/-- Expression.ExpressionType, with the declaration of enumerations and bitmasks -/
inductive ExprType where
  | integer
  | boolean
  | enum (id : Nat)
  | bitmask (id : Nat)
  | other
  deriving DecidableEq

/-- An expression of a case: its type; whether it refers to parameters; the enumerations and bitmasks of the items it refers to
(`getReferencedSymbolObjects`); its value if the compiler computes one (`getIntegerValue`); the text ExpressionComparator compares
(ExpressionComparator.java:47-65); the value of the generated expression (`False` is 0, `True` is 1, an enumeration item and a
bitmask are their value). -/
structure CaseExpr where
  type : ExprType
  usesParameters : Bool := false
  items : List Nat := []
  integer : Option Int
  text : PyStr
  value : Int

/-- `case e1: case e2: field;` -/
structure CaseDecl where
  exprs : List CaseExpr
  field : Option FieldDef

/-- a choice; `default` is missing, or empty, or has a field -/
structure ChoiceDecl where
  selector : ExprType
  cases : List CaseDecl
  default : Option (Option FieldDef)

/-- why a choice is refused -/
inductive Refusal where
  | unreachableDefault
  | selectorType
  | caseType
  | caseNotConstant
  | otherType
  | duplicate
  deriving DecidableEq

/-- all expressions, in the order of the cases -/
def allExprs (d : ChoiceDecl) : List CaseExpr := d.cases.flatMap (·.exprs)

/-- ChoiceType.checkUnreachableDefault (ChoiceType.java:273-287), getNumCases (289-296) -/
def checkUnreachableDefault (d : ChoiceDecl) : Except Refusal Bool :=
  if d.selector = .boolean ∧ (allExprs d).length > 1 then
    if d.default.isSome then .error .unreachableDefault else .ok true
  else .ok false

/-- ChoiceType.checkSelectorExpression (ChoiceType.java:298-310) -/
def checkSelector (d : ChoiceDecl) : Except Refusal Unit :=
  if d.selector = .other then .error .selectorType else .ok ()

/-- the same kind of expression -/
def sameKind : ExprType → ExprType → Bool
  | .integer, .integer => true
  | .boolean, .boolean => true
  | .enum _, .enum _ => true
  | .bitmask _, .bitmask _ => true
  | .other, .other => true
  | _, _ => false

/-- ChoiceType.checkCaseTypes (ChoiceType.java:312-331), one expression -/
def checkCaseType (selector : ExprType) (e : CaseExpr) : Except Refusal Unit :=
  if !sameKind e.type selector then .error .caseType
  else if e.usesParameters then .error .caseNotConstant else .ok ()

/-- ChoiceType.checkEnumerationCases (ChoiceType.java:361-400) and checkBitmaskCases (402-429), one expression; the warnings are
not modelled -/
def checkItems (selector : ExprType) (e : CaseExpr) : Except Refusal Unit :=
  match selector with
  | .enum id => if e.items.all (· = id) then .ok () else .error .otherType
  | .bitmask id => if e.items.all (· = id) then .ok () else .error .otherType
  | _ => .ok ()

/-- the comparison of ChoiceType.checkDuplicatedCases (ChoiceType.java:344-348) -/
def equals (new old : CaseExpr) : Bool :=
  match new.integer with
  | some v => old.integer = some v
  | none => new.text = old.text

/-- ChoiceType.checkDuplicatedCases (ChoiceType.java:333-359) -/
def checkDuplicated : List CaseExpr → List CaseExpr → Except Refusal Unit
  | _, [] => .ok ()
  | seen, e :: es => if seen.any (equals e ·) then .error .duplicate else checkDuplicated (seen ++ [e]) es

/-- a loop over all expressions -/
def forExprs (check : CaseExpr → Except Refusal Unit) : List CaseExpr → Except Refusal Unit
  | [] => .ok ()
  | e :: es => match check e with
    | .error r => .error r
    | .ok () => forExprs check es

/-- ChoiceType.check (ChoiceType.java:190-207), the checks of the cases.  The result is `isChoiceDefaultUnreachable`. -/
def check (d : ChoiceDecl) : Except Refusal Bool := do
  let unreachable ← checkUnreachableDefault d
  checkSelector d
  forExprs (checkCaseType d.selector) (allExprs d)
  forExprs (checkItems d.selector) (allExprs d)
  checkDuplicated [] (allExprs d)
  .ok unreachable

/-! ### Generated code -/

/-- what a branch does: the action of a member (with or without a field), or `choice_no_match` -/
inductive Action where
  | member (f : Option FieldDef)
  | noMatch

/-- the clauses of an `if` statement, or a statement that is not inside of one -/
inductive Clause where
  | ifIn (values : List Int) (a : Action)
  | elifIn (values : List Int) (a : Action)
  | otherwise (a : Action)
  | plain (a : Action)

/-- the list of cases, Choice.py.ftl:28-34; `first`: `caseMember?is_first` -/
def caseClauses (unreachable : Bool) : Bool → List CaseDecl → List Clause
  | _, [] => []
  | first, k :: ks =>
    (if !ks.isEmpty || !unreachable then
      if first then .ifIn (k.exprs.map (·.value)) (.member k.field) else .elifIn (k.exprs.map (·.value)) (.member k.field)
    else .otherwise (.member k.field)) :: caseClauses unreachable false ks

/-- `choice_if`, Choice.py.ftl:22-46 -/
def clauses (unreachable : Bool) (d : ChoiceDecl) : List Clause :=
  caseClauses unreachable true d.cases ++
    if unreachable then []
    else
      let a : Action := match d.default with
        | some f => .member f
        | none => .noMatch
      [if d.cases.isEmpty then .plain a else .otherwise a]

/-- the rest of an `if` statement: `elif` clauses and at most one `else` -/
def restParses : List Clause → Bool
  | [] => true
  | [.otherwise _] => true
  | .elifIn _ _ :: cs => restParses cs
  | _ => false

/-- Python accepts the clauses: they are one `if` statement or one plain statement -/
def parses : List Clause → Bool
  | [.plain _] => true
  | .ifIn _ _ :: cs => restParses cs
  | _ => false

/-- the branch that is executed for a value of the selector; none if there is no `else` -/
def execute : List Clause → Int → Option Action
  | [], _ => none
  | .ifIn vs a :: cs, s => if s ∈ vs then some a else execute cs s
  | .elifIn vs a :: cs, s => if s ∈ vs then some a else execute cs s
  | .otherwise a :: _, _ => some a
  | .plain a :: _, _ => some a

end Zserio.ChoiceCheck
