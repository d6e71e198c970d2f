import Verif.Model.PyInt
/-
Which names the expressions of a compound type can use, and which fields and functions they mean: ZserioAstScopeSetter.java, Scope.java,
the identifiers and function calls of Expression.java and ZserioAstEvaluator.java in compiler/core/src/zserio/ast.

Only names are modelled: types and values of expressions are not.  A qualified name (with dots) is an operator on its first identifier,
if that is a field or a parameter, and a literal otherwise.  Calls of functions of other compound types (`field.f()`) do not depend on
the scope and are operators on their first identifier as well; calls on a field of the compound type itself are left out.
-/
namespace Zserio.Scopes

/-- an identifier: its characters -/
abbrev Name := List Nat

/-- What the names in a scope are: Parameter.java (and TemplateParameter.java), Field.java, Function.java -/
inductive Kind where
  | param
  | field
  | func
  deriving DecidableEq

/-- What an identifier in an expression has been resolved to (`symbolObject`): a name of the scope, an enumeration item or bitmask value
of an additional scope, a symbol of the package; `call` is a function which is called -/
inductive Ref where
  | sym (k : Kind) (n : Name)
  | item (n : Name)
  | package (n : Name)
  | call (n : Name)
  deriving DecidableEq

/-- Why a schema is refused -/
inductive Problem where
  | alreadyDefined
  | unresolved
  | notFunction
  | cyclic
  deriving DecidableEq

/-- Expression.java: what is relevant of an expression.  `op` is any operator (a unary one has a literal as second operand); `items` of
`isset` are the names of the bitmask values of the type of the first operand. -/
inductive Expr where
  | lit
  | id (n : Name)
  | call (n : Name)
  | op (x y : Expr)
  | isset (x : Expr) (items : List Name) (y : Expr)
  deriving DecidableEq

/-- Scope.java:158-165 `symbols`, `additionalScopes`: the names defined in the scope, and the names of the additional scopes, which
belong to enumerations and bitmasks -/
structure Scope where
  symbols : List (Name × Kind)
  items : List Name
  deriving DecidableEq

/-- Scope.java:46-57 `addSymbol` -/
def Scope.add (s : Scope) (n : Name) (k : Kind) : Except Problem Scope :=
  if n ∈ s.symbols.map Prod.fst then .error .alreadyDefined else .ok { s with symbols := s.symbols ++ [(n, k)] }

/-- Scope.java:66-69 `removeSymbol` -/
def Scope.remove (s : Scope) (n : Name) : Scope := { s with symbols := s.symbols.filter (fun p => p.1 ≠ n) }

/-- Scope.java:76-79 `add`, for the scope of an enumeration or a bitmask -/
def Scope.addItems (s : Scope) (items : List Name) : Scope := { s with items := s.items ++ items }

/-- Scope.java:101-116 `findSymbol` -/
def Scope.find (s : Scope) (n : Name) : Option Ref :=
  match s.symbols.find? (fun p => p.1 = n) with
  | some p => some (.sym p.2 n)
  | none => if n ∈ s.items then some (.item n) else none

/-! ### Compound types -/

/-- Field.java:60-95: `before` are the expressions of the type (array length, bit length, arguments), the alignment, the offset, the
initial value and the condition, in this order -/
structure Field where
  name : Name
  before : List Expr
  constraint : Option Expr

/-- ChoiceCase.java, ChoiceDefault.java (without expressions) -/
structure Case where
  exprs : List Expr
  field : Option Field

/-- StructureType.java, UnionType.java, ChoiceType.java; `items` are the names of the items of an enumeration or the values of a bitmask
which is the type of the selector -/
inductive Members where
  | struct (fs : List Field)
  | union (fs : List Field)
  | choice (selector : Expr) (items : List Name) (cs : List Case)

/-- CompoundType.java: `params` are template parameters and parameters -/
structure Compound where
  params : List Name
  members : Members
  funcs : List (Name × Expr)

/-- Where an expression is: for a field (before the field itself is read) or in its constraint, in the selector or a case of a choice, or
the result of a function -/
inductive Role where
  | before (i : Nat)
  | constraint (i : Nat)
  | selector
  | case (i : Nat)
  | body (f : Name)
  deriving DecidableEq

/-- an expression and its scope (`evaluationScope`) -/
structure Slot where
  role : Role
  expr : Expr
  scope : Scope

/-- ZserioAstScopeSetter.java:300-305: the state of the visitor; `slots` is `expressionScopes`, in the order of visits -/
structure Setter where
  current : Scope
  outer : Scope
  slots : List Slot

/-- ZserioAstScopeSetter.java:248-257 `visitExpression`; all parts of an expression get the same scope -/
def Setter.expr (st : Setter) (r : Role) (e : Expr) : Setter := { st with slots := st.slots ++ [⟨r, e, st.current⟩] }

/-- `visitExpression` for a list of expressions -/
def Setter.exprs (st : Setter) (r : Role) (es : List Expr) : Setter := es.foldl (fun st e => st.expr r e) st

/-- ZserioAstScopeSetter.java:27-50 `visitField` -/
def Setter.field (st : Setter) (i : Nat) (f : Field) : Except Problem Setter :=
  let st := st.exprs (.before i) f.before
  match st.current.add f.name .field with
  | .error e => .error e
  | .ok s => .ok (Setter.exprs { st with current := s } (.constraint i) f.constraint.toList)

/-- ZserioAstScopeSetter.java:271-282 `visitChoiceField` -/
def Setter.choiceField (st : Setter) (i : Nat) (f : Field) : Except Problem Setter :=
  let st := st.exprs (.before i) f.before
  match st.current.add f.name .field with
  | .error e => .error e
  | .ok s => match st.outer.add f.name .field with
    | .error e => .error e
    | .ok o =>
      let st := Setter.exprs { st with current := s, outer := o } (.constraint i) f.constraint.toList
      .ok { st with current := st.current.remove f.name }

/-- ZserioAstScopeSetter.java:229-237 `visitFunction`: the function becomes visible for all expressions before it, and for those after
it, but not for its own result -/
def Setter.func (st : Setter) (f : Name × Expr) : Except Problem Setter := do
  let slots ← st.slots.mapM (fun slot => do .ok { slot with scope := ← slot.scope.add f.1 .func })
  let st := Setter.expr { st with slots := slots } (.body f.1) f.2
  .ok { st with current := ← st.current.add f.1 .func }

/-- all fields of a structure -/
def Setter.fields (st : Setter) (i : Nat) : List Field → Except Problem Setter
  | [] => .ok st
  | f :: fs => do (← st.field i f).fields (i + 1) fs

/-- all fields of a union -/
def Setter.choiceFields (st : Setter) (i : Nat) : List Field → Except Problem Setter
  | [] => .ok st
  | f :: fs => do (← st.choiceField i f).choiceFields (i + 1) fs

/-- ZserioAstScopeSetter.java:89-103 `visitChoiceCase`, `visitChoiceDefault`, all of them.  The names of the items are added to the scopes
of case expressions later, but before anything is evaluated: ZserioAstEvaluator.java:46-58. -/
def Setter.caseExprs (st : Setter) (items : List Name) (i : Nat) (es : List Expr) : Setter :=
  { st with slots := st.slots ++ es.map (fun e => (⟨.case i, e, st.current.addItems items⟩ : Slot)) }

def Setter.caseField (st : Setter) (i : Nat) : Option Field → Except Problem Setter
  | none => .ok st
  | some f => st.choiceField i f

def Setter.cases (st : Setter) (items : List Name) (i : Nat) : List Case → Except Problem Setter
  | [] => .ok st
  | c :: cs => do (← (st.caseExprs items i c.exprs).caseField i c.field).cases items (i + 1) cs

/-- all functions -/
def Setter.functions (st : Setter) : List (Name × Expr) → Except Problem Setter
  | [] => .ok st
  | f :: fs => do (← st.func f).functions fs

/-- `visitParameter`, `visitTemplateParameter`, all of them -/
def addParams (s : Scope) : List Name → Except Problem Scope
  | [] => .ok s
  | n :: ns => do addParams (← s.add n .param) ns

/-- ZserioAstScopeSetter.java:12-24 `visitStructureType`, 53-86 `visitChoiceType`, 106-134 `visitUnionType` -/
def Setter.members (st : Setter) : Members → Except Problem Setter
  | .struct fs => st.fields 0 fs
  | .union fs => do
    let st ← st.choiceFields 0 fs
    .ok { st with current := st.outer }
  | .choice sel items cs => do
    let st ← (st.expr .selector sel).cases items 0 cs
    .ok { st with current := st.outer }

def Compound.slots (c : Compound) : Except Problem (List Slot) := do
  let s ← addParams ⟨[], []⟩ c.params
  let st ← Setter.members ⟨s, s, []⟩ c.members
  .ok (← st.functions c.funcs).slots

/-! ### Evaluation -/

/-- What the results of the functions have been resolved to when they were evaluated last -/
abbrev Bodies := List (Name × List Ref)

/-- what the result of `f` has been resolved to -/
def Bodies.get (b : Bodies) (f : Name) : Option (List Ref) := (b.find? (fun p => p.1 = f)).map Prod.snd

/-- Expression.java:560-710 `evaluate` with `evaluateIdentifier` (1618-1658) and `evaluateFunctionCallExpression` (996-1039), and
ZserioAstEvaluator.java:140-165 `visitExpression`: the references of an expression in a scope.  `own` says that the expression is evaluated
in its own scope; only then `isset` has an effect, because the values of the bitmask are added to the own scope of the operand and not to
the scope which is used.  `call` evaluates the result of a function; `pkg` are the symbols of the package. -/
def Expr.resolve (call : Scope → Name → Bodies → Except Problem Bodies) (pkg : List Name) (own : Bool) :
    Scope → Expr → Bodies → Except Problem (List Ref × Bodies)
  | _, .lit, b => .ok ([], b)
  | s, .id n, b => match s.find n with
    | some r => .ok ([r], b)
    | none => if n ∈ pkg then .ok ([.package n], b) else .error .unresolved
  | s, .call n, b => match s.find n with
    | some (.sym .func f) => do .ok ([.call f], ← call s f b)
    | some _ => .error .notFunction
    | none => if n ∈ pkg then .error .notFunction else .error .unresolved
  | s, .op x y, b => do
    let r1 ← x.resolve call pkg own s b
    let r2 ← y.resolve call pkg own s r1.2
    .ok (r1.1 ++ r2.1, r2.2)
  | s, .isset x items y, b => do
    let r1 ← x.resolve call pkg own s b
    let r2 ← y.resolve call pkg own (if own then s.addItems items else s) r1.2
    .ok (r1.1 ++ r2.1, r2.2)

/-- the result of a function -/
def Compound.body (c : Compound) (f : Name) : Option Expr := (c.funcs.find? (fun p => p.1 = f)).map Prod.snd

/-- Expression.java:1010-1020: the result of a function is evaluated in the scope of the call (`ZserioAstEvaluator(forcedEvaluationScope)`),
again for each call.  Expression.java:562-563: an expression which is in evaluation cannot be evaluated; `stack` are the functions in
evaluation.  (Java notices this one call later: the first call in the result of the function is in evaluation.) `0`: more calls than
functions. -/
def Compound.evalBody (c : Compound) (pkg : List Name) : Nat → List Name → Scope → Name → Bodies → Except Problem Bodies
  | 0, _, _, _, _ => .error .cyclic
  | n + 1, stack, s, f, b =>
    if f ∈ stack then .error .cyclic
    else match c.body f with
      | none => .error .notFunction
      | some e => do
        let r ← e.resolve (c.evalBody pkg n (f :: stack)) pkg false s b
        .ok ((f, r.1) :: r.2)

/-- What is known after evaluation: the references of each expression of the compound type which is not the result of a function, and of
the results of functions -/
structure Evaluated where
  refs : List (Role × List Ref)
  bodies : Bodies
  deriving DecidableEq

/-- one expression in its own scope.  The result of a function which has been evaluated for a call is not evaluated again
(Expression.java:569: it is `EVALUATED`, and the scope is its own one). -/
def Compound.evalSlot (c : Compound) (pkg : List Name) (ev : Evaluated) (slot : Slot) : Except Problem Evaluated :=
  match slot.role with
  | .body f => match ev.bodies.get f with
    | some _ => .ok ev
    | none => do
      let r ← slot.expr.resolve (c.evalBody pkg c.funcs.length [f]) pkg true slot.scope ev.bodies
      .ok { ev with bodies := (f, r.1) :: r.2 }
  | role => do
    let r ← slot.expr.resolve (c.evalBody pkg (c.funcs.length + 1) []) pkg true slot.scope ev.bodies
    .ok { refs := ev.refs ++ [(role, r.1)], bodies := r.2 }

/-- all expressions, in the order of CompoundType.java:40-52 and ChoiceType.java:53-74 `visitChildren` -/
def Compound.evalSlots (c : Compound) (pkg : List Name) (ev : Evaluated) : List Slot → Except Problem Evaluated
  | [] => .ok ev
  | slot :: slots => do c.evalSlots pkg (← c.evalSlot pkg ev slot) slots

/-- The compound type is accepted, and these are its references. -/
def Compound.evaluate (c : Compound) (pkg : List Name) : Except Problem Evaluated := do
  c.evalSlots pkg ⟨[], []⟩ (← c.slots)

end Zserio.Scopes
