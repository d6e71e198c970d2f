import Verif.Model.GeneratedNames
import Verif.Spec.PathNames
/-
Model of the formatting of identifiers and dots in expressions: PythonExpressionFormattingPolicy.java,
PythonStructExpressionFormattingPolicy.java and PythonChoiceExpressionFormattingPolicy.java (src/zserio/extension/python of
compiler/extensions/python), and of the attributes of the generated objects which these texts read.

Simplified: calls of functions, indices of arrays and setters are left out (see Model/Expression.lean and Model/OffsetCheck.lean),
and so is the policy of SQL tables (Model/SqlColumns.lean).  Arrays and the lists in them are not told apart.
-/
namespace Zserio.PathNames
open Zserio.Names

/-- what an identifier was resolved to (`getExprSymbolObject`, compiler/core/src/zserio/ast/Expression.java:1066-1203, 1618-1732); types
and constants with the names of their package, module and symbol in Python -/
inductive Symbol where
  | package
  | type (full : List PyStr)
  | field (name : PyStr)
  | parameter (name : PyStr)
  | enumItem (type : List PyStr) (name : PyStr) (removed : Bool)
  | bitmaskValue (type : List PyStr) (name : PyStr)
  | constant (full : List PyStr)
  deriving DecidableEq, Repr

/-- `joinStrings` with a dot (PythonFullNameFormatter.java:12-16, 28-31) -/
def joinDots : List PyStr → List Part
  | [] => []
  | [s] => [.name s]
  | s :: rest => .name s :: .dot :: joinDots rest

/-- the policies of structures (StructTemplateDataContext.java), and of choices and unions (ChoiceTemplateDataContext.java) -/
inductive Policy where
  | struct
  | choice
  deriving DecidableEq, Repr

/-- PythonExpressionFormattingPolicy.java `PYTHON_SELF_PREFIX`, TemplateDataContext.java `PYTHON_OWNER_PREFIX` (in the factories of
elements of arrays) -/
def accessPrefix (owner : Bool) : List Part :=
  if owner then [.name (py! "self"), .dot, .name (py! "_owner"), .dot] else [.name (py! "self"), .dot]

/-- `formatFieldAccessor` without setters: PythonStructExpressionFormattingPolicy.java and PythonChoiceExpressionFormattingPolicy.java
for the first identifier, PythonExpressionFormattingPolicy.java:371-386 for the others -/
def formatField (p : Policy) (owner first : Bool) (name : PyStr) : List Part :=
  if first then
    accessPrefix owner ++ [.name (match p with | .struct => memberName name | .choice => py! "_choice")]
  else [.name (propertyName name)]

/-- `formatParameterAccessor`, the same in both policies; PythonExpressionFormattingPolicy.java:388-394 -/
def formatParameter (owner first : Bool) (name : PyStr) : List Part :=
  if first then accessPrefix owner ++ [.name (memberName name)] else [.name (propertyName name)]

/-- `enumItemToSymbol` (PythonSymbolConverter.java:18-22) -/
def enumItemSymbol (name : PyStr) (removed : Bool) : PyStr :=
  if removed then py! "ZSERIO_REMOVED_" ++ toUpperSnakeCase name else toUpperSnakeCase name

/-- `getIdentifier`, `formatSymbolIdentifier` and what they call (PythonExpressionFormattingPolicy.java:112-130, 396-488) -/
def formatSymbol (p : Policy) (owner first : Bool) : Symbol → List Part
  | .package => []
  | .type full => joinDots full
  | .field n => formatField p owner first n
  | .parameter n => formatParameter owner first n
  | .enumItem ty n removed => (if first then joinDots ty ++ [.dot] else []) ++ [.name (enumItemSymbol n removed)]
  | .bitmaskValue ty n =>
    (if first then joinDots ty ++ [.dot] else []) ++ [.name (py! "Values"), .dot, .name (toUpperSnakeCase n)]
  | .constant full => joinDots full

/-- the right operands of dots after an identifier: `getDot` (PythonExpressionFormattingPolicy.java:342-350) writes no dot after
packages, whose expressions have no type (Expression.java:1100-1136); emitBinaryExpression
(compiler/core/src/zserio/extension/common/ExpressionFormatter.java:335-349) -/
def formatRest (p : Policy) (owner : Bool) : Symbol → List Symbol → List Part
  | _, [] => []
  | prev, s :: rest => (if prev = .package then [] else [.dot]) ++ formatSymbol p owner false s ++ formatRest p owner s rest

/-- a path of identifiers; only the first one is `isMostLeftId` (Expression.java:209-214) -/
def formatPath (p : Policy) (owner : Bool) : List Symbol → List Part
  | [] => []
  | s :: rest => formatSymbol p owner true s ++ formatRest p owner s rest

/-- The attributes of a generated object which hold its values: members set by the constructors and by `read`
(CompoundParameter.inc.ftl:19, CompoundField.inc.ftl:36-50, 524-526: `_choice` for all fields of choices and unions), and properties which return
them (CompoundField.inc.ftl:24-34, compiler/extensions/python/freemarker) -/
def Object.attributes (ob : Object) : List (PyStr × Nat) :=
  (ob.params.flatMap fun x => [(memberName x.1, x.2), (propertyName x.1, x.2)]) ++
  match ob.body with
  | .struct fields => fields.flatMap fun x => [(memberName x.1, x.2), (propertyName x.1, x.2)]
  | .choice declared _ v => (py! "_choice", v) :: declared.map fun n => (propertyName n, v)

/-- objects of Python: values at addresses, and the factories of elements of arrays, whose `_owner` is the object with the array
(CompoundField.inc.ftl:482) -/
inductive PyObj where
  | ref (a : Nat)
  | factory (owner : Nat)
  deriving DecidableEq, Repr

/-- an attribute of an object of Python -/
def getattr (st : Store) : PyObj → PyStr → Option PyObj
  | .factory o, s => if s = py! "_owner" then some (.ref o) else none
  | .ref a, s => (st a).bind fun ob => (ob.attributes.lookup s).map .ref

/-- a dotted name which begins with `self`, evaluated in a method -/
def evalSelf (st : Store) (self : PyObj) (text : List Part) : Option PyObj :=
  match readDotted text with
  | some (h :: attrs) => if h = py! "self" then attrs.foldlM (getattr st) self else none
  | _ => none

end Zserio.PathNames
