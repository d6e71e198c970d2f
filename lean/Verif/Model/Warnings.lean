import Verif.Model.ChoiceCheck
/-
Two warnings: enumeration items which are not handled in a choice, and types which are not used.

Sources: compiler/core/src/zserio/ast/ChoiceType.java, ZserioAstChecker.java, Expression.java.
-/
namespace Zserio.Warnings
open ChoiceCheck

/-! ### Items which are not handled -/

/-- an item of an enumeration -/
structure Item where
  enum : Nat
  name : Nat
  value : Int
  deriving DecidableEq, Repr

/-- Expressions of cases of a choice on an enumeration: an item, a constant with the item which is its value, and `c ? x : y` with the value of
the condition (a constant expression; parameters are refused, ChoiceType.java:323).  Parentheses change nothing. -/
inductive EnumExpr where
  | item (i : Item)
  | const (i : Item)
  | cond (c : Bool) (x y : EnumExpr)
  deriving DecidableEq, Repr

/-- the value: Python evaluates the expression -/
def EnumExpr.value : EnumExpr → Item
  | .item i => i
  | .const i => i
  | .cond c x y => if c then x.value else y.value

/-- Expression.java:852-872 `getReferencedSymbolObjects(EnumItem.class)`; conditions without items of enumerations -/
def EnumExpr.referenced : EnumExpr → List Item
  | .item i => [i]
  | .const _ => []
  | .cond _ x y => x.referenced ++ y.referenced

/-- a choice on the enumeration with these items -/
structure EnumChoice where
  enum : Nat
  items : List Item
  cases : List (List EnumExpr × Option FieldDef)
  default : Option (Option FieldDef)

/-- ChoiceType.java:353-376: the items which are removed, one expression; none for an exception -/
def removeItems (items : List Item) : List Item → List Item → Option (List Item)
  | [], unhandled => some unhandled
  | i :: is, unhandled => if items.contains i then removeItems items is (unhandled.erase i) else none

/-- ChoiceType.java:346-376: all expressions -/
def unhandledItems (items : List Item) : List EnumExpr → List Item → Option (List Item)
  | [], unhandled => some unhandled
  | e :: es, unhandled =>
    match removeItems items e.referenced unhandled with
    | none => none
    | some unhandled => unhandledItems items es unhandled

/-- ChoiceType.java:344-386 `checkEnumerationCases`: the items for which there is a warning, none for an exception -/
def warnUnhandled (c : EnumChoice) : Option (List Item) :=
  match unhandledItems c.items (c.cases.flatMap (·.1)) c.items with
  | none => none
  | some unhandled => some (if c.default.isNone then unhandled else [])

/-- the choice as the other checks and the generated code see it (Model/ChoiceCheck.lean).  The compiler knows no integer values of
enumerations; `text` is the text of an expression (Expression.java, `getText`). -/
def EnumChoice.decl (c : EnumChoice) (text : EnumExpr → PyStr) : ChoiceDecl where
  selector := .enum c.enum
  cases := c.cases.map fun k =>
    { exprs := k.1.map fun e => { type := .enum e.value.enum, items := e.referenced.map (·.enum), integer := none, text := text e, value := e.value.value },
      field := k.2 }
  default := c.default

/-! ### Types which are not used -/

/-- A definition which is checked: its full name, whether it is a type which is reported (subtypes, enumerations, bitmasks, and structures, choices,
unions and tables which are no templates; no databases, services, pubsubs and constants), the full names of the types it refers to by type references
(including template arguments), and of the types whose items are used in its expressions -/
structure Definition where
  name : Nat
  reported : Bool
  typeRefs : List Nat
  exprRefs : List Nat
  deriving DecidableEq, Repr

/-- ZserioAstChecker.java:85-92, 240-245, 330-334: `usedTypeNames` -/
def usedNames (ds : List Definition) : List Nat := ds.flatMap (·.typeRefs)

/-- ZserioAstChecker.java: `definedTypes` -/
def definedNames (ds : List Definition) : List Nat := (ds.filter (·.reported)).map (·.name)

/-- ZserioAstChecker.java:33-42: the types with a warning -/
def warnUnused (ds : List Definition) : List Nat := (definedNames ds).filter fun n => !(usedNames ds).contains n

end Zserio.Warnings
