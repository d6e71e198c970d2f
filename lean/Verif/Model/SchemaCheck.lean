import Verif.Model.Compound
/-
The structural checks of the compiler: recursion, extended fields and implicit arrays
(compiler/core/src/zserio/ast: ZserioParseTreeChecker, ArrayInstantiation, CompoundType, StructureType, UnionType, ChoiceType).

They are modelled on the schemas the generated code is produced from (Model/Schema.lean), subtypes and templates resolved.
`lower` gives the lower bound the compiler has computed for the length of a fixed array (`getIntegerLowerBound`), `none` if it
knows none; nothing is assumed about it.

Java methods that call themselves are given the number of calls that fit on the stack; `none` is a `StackOverflowError`, which
ends the compiler with `Internal error` (ZserioTool.java:117-121).
-/
namespace Zserio.SchemaCheck

/-- Why a schema is refused -/
inductive Problem where
  | syntaxError
  | implicitNotAllowed
  | implicitPacked
  | implicitIndexed
  | implicitElement
  | directRecursion
  | indirectRecursion
  | containsExtended
  | followsExtended
  | followsImplicit
  deriving DecidableEq

/-- The result of a method: `none` is a stack overflow, an error is a `ParserException` -/
abbrev Outcome (α : Type) := Option (Except Problem α)

/-- one statement after the other -/
def andThen (a : Outcome Unit) (b : Outcome Unit) : Outcome Unit :=
  match a with
  | none => none
  | some (.error p) => some (.error p)
  | some (.ok ()) => b

/-- a `for` loop over checks -/
def forAll {α : Type} (check : α → Outcome Unit) : List α → Outcome Unit
  | [] => some (.ok ())
  | x :: xs => andThen (check x) (forAll check xs)

/-- a `for` loop that returns `true` when one of the elements has the property, and false at its end -/
def anyOf {α : Type} (p : α → Option Bool) : List α → Option Bool
  | [] => some false
  | x :: xs => match p x with
    | none => none
    | some true => some true
    | some false => anyOf p xs

/-- a `for` loop that returns `false` when one of the elements does not have the property, and true at its end -/
def allOf {α : Type} (p : α → Option Bool) : List α → Option Bool
  | [] => some true
  | x :: xs => match p x with
    | none => none
    | some false => some false
    | some true => allOf p xs

/-- CompoundType.getFields; for choices ChoiceType.java:139-153 -/
def fieldsOf : CompoundDef → List FieldDef
  | .struct fs => fs
  | .union fs => fs
  | .choice _ cases default => cases.filterMap (·.field) ++ match default with
    | some (some f) => [f]
    | _ => []

/-- the compound which is the base type of the field or of the elements of an array field (e.g. CompoundType.java:462-471) -/
def child (f : FieldDef) : Option Nat :=
  match f.type with
  | .compound id _ => some id
  | _ => none

/-- Field.isOptional (Field.java:148-156) -/
def isOptional (f : FieldDef) : Bool :=
  match f.optional with
  | .required => false
  | _ => true

/-- `getIntegerLowerBound() == null || getIntegerLowerBound() <= 0` -/
def lengthMayBeZero (lower : FieldDef → Option Int) (f : FieldDef) : Bool :=
  match lower f with
  | none => true
  | some b => decide (b ≤ 0)

/-! ### Syntax -/

/-- ZserioParseTreeChecker.visitFieldTypeId (ZserioParseTreeChecker.java:76-118), visitIndexExpression (417-433) -/
def checkFieldSyntax (allowImplicit : Bool) (f : FieldDef) : Outcome Unit :=
  match f.array with
  | some ⟨.implicit, isPacked⟩ =>
    if !allowImplicit then some (.error .implicitNotAllowed)
    else if isPacked then some (.error .implicitPacked)
    else match f.offset with
      | some o => if o.indexed then some (.error .implicitIndexed) else some (.ok ())
      | none => some (.ok ())
  | _ => some (.ok ())

/-- `extend`, `optional`, `if`, alignment and offsets are parsed only in fields of structures (ZserioParser.g4:97-107; fields of
choices and unions: 160-162, 175-177) -/
def onlyInStructures (f : FieldDef) : Bool := f.extended || isOptional f || f.alignment.isSome || f.offset.isSome

/-- the grammar and ZserioParseTreeChecker -/
def checkSyntax (allowImplicit : Bool) (d : CompoundDef) : Outcome Unit :=
  andThen
    (match d with
    | .struct _ => some (.ok ())
    | d => if (fieldsOf d).any onlyInStructures then some (.error .syntaxError) else some (.ok ()))
    (forAll (checkFieldSyntax allowImplicit) (fieldsOf d))

/-! ### Arrays -/

/-- FixedSizeType.getBitSize (BooleanType, FixedBitFieldType, FloatType, StdIntegerType); a bit field has at least one bit
(FixedBitFieldType.java:30-36) -/
def fixedSize : ElemType → Option Nat
  | .int (.bitField n) => if n = 0 then none else some n
  | .int (.signedBitField n) => if n = 0 then none else some n
  | .other .float16 => some 16
  | .other .float32 => some 32
  | .other .float64 => some 64
  | .other .bool => some 1
  | _ => none

/-- ArrayInstantiation.checkImplicitArrayElementType (ArrayInstantiation.java:152-158, 252-266) -/
def checkArray (f : FieldDef) : Outcome Unit :=
  match f.array with
  | some ⟨.implicit, _⟩ => match fixedSize f.type with
    | some n => if n % 8 = 0 then some (.ok ()) else some (.error .implicitElement)
    | none => some (.error .implicitElement)
  | _ => some (.ok ())

/-! ### Recursion -/

/-- CompoundType.checkDirectRecursion (CompoundType.java:424-457), one turn of the loop -/
def checkFieldDirectRecursion (lower : FieldDef → Option Int) (self : Nat) (f : FieldDef) : Outcome Unit :=
  if isOptional f then some (.ok ())
  else match f.array with
    | some ⟨.fixed _, _⟩ =>
      if lengthMayBeZero lower f then some (.ok ())
      else if child f = some self then some (.error .directRecursion) else some (.ok ())
    | some _ => some (.ok ())
    | none => if child f = some self then some (.error .directRecursion) else some (.ok ())

/-- CompoundType.checkDirectRecursion (CompoundType.java:424-457) -/
def checkDirectRecursion (defs : Schema) (lower : FieldDef → Option Int) (self : Nat) : Outcome Unit :=
  forAll (checkFieldDirectRecursion lower self) (fieldsOf (defs self))

/-- CompoundType.checkIndirectRecursion (CompoundType.java:459-483) -/
def checkIndirectRecursion (defs : Schema) (outer : Nat) : Nat → Nat → Outcome Unit
  | 0, _ => none
  | n + 1, inner => forAll (fun f => match child f with
    | none => some (.ok ())
    | some c =>
      if outer ≠ inner ∧ outer = c then some (.error .indirectRecursion)
      else if inner ≠ c then checkIndirectRecursion defs outer n c
      else some (.ok ())) (fieldsOf (defs inner))

/-! ### Extended fields -/

/-- CompoundType.containsExtendedField (CompoundType.java:252-278) -/
def containsExtendedField (defs : Schema) : Nat → (self : Nat) → FieldDef → Option Bool
  | 0, _, _ => none
  | n + 1, self, f => match child f with
    | none => some false
    | some c => anyOf (fun g =>
        if g.extended then some true
        else if c ≠ self then containsExtendedField defs n c g
        else some false) (fieldsOf (defs c))

/-- `throw` if a field contains an extended field (StructureType.java:108-114, UnionType.java:83-90, ChoiceType.java:214-221) -/
def checkContains (defs : Schema) (n self : Nat) (f : FieldDef) : Outcome Unit :=
  match containsExtendedField defs n self f with
  | none => none
  | some true => some (.error .containsExtended)
  | some false => some (.ok ())

/-- StructureType.checkExtendedFields (StructureType.java:102-135); `seen`: `firstExtendedField != null` -/
def checkExtendedStruct (defs : Schema) (n self : Nat) : Bool → List FieldDef → Outcome Unit
  | _, [] => some (.ok ())
  | seen, f :: fs => andThen (checkContains defs n self f)
    (if !seen then checkExtendedStruct defs n self f.extended fs
    else if !f.extended then some (.error .followsExtended)
    else checkExtendedStruct defs n self seen fs)

/-- `checkExtendedFields` (StructureType.java:102-135, UnionType.java:78-91, ChoiceType.java:209-222) -/
def checkExtended (defs : Schema) (n self : Nat) : Outcome Unit :=
  match defs self with
  | .struct fs => checkExtendedStruct defs n self false fs
  | d => forAll (checkContains defs n self) (fieldsOf d)

/-! ### Implicit arrays -/

/-- `choiceCase.getField() == null || hasField…(choiceCase.getField())` (ChoiceType.java:230, 255) -/
def caseBranch (field : FieldDef → Option Bool) (k : CaseDef) : Option Bool :=
  match k.field with
  | none => some true
  | some f => field f

/-- `hasEmptyBranch` of a compound, `field` is `hasFieldEmptyBranch` of its fields (StructureType.java:88-99,
UnionType.java:107-112, ChoiceType.java:248-271) -/
def emptyBranch (field : FieldDef → Option Bool) : CompoundDef → Option Bool
  | .struct fs => allOf field fs
  | .union _ => some false
  | .choice s cases default =>
    match anyOf (caseBranch field) cases with
    | none => none
    | some true => some true
    | some false => match default with
      | some none => some true
      | some (some f) => match field f with
        | none => none
        | some true => some true
        | some false => some (fieldsOf (.choice s cases default)).isEmpty
      | none => some (fieldsOf (.choice s cases default)).isEmpty

/-- CompoundType.hasFieldEmptyBranch (CompoundType.java:379-422); `implicit` is `implicitCanBeEmpty` -/
def fieldEmptyBranch (defs : Schema) (lower : FieldDef → Option Int) (implicit : Bool) : Nat → (self : Nat) → FieldDef → Option Bool
  | 0, _, _ => none
  | n + 1, self, f =>
    let compound : Option Bool := match child f with
      | none => some false
      | some c => if c ≠ self then emptyBranch (fieldEmptyBranch defs lower implicit n c) (defs c) else some false
    match f.optional with
    | .clause _ => some true
    | .auto => some false
    | .required => match f.array with
      | some ⟨.implicit, _⟩ => some implicit
      | some ⟨.auto, _⟩ => some false
      | some ⟨.fixed _, _⟩ => if lengthMayBeZero lower f then some true else compound
      | none => compound

/-- `hasBranchWithoutImplicitArray` of a compound (StructureType.java:75-86, UnionType.java:93-105, ChoiceType.java:224-246) -/
def plainBranch (field : FieldDef → Option Bool) : CompoundDef → Option Bool
  | .struct fs => allOf field fs
  | .union fs => match anyOf field fs with
    | none => none
    | some true => some true
    | some false => some fs.isEmpty
  | .choice s cases default =>
    match anyOf (caseBranch field) cases with
    | none => none
    | some true => some true
    | some false => match default with
      | some none => some true
      | some (some f) => match field f with
        | none => none
        | some true => some true
        | some false => some (fieldsOf (.choice s cases default)).isEmpty
      | none => some (fieldsOf (.choice s cases default)).isEmpty

/-- CompoundType.hasFieldBranchWithoutImplicitArray (CompoundType.java:310-343) -/
def fieldPlainBranch (defs : Schema) (lower : FieldDef → Option Int) : Nat → (self : Nat) → FieldDef → Option Bool
  | 0, _, _ => none
  | n + 1, self, f =>
    let compound : Option Bool := match child f with
      | none => some true
      | some c => if c ≠ self then plainBranch (fieldPlainBranch defs lower n c) (defs c) else some true
    match fieldEmptyBranch defs lower false (n + 1) self f with
    | none => none
    | some true => some true
    | some false => match f.array with
      | some ⟨.implicit, _⟩ => some false
      | some ⟨.auto, _⟩ => some true
      | some ⟨.fixed _, _⟩ => if lengthMayBeZero lower f then some true else compound
      | none => compound

/-- StructureType.checkImplicitArrays (StructureType.java:137-160); `seen` is `hasImplicitArray` -/
def checkImplicitStruct (defs : Schema) (lower : FieldDef → Option Int) (n self : Nat) : Bool → List FieldDef → Outcome Unit
  | _, [] => some (.ok ())
  | false, f :: fs => match fieldPlainBranch defs lower n self f with
    | none => none
    | some b => checkImplicitStruct defs lower n self (!b) fs
  | true, f :: fs => match fieldEmptyBranch defs lower true n self f with
    | none => none
    | some false => some (.error .followsImplicit)
    | some true => checkImplicitStruct defs lower n self true fs

/-- structures only -/
def checkImplicit (defs : Schema) (lower : FieldDef → Option Int) (n self : Nat) : Outcome Unit :=
  match defs self with
  | .struct fs => checkImplicitStruct defs lower n self false fs
  | _ => some (.ok ())

/-! ### All -/

/-- ZserioAstChecker.visitStructureType and the like (ZserioAstChecker.java:95-165): the fields first, then
CompoundType.check (CompoundType.java:160-164), then the checks of the kind of compound -/
def checkType (defs : Schema) (lower : FieldDef → Option Int) (n self : Nat) : Outcome Unit :=
  andThen (forAll checkArray (fieldsOf (defs self)))
    (andThen (checkDirectRecursion defs lower self)
      (andThen (checkIndirectRecursion defs self n self)
        (andThen (checkExtended defs n self) (checkImplicit defs lower n self))))

/-- The compiler on the compounds `types`, in the order they are declared: `allowImplicit` is `-allowImplicitArrays`.  The
checks of names, expressions, choices, offsets and SQL are not part of it. -/
def compile (allowImplicit : Bool) (defs : Schema) (lower : FieldDef → Option Int) (n : Nat) (types : List Nat) : Outcome Unit :=
  andThen (forAll (fun id => checkSyntax allowImplicit (defs id)) types) (forAll (checkType defs lower n) types)

end Zserio.SchemaCheck
