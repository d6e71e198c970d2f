import Verif.Model.Compound
/-
The checks of the compiler for fields used as offsets (compiler/core/src/zserio/ast: Field.java, ExpressionUtil.java,
StructureType.java, ZserioParseTreeChecker.java), on schemas whose expressions are trees, and the schema the code is generated
from (Model/Schema.lean).

Simplifications: names are resolved. Integers, booleans, strings and the like are not distinguished (`plain`), except for
unsigned integers of a fixed size, which can be offsets. Expressions which read fields of unions or choices are outside of the
model (they have no type). Arguments of compound types are not modelled.
-/
namespace Zserio.OffsetCheck

/-- The type of an expression which is no array (Expression.java `zserioType`) -/
inductive Base where
  /-- an unsigned integer of a fixed size: `IntegerType`, not signed, `FixedSizeType` -/
  | unsigned
  /-- any other type which is no compound -/
  | plain
  | compound (id : Nat)
  deriving DecidableEq

/-- The type of an expression -/
inductive Ty where
  | base (b : Base)
  | array (b : Base)
  deriving DecidableEq

/-- An operator of generated code on values which are no objects and no arrays. It may raise, but not the exception for a wrong
offset. -/
structure Op where
  run : List Val → Except Err Val
  noOffset : ∀ vs, run vs ≠ .error .offset

/-- An expression with resolved names (Expression.java): for a symbol which is a field of another compound the compound is
given. -/
inductive XExpr where
  /-- a literal, a constant, an enumeration item, a bitmask value -/
  | const (isConstant : Bool) (b : Base) (v : Val)
  | param (b : Base) (i : Nat)
  | index
  /-- a field of the compound itself -/
  | field (i : Nat)
  /-- `e.f`, field `j` of the structure `id` -/
  | dot (e : XExpr) (id j : Nat)
  /-- `e.p`, parameter `i` of the compound `id` -/
  | dotParam (e : XExpr) (id i : Nat)
  /-- `f()` -/
  | call (f : Nat)
  /-- `e.f()`, function `f` of the compound `id` -/
  | dotCall (e : XExpr) (id f : Nat)
  /-- `a[i]` -/
  | element (a i : XExpr)
  | lengthof (a : XExpr)
  /-- other operators with one, two or three operands -/
  | op1 (o : Op) (a : XExpr)
  | op2 (o : Op) (a b : XExpr)
  | op3 (o : Op) (a b c : XExpr)

/-- The type of a field or of its elements, see `ElemType` -/
inductive XType where
  | int (k : IntKind)
  | other (b : Builtin)
  | dynBits (signed : Bool) (length : XExpr)
  | enum (e : EnumDef)
  | bitmask (underlying : IntKind)
  | compound (id : Nat) (args : List XExpr)

/-- see `ArrayKind` -/
inductive XArrayKind where
  | auto
  | implicit
  | fixed (length : XExpr)

/-- see `Optionality` -/
inductive XOptional where
  | required
  | auto
  | clause (e : XExpr)

/-- A field, see `FieldDef`. `typePackable` says whether its type is packable (Field.java:236-240). -/
structure XField where
  type : XType
  array : Option (XArrayKind × Bool) := none
  optional : XOptional := .required
  extended : Bool := false
  alignment : Option Nat := none
  offset : Option XExpr := none
  constraint : Option XExpr := none
  default : Val := .none
  typePackable : Bool := false
  recursive : Bool := false
  hash64 : Bool := false
  rangeCheck : Bool := false

/-- see `CompoundDef` -/
inductive XKind where
  | struct (fields : List XField)
  | union (fields : List XField)
  | choice (selector : XExpr) (cases : List (List Int × Option XField)) (default : Option (Option XField))

/-- A function: the type it is declared to return, and its result (Function.java) -/
structure XFunction where
  type : Base
  result : XExpr

/-- A compound type -/
structure XDecl where
  kind : XKind
  functions : List XFunction := []

/-- A schema: compounds are referred to by their number -/
abbrev XSchema := List XDecl

/-- the fields of a structure -/
def structFields (S : XSchema) (id : Nat) : Option (List XField) :=
  match S[id]? with
  | some ⟨.struct fs, _⟩ => some fs
  | _ => none

/-! ## Types of expressions -/

/-- Expression.evaluateExpressionType (Expression.java:1748-1830) for the type of a field or of an element -/
def XType.base : XType → Base
  | .int (.bitField _) => .unsigned
  | .compound id _ => .compound id
  | _ => .plain

/-- the type of a field as a symbol (Expression.java:1203-1211, 1660-1675) -/
def XField.ty (f : XField) : Ty :=
  match f.array with
  | none => .base f.type.base
  | some _ => .array f.type.base

/-- The type of an expression in the compound `self`, of which the first `scope` fields are visible (ZserioAstScopeSetter.java);
`none` if the compiler refuses it (Expression.java `evaluate*`). Simplification: which fields a called function sees
(Expression.java:1011-1020) is not checked, so that more schemas are accepted here. A parameter of another compound is not taken
for unsigned, so that it is refused as an offset here; see `Remote.checkOffsetExpression` for those. -/
def typeOf (S : XSchema) (self scope : Nat) : XExpr → Option Ty
  | .const _ (.compound _) _ => none
  | .const _ b _ => some (.base b)
  | .param (.compound _) _ => none
  | .param b _ => some (.base b)
  | .index => some (.base .plain)
  | .field i => do
    let fs ← structFields S self
    if i < scope then
      let f ← fs[i]?
      some f.ty
    else none
  | .dot e id j =>
    match typeOf S self scope e with
    | some (.base (.compound id')) => do
      let fs ← structFields S id
      let f ← fs[j]?
      if id' = id then some f.ty else none
    | _ => none
  | .dotParam e id _ =>
    match typeOf S self scope e with
    | some (.base (.compound id')) => if id' = id then some (.base .plain) else none
    | _ => none
  | .call f => do
    let d ← S[self]?
    let g ← d.functions[f]?
    some (.base g.type)
  | .dotCall e id f =>
    match typeOf S self scope e with
    | some (.base (.compound id')) => do
      let d ← S[id]?
      let g ← d.functions[f]?
      if id' = id then some (.base g.type) else none
    | _ => none
  | .element a i =>
    match typeOf S self scope a, typeOf S self scope i with
    | some (.array b), some (.base (.plain)) => some (.base b)
    | some (.array b), some (.base (.unsigned)) => some (.base b)
    | _, _ => none
  | .lengthof a =>
    match typeOf S self scope a with
    | some (.array _) => some (.base .plain)
    | some (.base (.plain)) => some (.base .plain)
    | _ => none
  | .op1 _ a => if isPlain (typeOf S self scope a) then some (.base .plain) else none
  | .op2 _ a b => if isPlain (typeOf S self scope a) && isPlain (typeOf S self scope b) then some (.base .plain) else none
  | .op3 _ a b c =>
    if isPlain (typeOf S self scope a) && isPlain (typeOf S self scope b) && isPlain (typeOf S self scope c) then
      some (.base .plain)
    else none
where
  /-- a type which is neither a compound nor an array -/
  isPlain : Option Ty → Bool
    | some (.base .plain) | some (.base .unsigned) => true
    | _ => false

/-! ## Fields used as offsets -/

/-- Expression.getReferencedSymbolObjects(Field.class) (Expression.java:376-383, 856-872): the fields an expression in the
compound `self` refers to, as compound and number. The symbol of the expression itself comes before those of its operands; the
second operand of a dot refers to the same field as the dot (Expression.java:1203). -/
def refs (self : Nat) : XExpr → List (Nat × Nat)
  | .const _ _ _ | .param _ _ | .index | .call _ => []
  | .field i => [(self, i)]
  | .dot e id j => (id, j) :: refs self e
  | .dotParam e _ _ | .dotCall e _ _ => refs self e
  | .element a i => refs self a ++ refs self i
  | .lengthof a | .op1 _ a => refs self a
  | .op2 _ a b => refs self a ++ refs self b
  | .op3 _ a b c => refs self a ++ refs self b ++ refs self c

/-- the offset expressions of a compound; only fields of structures can have one (ZserioParser.g4:97-107) -/
def XDecl.offsets (d : XDecl) : List XExpr :=
  match d.kind with
  | .struct fs => fs.filterMap (·.offset)
  | _ => []

/-- the fields which are marked by the compounds from the number `id` on -/
def markedFrom (id : Nat) : List XDecl → List (Nat × Nat)
  | [] => []
  | d :: ds => d.offsets.filterMap (fun e => (refs id e).head?) ++ markedFrom (id + 1) ds

/-- `usedAsOffsetLocation != null` for a field after all fields have been evaluated (Field.java:247-268): the first field an
offset expression refers to is marked. -/
def used (S : XSchema) (r : Nat × Nat) : Bool := (markedFrom 0 S).contains r

/-- ExpressionUtil.checkOffsetFields (ExpressionUtil.java:68-92) -/
def checkOffsetFields (S : XSchema) (self : Nat) (e : XExpr) : Bool := (refs self e).all fun r => !used S r

/-- Why a schema is refused -/
inductive Problem where
  | offsetSyntax
  | offsetType
  | offsetParameter
  | offsetConstant
  | offsetPacked
  | offsetDuplicated
  | offsetUsed
  | type
  | syntaxError
  deriving DecidableEq

/-- raises unless the condition holds -/
def require (p : Problem) (c : Bool) : Except Problem Unit := if c then .ok () else .error p

/-- What ZserioParseTreeChecker lets pass in an offset expression (ZserioParseTreeChecker.java:64-74, 149-470): identifiers and
dots, and brackets with nothing but `@index` in them, which is used once and only if the field is an array which is not implicit.
(A constant is an identifier or a dotted name.) -/
def offsetSyntax (arrayField : Bool) : XExpr → Bool
  | .const isConstant _ _ => isConstant
  | .param _ _ | .field _ => true
  | .dot e _ _ | .dotParam e _ _ => offsetSyntax arrayField e
  | .element a .index => arrayField && offsetSyntax false a
  | _ => false

/-- the field is an array which is not implicit -/
def XField.indexable (f : XField) : Bool :=
  match f.array with
  | some (.implicit, _) | none => false
  | _ => true

/-- Field.evaluate (Field.java:247-268): the array which is marked must not be packed -/
def checkOffsetPacked (S : XSchema) (self : Nat) (e : XExpr) : Except Problem Unit :=
  match (refs self e).head? with
  | none => .ok ()
  | some (id, j) =>
    match (structFields S id).bind (·[j]?) with
    | some ⟨_, some (_, true), _, _, _, _, _, _, _, _, _, _⟩ => .error .offsetPacked
    | _ => .ok ()

/-- Field.checkOffsetExpression (Field.java:378-412) -/
def checkOffsetExpression (S : XSchema) (self scope : Nat) (e : XExpr) : Except Problem Unit := do
  require .offsetType (decide (typeOf S self scope e = some (.base .unsigned)))
  match e with
  | .param _ _ => .error .offsetParameter
  | .const _ _ _ => .error .offsetConstant
  | _ => .ok ()

/-- An expression which must be an integer or boolean: ExpressionUtil.checkOffsetFields, then the check of its type (Field.java:307,
311, 317, 321; ArrayInstantiation.java:163-169; ParameterizedTypeInstantiation.java:178-182; DynamicBitFieldInstantiation.java:170) -/
def checkUse (S : XSchema) (self scope : Nat) (e : XExpr) : Except Problem Unit := do
  require .offsetUsed (checkOffsetFields S self e)
  require .type (typeOf.isPlain (typeOf S self scope e))

/-- all expressions of a list -/
def checkUses (S : XSchema) (self scope : Nat) : List XExpr → Except Problem Unit
  | [] => .ok ()
  | e :: es => do checkUse S self scope e; checkUses S self scope es

/-- the expressions in the type of a field -/
def XType.exprs : XType → List XExpr
  | .dynBits _ e => [e]
  | .compound _ args => args
  | _ => []

/-- the expressions of a field which can see the fields before it: its type, the length of an array, the clause -/
def XField.exprs (f : XField) : List XExpr :=
  f.type.exprs ++ (match f.array with | some (.fixed e, _) => [e] | _ => []) ++
    match f.optional with | .clause e => [e] | _ => []

/-- Field.check (Field.java:273-325) and the checks of its type instantiation, as far as offsets are concerned, with
ZserioParseTreeChecker and Field.evaluate before them. The field is number `i` of its compound; a constraint sees the field
itself. -/
def checkField (S : XSchema) (self i : Nat) (f : XField) : Except Problem Unit := do
  match f.offset with
  | none => .ok ()
  | some e => do
    require .offsetSyntax (offsetSyntax f.indexable e)
    checkOffsetPacked S self e
    checkOffsetExpression S self i e
  checkUses S self i f.exprs
  match f.constraint with
  | none => .ok ()
  | some e => checkUse S self (i + 1) e

/-- the fields of a structure from number `i` on -/
def checkFields (S : XSchema) (self : Nat) : Nat → List XField → Except Problem Unit
  | _, [] => .ok ()
  | i, f :: fs => do checkField S self i f; checkFields S self (i + 1) fs

/-- ExpressionComparator.equals (ExpressionComparator.java:43-60) for offset expressions: the same symbols. Symbols are
formatted with the name and the location of their declaration. -/
def sameOffset : XExpr → XExpr → Bool
  | .field i, .field i' => i = i'
  | .param _ i, .param _ i' => i = i'
  | .dot e id j, .dot e' id' j' => id = id' && j = j' && sameOffset e e'
  | .dotParam e id i, .dotParam e' id' i' => id = id' && i = i' && sameOffset e e'
  | .element a .index, .element a' .index => sameOffset a a'
  | _, _ => false

/-- StructureType.checkDuplicatedOffsets (StructureType.java:159-188) for the offset expressions in the order of the fields -/
def checkDuplicated : List XExpr → List XExpr → Except Problem Unit
  | _, [] => .ok ()
  | seen, e :: es => if seen.any (sameOffset · e) then .error .offsetDuplicated else checkDuplicated (seen ++ [e]) es

/-- a field of a union or choice: neither offsets nor optional nor extended fields can be written there (ZserioParser.g4:121-150) -/
def checkBranch (S : XSchema) (self : Nat) (f : XField) : Except Problem Unit := do
  require .syntaxError (f.offset.isNone && (match f.optional with | .required => true | _ => false) && !f.extended)
  checkField S self 0 f

/-- all fields of a union or choice -/
def checkBranches (S : XSchema) (self : Nat) : List XField → Except Problem Unit
  | [] => .ok ()
  | f :: fs => do checkBranch S self f; checkBranches S self fs

/-- Function.check (Function.java:80-90) -/
def checkFunctions (S : XSchema) (self : Nat) : List XFunction → Except Problem Unit
  | [] => .ok ()
  | g :: gs => do
    require .offsetUsed (checkOffsetFields S self g.result)
    let n := ((structFields S self).map List.length).getD 0
    require .type (match typeOf S self n g.result, g.type with
      | some (.base (.compound id)), .compound id' => decide (id = id')
      | some (.base (.compound _)), _ | some (.array _), _ | none, _ => false
      | some (.base _), .compound _ => false
      | some (.base _), _ => true)
    checkFunctions S self gs

/-- the fields of the cases and of the default of a choice (ChoiceType.java:139-153) -/
def choiceFields (cases : List (List Int × Option XField)) (default : Option (Option XField)) : List XField :=
  cases.filterMap (·.2) ++ (default.getD none).toList

/-- CompoundType.check, StructureType.check (StructureType.java:60-74), ChoiceType.checkSelectorExpression
(ChoiceType.java:283-296), as far as offsets are concerned -/
def checkDecl (S : XSchema) (self : Nat) (d : XDecl) : Except Problem Unit := do
  match d.kind with
  | .struct fs => do
    checkFields S self 0 fs
    checkDuplicated [] d.offsets
  | .union fs => checkBranches S self fs
  | .choice selector cases default => do
    checkBranches S self (choiceFields cases default)
    checkUse S self 0 selector
  checkFunctions S self d.functions

/-- all compounds from the number `id` on -/
def checkDecls (S : XSchema) : Nat → List XDecl → Except Problem Unit
  | _, [] => .ok ()
  | id, d :: ds => do checkDecl S id d; checkDecls S (id + 1) ds

/-- The checks for offsets of a schema -/
def check (S : XSchema) : Except Problem Unit := checkDecls S 0 S

/-! ## The generated code -/

/-- attributes of an object: its parameters and fields -/
def attributes : Val → Except Err (List Int × List Val)
  | .obj ps _ _ vs => .ok (ps, vs)
  | _ => .error .type

/-- an element of a list, an exception if there is none -/
def item (xs : List Val) (i : Nat) : Except Err Val :=
  match xs[i]? with
  | some v => .ok v
  | none => .error .index

/-- Evaluation of a generated expression (PythonExpressionFormattingPolicy.java); `callee id f` calls a function on an object.
Negative indices count from the end in Python: simplification, they raise. -/
def evalWith (callee : Nat → Nat → Env → Except Err Val) (self : Nat) : XExpr → Env → Except Err Val
  | .const _ _ v, _ => .ok v
  | .param _ i, env =>
    match env.params[i]? with
    | some x => .ok (.int x)
    | none => .error .type
  | .index, env => .ok (.int env.index)
  | .field i, env => item env.fields i
  | .dot e _ j, env => do
    let v ← evalWith callee self e env
    let (_, vs) ← attributes v
    item vs j
  | .dotParam e _ i, env => do
    let v ← evalWith callee self e env
    let (ps, _) ← attributes v
    match ps[i]? with
    | some x => .ok (.int x)
    | none => .error .type
  | .call f, env => callee self f env
  | .dotCall e id f, env => do
    let v ← evalWith callee self e env
    let (ps, vs) ← attributes v
    callee id f ⟨ps, vs, 0⟩
  | .element a i, env => do
    let v ← evalWith callee self a env
    let k ← evalWith callee self i env
    let xs ← v.asArr
    let k ← k.asInt
    if 0 ≤ k then item xs k.toNat else .error .index
  | .lengthof a, env => do
    let v ← evalWith callee self a env
    match v with
    | .arr xs => .ok (.int xs.length)
    | .str s => .ok (.int s.length)
    | .bytes bs => .ok (.int bs.length)
    | _ => .error .type
  | .op1 o a, env => do
    let v ← evalWith callee self a env
    o.run [v]
  | .op2 o a b, env => do
    let v ← evalWith callee self a env
    let w ← evalWith callee self b env
    o.run [v, w]
  | .op3 o a b c, env => do
    let u ← evalWith callee self a env
    let v ← evalWith callee self b env
    let w ← evalWith callee self c env
    o.run [u, v, w]

/-- Calling a function of an object (CompoundFunction.inc.ftl); `n` is the number of calls that fit on the stack. -/
def callFunction (S : XSchema) : Nat → Nat → Nat → Env → Except Err Val
  | 0, _, _, _ => .error .recursion
  | n + 1, id, f, env =>
    match S[id]? with
    | none => .error .type
    | some d =>
      match d.functions[f]? with
      | none => .error .type
      | some g => evalWith (callFunction S n) id g.result env

/-- a boolean value -/
def asBool : Val → Except Err Bool
  | .bool b => .ok b
  | _ => .error .type

/-- the generated expression as an integer -/
def intExpr (S : XSchema) (n self : Nat) (e : XExpr) : Expr Int := fun env => do
  let v ← evalWith (callFunction S n) self e env
  v.asInt

/-- the generated expression as a condition -/
def boolExpr (S : XSchema) (n self : Nat) (e : XExpr) : Expr Bool := fun env => do
  let v ← evalWith (callFunction S n) self e env
  asBool v

/-- The offset of a field if it is a field of the same structure. -/
def offsetRef : XExpr → Option OffsetRef
  | .field i => some ⟨i, false⟩
  | .element (.field i) .index => some ⟨i, true⟩
  | _ => none

/-- the type of a field or element in the generated code -/
def XType.compile (S : XSchema) (n self : Nat) : XType → ElemType
  | .int k => .int k
  | .other b => .other b
  | .dynBits signed e => .dynBits signed (intExpr S n self e)
  | .enum e => .enum e
  | .bitmask k => .bitmask k
  | .compound id args => .compound id (args.map (intExpr S n self))

/-- the kind of an array -/
def XArrayKind.compile (S : XSchema) (n self : Nat) : XArrayKind → ArrayKind
  | .auto => .auto
  | .implicit => .implicit
  | .fixed e => .fixed (intExpr S n self e)

/-- whether the field is optional -/
def XOptional.compile (S : XSchema) (n self : Nat) : XOptional → Optionality
  | .required => .required
  | .auto => .auto
  | .clause e => .clause (boolExpr S n self e)

/-- A field of the generated code (CompoundFieldTemplateData.java). A field used as an offset is not packable
(Field.java:231-234). -/
def XField.compile (S : XSchema) (n self i : Nat) (f : XField) : FieldDef where
  type := f.type.compile S n self
  array := f.array.map fun a => ⟨a.1.compile S n self, a.2⟩
  optional := f.optional.compile S n self
  extended := f.extended
  alignment := f.alignment
  offset := f.offset.bind offsetRef
  constraint := f.constraint.map (boolExpr S n self)
  default := f.default
  packable := !used S (self, i) && f.typePackable
  recursive := f.recursive
  hash64 := f.hash64
  rangeCheck := f.rangeCheck

/-- the fields from number `i` on -/
def compileFields (S : XSchema) (n self : Nat) : Nat → List XField → List FieldDef
  | _, [] => []
  | i, f :: fs => f.compile S n self i :: compileFields S n self (i + 1) fs

/-- A compound of the generated code -/
def XDecl.compile (S : XSchema) (n self : Nat) (d : XDecl) : CompoundDef :=
  match d.kind with
  | .struct fs => .struct (compileFields S n self 0 fs)
  | .union fs => .union (compileFields S n self 0 fs)
  | .choice selector cases default =>
    .choice (intExpr S n self selector) (cases.map fun c => ⟨c.1, c.2.map fun f => f.compile S n self 0⟩)
      (default.map fun o => o.map fun f => f.compile S n self 0)

/-- The schema of the generated code; `n` calls of functions fit on the stack. -/
def compile (S : XSchema) (n : Nat) : Schema := fun id =>
  match S[id]? with
  | some d => d.compile S n id
  | none => .struct []

end Zserio.OffsetCheck
