import Verif.Model.Compound
/-
Offsets which are fields of other objects (`header.offset: Block block`, `blocks[@index].offset: ...`), with objects which have an
identity: `initialize_offsets` and `write` of generated structures (Structure.py.ftl, CompoundField.inc.ftl), and the formatting of
the setter of an offset (ExpressionFormatter.java).

Simplifications: only structures without extended fields and without packing; lists are not shared between fields; the methods
look at a field when they come to it; the checks of `write` before a value (constraint, length, parameters, range) are arbitrary
functions.
-/
namespace Zserio.Remote

/-- A value: of a built-in type (or `None`), or a reference to an object -/
inductive Value where
  | leaf (v : Val)
  | ref (addr : Nat)

/-- What an attribute holds: a value or a list -/
inductive Slot where
  | one (v : Value)
  | many (vs : List Value)

/-- `slot is None` -/
def Slot.isNone : Slot → Bool
  | .one (.leaf .none) => true
  | _ => false

/-- An object of a generated class -/
structure Obj where
  cls : Nat
  params : List Value
  fields : List Slot

/-- All objects; the address is the position. -/
abbrev Heap := List Obj

/-- A place which can be assigned to: an attribute of an object, or an element of the list in it -/
structure Loc where
  addr : Nat
  field : Nat
  index : Option Nat
  deriving DecidableEq

/-- the attribute of a field, `AttributeError` if there is none -/
def Heap.slot (h : Heap) (a i : Nat) : Except Err Slot :=
  match h[a]? with
  | none => .error .type
  | some o =>
    match o.fields[i]? with
    | none => .error .type
    | some s => .ok s

/-- `self._f_ = slot` -/
def Heap.put (h : Heap) (a i : Nat) (s : Slot) : Heap := h.modify a fun o => { o with fields := o.fields.set i s }

/-- the parameter of an object, `AttributeError` if there is none -/
def Heap.param (h : Heap) (a i : Nat) : Except Err Slot :=
  match h[a]? with
  | none => .error .type
  | some o =>
    match o.params[i]? with
    | none => .error .type
    | some v => .ok (.one v)

/-- Python: assignment of a value to an attribute (the property setter, CompoundField.inc.ftl:36-50 `compound_setter_field`) or to
an element of a list -/
def Heap.assign (h : Heap) (l : Loc) (v : Value) : Except Err Heap := do
  let s ← h.slot l.addr l.field
  match l.index, s with
  | none, _ => .ok (h.put l.addr l.field (.one v))
  | some i, .many vs => if i < vs.length then .ok (h.put l.addr l.field (.many (vs.set i v))) else .error .index
  | some _, .one _ => .error .type

/-! ## Offset expressions -/

/-- An offset expression: what ZserioParseTreeChecker.java:64-74 lets pass, see `OffsetCheck.offsetSyntax`. `dot p j` and
`dotParam p i` are a field and a parameter of the compound `p`, `element p` is `p[@index]`. -/
inductive Path where
  | param (i : Nat)
  | field (i : Nat)
  | dot (p : Path) (j : Nat)
  | dotParam (p : Path) (i : Nat)
  | element (p : Path)
  deriving DecidableEq

namespace Path

/-- Expression.containsIndex (Expression.java:503-506) -/
def containsIndex : Path → Bool
  | .param _ | .field _ => false
  | .dot p _ | .dotParam p _ => p.containsIndex
  | .element _ => true

/-- the object a value refers to -/
def asRef : Slot → Except Err Nat
  | .one (.ref a) => .ok a
  | _ => .error .type

/-- Evaluation of the getter of the expression in the object `self` -/
def eval (h : Heap) (self index : Nat) : Path → Except Err Slot
  | .param i => h.param self i
  | .field i => h.slot self i
  | .dot p j => do
    let s ← p.eval h self index
    let a ← asRef s
    h.slot a j
  | .dotParam p i => do
    let s ← p.eval h self index
    let a ← asRef s
    h.param a i
  | .element p => do
    let s ← p.eval h self index
    match s with
    | .many vs =>
      match vs[index]? with
      | some v => .ok (.one v)
      | none => .error .index
    | .one _ => .error .type

/-- the expression ends with a parameter -/
def isParam : Path → Bool
  | .param _ | .dotParam _ _ => true
  | _ => false

/-- Python: the target of the assignment `<expression> = value` -/
def target (h : Heap) (self index : Nat) : Path → Except Err Loc
  | .param _ | .dotParam _ _ => .error .type
  | .field i => .ok ⟨self, i, none⟩
  | .dot p j => do
    let s ← p.eval h self index
    let a ← asRef s
    .ok ⟨a, j, none⟩
  | .element p => do
    let l ← p.target h self index
    match l.index with
    | none => .ok { l with index := some index }
    | some _ => .error .type

/-- `value = bits_to_bytes(end_bitposition); <setter>` (CompoundField.inc.ftl:143-147, 449-455). The setter of a parameter is
formatted like its getter (see `format`), which is a statement without an effect. -/
def set (h : Heap) (self index : Nat) (p : Path) (pos : Nat) : Except Err Heap := do
  let value ← bitsToBytes pos
  if p.isParam then
    let _ ← p.eval h self index
    .ok h
  else
    let l ← p.target h self index
    h.assign l (.leaf (.int value))

/-- `if position != bytes_to_bits(<getter>): raise` (CompoundField.inc.ftl:327-335, 437-442) -/
def check (h : Heap) (self index : Nat) (p : Path) (pos : Nat) : Except Err Unit := do
  let s ← p.eval h self index
  match s with
  | .one (.leaf v) => do
    let o ← v.asInt
    if (pos : Int) ≠ bytesToBits o then .error .offset else .ok ()
  | _ => .error .type

end Path

/-! ## Classes -/

/-- built-in types, see `ElemType` -/
inductive Leaf where
  | int (k : IntKind)
  | other (b : Builtin)
  | enum (e : EnumDef)
  | bitmask (underlying : IntKind)

/-- their methods, see `ElemType.methods` -/
def Leaf.methods : Leaf → Methods
  | .int k => intMethods k
  | .other b => otherMethods b
  | .enum e => enumMethods e
  | .bitmask k => bitmaskMethods k

/-- the type of a field or of its elements -/
inductive RType where
  | leaf (l : Leaf)
  | compound (cls : Nat)

/-- whether a field is optional; a condition can look at all objects -/
inductive ROptional where
  | required
  | auto
  | clause (c : Heap → Nat → Except Err Bool)

/-- A field. `array` says whether the length is written in front of the elements. `checks` are the checks of `write`. -/
structure RField where
  type : RType
  array : Option Bool := none
  optional : ROptional := .required
  alignment : Option Nat := none
  offset : Option Path := none
  checks : Heap → Nat → Except Err Unit := fun _ _ => .ok ()

/-- A structure: the types of its parameters, and its fields -/
structure Class where
  params : List RType := []
  fields : List RField

/-- the schema -/
abbrev Classes := Nat → Class

/-! ## The checks of the compiler -/

/-- What an expression refers to: a parameter of a class, a field of a class, or an element of a field which is an array
(`indexed`) -/
inductive Place where
  | param (cls i : Nat)
  | slot (cls j : Nat) (indexed : Bool)

/-- its type, `none` for an array (Expression.evaluateExpressionType, Expression.java:1748-1830) -/
def Place.type (S : Classes) : Place → Option RType
  | .param c i => (S c).params[i]?
  | .slot c j indexed =>
    match (S c).fields[j]? with
    | some f => if f.array.isSome = indexed then some f.type else none
    | none => none

/-- the class of the objects there -/
def Place.cls (S : Classes) (pl : Place) : Option Nat :=
  match pl.type S with
  | some (.compound d) => some d
  | _ => none

/-- What the expression refers to in the class `c`, `none` if the compiler refuses it (Expression.java:1041-1064, 1188-1211,
1660-1675). Simplification: all fields of the class are visible, not only those before the field with the offset. -/
def Path.place (S : Classes) (c : Nat) : Path → Option Place
  | .param i => some (.param c i)
  | .field j => some (.slot c j false)
  | .dot p j => ((p.place S c).bind (Place.cls S)).map fun d => .slot d j false
  | .dotParam p i => ((p.place S c).bind (Place.cls S)).map fun d => .param d i
  | .element p =>
    match p.place S c with
    | some (.slot d j false) => some (.slot d j true)
    | _ => none

/-- Field.checkOffsetExpression (Field.java:378-412): an unsigned integer with a fixed number of bits, and not just the name of a
parameter -/
def checkOffsetExpression (S : Classes) (c : Nat) (p : Path) : Bool :=
  (match (p.place S c).bind (Place.type S) with
    | some (.leaf (.int (.bitField _))) => true
    | _ => false) &&
  (match p with
    | .param _ => false
    | _ => true)

/-- ZserioParseTreeChecker.java:64-74, 149-470: `@index` is used only for an array, see `OffsetCheck.offsetSyntax` -/
def checkIndex (f : RField) (p : Path) : Bool := !p.containsIndex || f.array.isSome

/-- The checks for the offsets of a class (Field.check, Field.java:273-325; StructureType.checkDuplicatedOffsets,
StructureType.java:159-188: no two fields of the structure have the same offset). The checks for the other expressions are those of
`OffsetCheck.check`. -/
def checkOffsets (S : Classes) (c : Nat) : Bool :=
  (S c).fields.all (fun f =>
    match f.offset with
    | none => true
    | some p => checkOffsetExpression S c p && checkIndex f p) &&
  decide ((S c).fields.filterMap (·.offset)).Nodup

/-- the methods of nested objects -/
structure Ops where
  init : Heap → Nat → Nat → Except Err (Nat × Heap)
  write : Heap → Nat → M Writer Unit

namespace RField

/-- the offset of the field itself (CompoundField.inc.ftl:110, 143: `field.offset?? && !field.offset.containsIndex`) -/
def ownOffset (f : RField) : Option Path :=
  match f.offset with
  | some p => if p.containsIndex then none else some p
  | none => none

/-- the offset of its elements (CompoundField.inc.ftl:232, 437-455) -/
def elemOffset (f : RField) : Option Path :=
  match f.offset with
  | some p => if p.containsIndex then some p else none
  | none => none

/-- `is_<field>_used`, Structure.py.ftl:304 -/
def isUsed (f : RField) (h : Heap) (self : Nat) (s : Slot) : Except Err Bool :=
  match f.optional with
  | .required => .ok true
  | .auto => .ok (!s.isNone)
  | .clause c => c h self

/-- the presence bit of an auto optional field, CompoundField.inc.ftl:126-132 -/
def autoBit (f : RField) : Nat :=
  match f.optional with
  | .auto => 1
  | _ => 0

end RField

/-! ## initialize_offsets -/

/-- `initialize_offsets` of a value (CompoundField.inc.ftl:156-165) -/
def initValue (ops : Ops) (t : RType) (h : Heap) (p : Nat) (v : Value) : Except Err (Nat × Heap) :=
  match t, v with
  | .leaf l, .leaf v => do
    let (p, _, _) ← l.methods.initOffsets none Ctx.empty p v
    .ok (p, h)
  | .compound _, .ref a => ops.init h a p
  | _, _ => .error .type

/-- `end_bitposition = alignto(8, end_bitposition); set_offset(index, end_bitposition)` (array.py:262-263; for a field
CompoundField.inc.ftl:107-113, 143-147) -/
def initOffset (o : Option Path) (h : Heap) (self index p : Nat) : Except Err (Nat × Heap) :=
  match o with
  | none => .ok (p, h)
  | some path => do
    let h ← path.set h self index (Array'.align8 p)
    .ok (Array'.align8 p, h)

/-- array.py:258-267: the elements from number `i` on -/
def initElements (ops : Ops) (t : RType) (o : Option Path) (self : Nat) : Nat → List Value → Heap → Nat → Except Err (Nat × Heap)
  | _, [], h, p => .ok (p, h)
  | i, v :: vs, h, p => do
    let (p, h) ← initOffset o h self i p
    let (p, h) ← initValue ops t h p v
    initElements ops t o self (i + 1) vs h p

/-- CompoundField.inc.ftl:140-167 `compound_initialize_offsets_field_inner` -/
def initInner (ops : Ops) (f : RField) (h : Heap) (self : Nat) (s : Slot) (p : Nat) : Except Err (Nat × Heap) := do
  let (p, h) ← initOffset f.ownOffset h self 0 (FieldDef.alignPos f.alignment p)
  match f.array, s with
  | none, .one v => initValue ops f.type h p v
  | some isAuto, .many vs => do
    let p ← Array'.sizePrefix isAuto p vs.length
    initElements ops f.type f.elemOffset self 0 vs h p
  | _, _ => .error .type

/-- CompoundField.inc.ftl:115-138 `compound_initialize_offsets_field` of field `i` -/
def initField (ops : Ops) (f : RField) (h : Heap) (self i p : Nat) : Except Err (Nat × Heap) := do
  let s ← h.slot self i
  let used ← f.isUsed h self s
  if used then initInner ops f h self s (p + f.autoBit) else .ok (p + f.autoBit, h)

/-- the fields from number `i` on (Structure.py.ftl:433-456) -/
def initFields (ops : Ops) (self : Nat) : Nat → List RField → Heap → Nat → Except Err (Nat × Heap)
  | _, [], h, p => .ok (p, h)
  | i, f :: fs, h, p => do
    let (p, h) ← initField ops f h self i p
    initFields ops self (i + 1) fs h p

/-! ## write -/

/-- writing of a value (CompoundField.inc.ftl:310-325) -/
def writeValue (ops : Ops) (t : RType) (g : Heap) (v : Value) : M Writer Unit :=
  match t, v with
  | .leaf l, .leaf v => do
    let _ ← l.methods.write none Ctx.empty v
    pure ()
  | .compound _, .ref a => ops.write g a
  | _, _ => M.throw .type

/-- `alignto(8)` and the check of the offset (CompoundField.inc.ftl:301-304, array.py:413-414) -/
def writeOffset (o : Option Path) (g : Heap) (self index : Nat) : M Writer Unit :=
  match o with
  | none => pure ()
  | some path => do
    Writer.alignto 8
    let w ← M.get
    M.lift (path.check g self index w.pos)

/-- array.py:408-418: the elements from number `i` on -/
def writeElements (ops : Ops) (t : RType) (o : Option Path) (self : Nat) (g : Heap) : Nat → List Value → M Writer Unit
  | _, [] => pure ()
  | i, v :: vs => do
    writeOffset o g self i
    writeValue ops t g v
    writeElements ops t o self g (i + 1) vs

/-- `writer.alignto(n)` if the field has an alignment, CompoundField.inc.ftl:298-300 -/
def writeAlign (a : Option Nat) : M Writer Unit :=
  match a with
  | some a => Writer.alignto a
  | none => pure ()

/-- CompoundField.inc.ftl:296-325 `compound_write_field_inner` -/
def writeInner (ops : Ops) (f : RField) (g : Heap) (self : Nat) (s : Slot) : M Writer Unit := do
  writeAlign f.alignment
  writeOffset f.ownOffset g self 0
  M.lift (f.checks g self)
  match f.array, s with
  | none, .one v => writeValue ops f.type g v
  | some isAuto, .many vs => do
    Array'.writePrefix isAuto vs.length
    writeElements ops f.type f.elemOffset self g 0 vs
  | _, _ => M.throw .type

/-- the presence bit of an auto optional field, CompoundField.inc.ftl:282-290 -/
def writeAutoBit (f : RField) (used : Bool) : M Writer Unit :=
  match f.optional with
  | .auto => Writer.writeBool used
  | _ => pure ()

/-- CompoundField.inc.ftl:268-294 `compound_write_field` of field `i` -/
def writeField (ops : Ops) (f : RField) (g : Heap) (self i : Nat) : M Writer Unit := do
  let s ← M.lift (g.slot self i)
  let used ← M.lift (f.isUsed g self s)
  writeAutoBit f used
  if used then writeInner ops f g self s else pure ()

/-- the fields from number `i` on (Structure.py.ftl:581-600) -/
def writeFields (ops : Ops) (self : Nat) (g : Heap) : Nat → List RField → M Writer Unit
  | _, [] => pure ()
  | i, f :: fs => do
    writeField ops f g self i
    writeFields ops self g (i + 1) fs

/-! ## Objects -/

/-- The methods of objects; `n` is the depth of nested objects for which the stack is large enough. A method is that of the class
of the object. -/
def ops (S : Classes) : Nat → Ops
  | 0 => ⟨fun _ _ _ => .error .recursion, fun _ _ => M.throw .recursion⟩
  | n + 1 => {
      init := fun h a p =>
        match h[a]? with
        | none => .error .type
        | some o => initFields (ops S n) a 0 (S o.cls).fields h p
      write := fun g a =>
        match g[a]? with
        | none => M.throw .type
        | some o => writeFields (ops S n) a g 0 (S o.cls).fields }

/-- `zserio.serialize` without the bit buffer (serialization.py:9-35): the offsets are initialized, then the object is written. The
result of writing and all objects after it are returned. -/
def serialize (S : Classes) (n : Nat) (h : Heap) (a : Nat) : Except Err (Except Err Unit × Writer × Heap) := do
  let (_, h) ← (ops S n).init h a 0
  let (r, w) := (ops S n).write h a Writer.init
  .ok (r, w, h)

/-! ## The setter of an offset -/

/-- the tokens of a formatted offset expression -/
inductive Tok where
  /-- the accessor of a parameter or field; `self.` is written in front of the first one -/
  | self
  | paramName (i : Nat)
  | fieldName (i : Nat)
  | dot
  | lbracket
  | index
  | rbracket
  /-- ` = value` -/
  | assign
  deriving DecidableEq

/-- ExpressionFormatter.formatGetter, formatSetter (ExpressionFormatter.java:22-70, 169-173, 315-349) with
PythonExpressionFormattingPolicy.java:335-339, 368-392: `setter`, `inDot` and `inArray` are the attributes of the formatter when it
comes to the expression. The second operand of a dot is formatted with the old value of `inDot`. -/
def format (setter inDot inArray : Bool) : Path → List Tok
  | .param i => [.self, .dot, .paramName i]
  | .field i => [.self, .dot, .fieldName i] ++ (if setter && !inArray && !inDot then [.assign] else [])
  | .dotParam p i => format setter true inArray p ++ [.dot, .paramName i]
  | .dot p j =>
    format setter true inArray p ++ [.dot, .fieldName j] ++ (if setter && !inArray && !inDot then [.assign] else [])
  | .element p =>
    format setter inDot true p ++ [.lbracket, .index, .rbracket] ++ (if setter && !inDot then [.assign] else [])

end Zserio.Remote
