import Verif.Model.Schema
/-
Objects of generated classes as Python sees them: constructors, properties and the sharing of mutable objects.  Here a value is a
reference, so that two variables can refer to the same object.
-/
namespace Zserio.Objects

/-- A value held by a variable, a list or a member variable: `None`, an object which cannot be changed (numbers, strings, enumeration
items, bitmasks, bit buffers) or a reference to one which can. -/
inductive PyVal where
  | none
  | atom (v : Val)
  | ref (address : Nat)

/-- `value is None` -/
def PyVal.isNone : PyVal → Bool
  | .none => true
  | _ => false

/-- Objects which can be changed: `bytearray`, `list`, `zserio.array.Array` (array.py:37-69, of which only the raw array is modelled)
and instances of generated classes: their parameters, `_num_extended_fields` (Structure.py.ftl:58), `_choice_tag`
(Union.py.ftl:57) and members (for unions and choices the single member `_choice`, Union.py.ftl:58, Choice.py.ftl:80). -/
inductive Cell where
  | bytearray (bytes : List UInt8)
  | list (elements : List PyVal)
  | array (raw : PyVal)
  | inst (cls : Nat) (params : List PyVal) (numExt : Nat) (tag : Int) (members : List PyVal)

/-- the objects created so far, by address -/
abbrev Heap := List Cell

/-- creation of an object -/
def alloc (c : Cell) : M Heap PyVal := fun h => (.ok (.ref h.length), h ++ [c])

/-- the object a value refers to -/
def load (v : PyVal) : M Heap (Nat × Cell) := fun h =>
  match v with
  | .ref a =>
    match h[a]? with
    | some c => (.ok (a, c), h)
    | none => (.error .type, h)
  | _ => (.error .type, h)

/-- change of an object -/
def store (a : Nat) (c : Cell) : M Heap Unit := fun h => (.ok (), h.set a c)

/-- The type of a field as far as its default value is concerned: built-in Python types which cannot be changed with the value of
`type()`, `bytes` fields, which are of type `bytearray` (PythonNativeMapper.java:338-339), and other types (`typeInfo.isBuiltin` is
false: user types, bit buffers). -/
inductive FieldType where
  | builtin (zero : Val)
  | bytes
  | other

/-- a field of a compound type (CompoundFieldTemplateData.java) -/
structure FieldDef where
  type : FieldType
  isArray : Bool := false
  optional : Bool := false
  extended : Bool := false
  initializer : Option Val := none

/-- structures, unions and choices -/
inductive ClassKind where
  | struct
  | union
  | choice
  deriving DecidableEq

/-- a compound type -/
structure ClassDef where
  kind : ClassKind
  fields : List FieldDef

/-- an expression for a default value -/
inductive DefaultExpr where
  | value (v : Val)
  | none
  | newBytearray

/-- Structure.py.ftl:22-34 `field_default_value`; arrays are no built-in types (PythonNativeMapper.java:114) -/
def fieldDefault (f : FieldDef) : DefaultExpr :=
  match f.initializer with
  | some v => .value v
  | none =>
    if f.optional then .none
    else if f.isArray then .none
    else
      match f.type with
      | .builtin zero => .value zero
      | .bytes => .newBytearray
      | .other => .none

/-- evaluation of a default value -/
def evalDefault : DefaultExpr → M Heap PyVal
  | .value v => pure (.atom v)
  | .none => pure .none
  | .newBytearray => alloc (.bytearray [])

/-- a class with the default values of the parameters of its constructor, which belong to the function object -/
structure Class where
  type : ClassDef
  defaults : List PyVal

/-- evaluation of the default values of the parameters of a function -/
def evalDefaults : List DefaultExpr → M Heap (List PyVal)
  | [] => pure []
  | e :: es => do
    let v ← evalDefault e
    let vs ← evalDefaults es
    pure (v :: vs)

/-- Execution of a class statement: Python evaluates default values once, when the constructor is defined (Structure.py.ftl:36-45).
The parameters of constructors of unions and choices have the default `None` (Union.py.ftl:33-43, Choice.py.ftl:57-66). -/
def defineClass (c : ClassDef) : M Heap Class := do
  let defaults ← evalDefaults (c.fields.map fun f => if c.kind = .struct then fieldDefault f else .none)
  pure ⟨c, defaults⟩

/-- import of the generated modules: execution of the class statements -/
def defineClasses : List ClassDef → M Heap (List Class)
  | [] => pure []
  | c :: cs => do
    let x ← defineClass c
    let xs ← defineClasses cs
    pure (x :: xs)

namespace ClassDef

/-- `numExtendedFields`, Structure.py.ftl:17 -/
def numExtended (c : ClassDef) : Nat := c.fields.countP (·.extended)

/-- Structure.py.ftl:18-20 `extended_field_index` -/
def extIndex (c : ClassDef) (i : Nat) : Nat := i - (c.fields.length - c.numExtended)

/-- Structure.py.ftl:280-292: `is_<field>_present` -/
def isPresent (c : ClassDef) (numExt i : Nat) : Bool := decide (c.extIndex i < numExt)

/-- Structure.py.ftl:274-277, 325-328: a field which is assigned brings all extended fields into existence -/
def touch (c : ClassDef) (f : FieldDef) (numExt i : Nat) : Nat :=
  if f.extended ∧ !c.isPresent numExt i then c.numExtended else numExt

end ClassDef

/-- CompoundField.inc.ftl:36-50 `compound_setter_field`: the value of the member variable.  Arrays are wrapped (array.py:62: `[]`
in place of `None`). -/
def memberValue (f : FieldDef) (v : PyVal) : M Heap PyVal :=
  if f.isArray then
    match v with
    | .none =>
      if f.optional then pure .none
      else do
        let raw ← alloc (.list [])
        alloc (.array raw)
    | v => alloc (.array v)
  else pure v

/-- `raw_array`, array.py:163-171 -/
def rawArray (v : PyVal) : M Heap PyVal := do
  match (← load v).2 with
  | .array raw => pure raw
  | _ => M.throw .type

/-- CompoundField.inc.ftl:24-34 `compound_getter_field` -/
def memberGet (f : FieldDef) (v : PyVal) : M Heap PyVal :=
  if f.isArray then
    if f.optional ∧ v.isNone then pure .none else rawArray v
  else pure v

/-- the values of the members, one after the other (Structure.py.ftl:60-62) -/
def memberValues : List FieldDef → List PyVal → M Heap (List PyVal)
  | f :: fs, v :: vs => do
    let m ← memberValue f v
    let ms ← memberValues fs vs
    pure (m :: ms)
  | _, _ => pure []

/-- the arguments of a constructor: given ones and default values -/
def arguments (c : Class) (args : List (Option PyVal)) : List PyVal :=
  c.defaults.mapIdx fun i d => (args[i]?.getD none).getD d

/-- Union.py.ftl:59-68: the member and `_choice_tag` set by a constructor -/
def unionMember : Nat → List FieldDef → List PyVal → (tag : Int) → PyVal → M Heap (Int × PyVal)
  | i, f :: fs, v :: vs, tag, choice =>
    if v.isNone then unionMember (i + 1) fs vs tag choice
    else if tag ≠ -1 then M.throw .ambiguous
    else do
      let m ← memberValue f v
      unionMember (i + 1) fs vs i m
  | _, _, _, tag, choice => pure (tag, choice)

/-- Choice.py.ftl:81-90: the member set by a constructor -/
def choiceMember : List FieldDef → List PyVal → PyVal → M Heap PyVal
  | f :: fs, v :: vs, choice =>
    if v.isNone then choiceMember fs vs choice
    else if !choice.isNone then M.throw .ambiguous
    else do
      let m ← memberValue f v
      choiceMember fs vs m
  | _, _, choice => pure choice

/-- `__init__`, Structure.py.ftl:36-62, Union.py.ftl:31-69, Choice.py.ftl:54-90; `cls` is the number of the class -/
def construct (cls : Nat) (c : Class) (params : List PyVal) (args : List (Option PyVal)) : M Heap PyVal :=
  match c.type.kind with
  | .struct => do
    let members ← memberValues c.type.fields (arguments c args)
    alloc (.inst cls params (if 0 < c.type.numExtended then c.type.fields.length else 0) (-1) members)
  | .union => do
    let (tag, choice) ← unionMember 0 c.type.fields (arguments c args) (-1) .none
    alloc (.inst cls params 0 tag [choice])
  | .choice => do
    let choice ← choiceMember c.type.fields (arguments c args) .none
    alloc (.inst cls params 0 (-1) [choice])

/-- an instance of a generated class, with the class -/
def loadInst (classes : List Class) (o : PyVal) :
    M Heap (Nat × Nat × Class × List PyVal × Nat × Int × List PyVal) := do
  let (a, cell) ← load o
  match cell with
  | .inst cls params numExt tag members =>
    match classes[cls]? with
    | some c => pure (a, cls, c, params, numExt, tag, members)
    | none => M.throw .type
  | _ => M.throw .type

/-- where the value of the `i`-th field is stored -/
def slot (c : Class) (i : Nat) : Nat := if c.type.kind = .struct then i else 0

/-- the getter of the `i`-th field, Structure.py.ftl:238-254, Union.py.ftl:234-250, Choice.py.ftl:257-273 -/
def getField (classes : List Class) (o : PyVal) (i : Nat) : M Heap PyVal := do
  let (_, _, c, _, _, _, members) ← loadInst classes o
  match c.type.fields[i]?, members[slot c i]? with
  | some f, some m => memberGet f m
  | _, _ => M.throw .type

/-- the setter of the `i`-th field, Structure.py.ftl:257-278, Union.py.ftl:253-271, Choice.py.ftl:276-293 -/
def setField (classes : List Class) (o : PyVal) (i : Nat) (v : PyVal) : M Heap Unit := do
  let (a, cls, c, params, numExt, tag, members) ← loadInst classes o
  match c.type.fields[i]? with
  | some f => do
    let m ← memberValue f v
    match c.type.kind with
    | .struct => store a (.inst cls params (c.type.touch f numExt i) tag (members.set i m))
    | .union => store a (.inst cls params numExt i [m])
    | .choice => store a (.inst cls params numExt tag [m])
  | none => M.throw .type

/-- `reset_<field>`, Structure.py.ftl:318-329: optional fields of structures only -/
def resetField (classes : List Class) (o : PyVal) (i : Nat) : M Heap Unit := do
  let (a, cls, c, params, numExt, tag, members) ← loadInst classes o
  match c.type.fields[i]? with
  | some f =>
    if c.type.kind = .struct ∧ f.optional then
      store a (.inst cls params (c.type.touch f numExt i) tag (members.set i .none))
    else M.throw .type
  | none => M.throw .type

/-- `is_<field>_set`, Structure.py.ftl:307-316: optional fields of structures only -/
def isSet (classes : List Class) (o : PyVal) (i : Nat) : M Heap Bool := do
  let (_, _, c, _, _, _, members) ← loadInst classes o
  match c.type.fields[i]?, members[i]? with
  | some f, some m => if c.type.kind = .struct ∧ f.optional then pure !m.isNone else M.throw .type
  | _, _ => M.throw .type

/-- `is_<field>_present`, Structure.py.ftl:280-292: extended fields only -/
def isFieldPresent (classes : List Class) (o : PyVal) (i : Nat) : M Heap Bool := do
  let (_, _, c, _, numExt, _, _) ← loadInst classes o
  match c.type.fields[i]? with
  | some f => if f.extended then pure (c.type.isPresent numExt i) else M.throw .type
  | none => M.throw .type

/-- `choice_tag` of unions, Union.py.ftl:294-304 -/
def choiceTag (classes : List Class) (o : PyVal) : M Heap Int := do
  let (_, _, c, _, _, tag, _) ← loadInst classes o
  if c.type.kind = .union then pure tag else M.throw .type

/-- the getter of the `i`-th parameter (CompoundParameter.inc.ftl:47-49) -/
def getParam (classes : List Class) (o : PyVal) (i : Nat) : M Heap PyVal := do
  let (_, _, _, params, _, _, _) ← loadInst classes o
  match params[i]? with
  | some p => pure p
  | none => M.throw .type

/-! ### Objects which are read -/

/-- What a reader finds in a stream for a value: `arr` is a field which is an array. -/
inductive Content where
  | none
  | atom (v : Val)
  | bytes (bs : List UInt8)
  | arr (elements : List Content)
  | obj (cls : Nat) (params : List Val) (numExt : Nat) (tag : Int) (fields : List Content)

mutual
/-- Objects created for a value which is read: `from_reader` creates a new object (`object.__new__`, Structure.py.ftl:80), `read_bytes`
a new bytearray (bitreader.py:500-511) and `Array.from_reader` a new list (array.py:70-105).  Parameters of compound types, which
are references to other fields of the same object, are not modelled. -/
def readContent : Content → M Heap PyVal
  | .none => pure .none
  | .atom v => pure (.atom v)
  | .bytes bs => alloc (.bytearray bs)
  | .arr elements => do
    let vs ← readContents elements
    let raw ← alloc (.list vs)
    alloc (.array raw)
  | .obj cls params numExt tag fields => do
    let ms ← readContents fields
    alloc (.inst cls (params.map .atom) numExt tag ms)
/-- values one after the other -/
def readContents : List Content → M Heap (List PyVal)
  | [] => pure []
  | c :: cs => do
    let v ← readContent c
    let vs ← readContents cs
    pure (v :: vs)
end

/-! ### Programs -/

/-- A statement of a program which uses generated classes; `x`, `y` … are variables. -/
inductive Stmt where
  /-- `x = value` for a value which cannot be changed -/
  | const (x : Nat) (v : Val)
  /-- `x = y` -/
  | assign (x y : Nat)
  /-- `x = bytearray(bs)` -/
  | newBytes (x : Nat) (bs : List UInt8)
  /-- `x = [y, …]` -/
  | newList (x : Nat) (ys : List Nat)
  /-- `x = Class(y, …, field=y, …)`; `none` for arguments which are not given -/
  | construct (x cls : Nat) (params : List Nat) (args : List (Option Nat))
  /-- `x = Class.from_reader(…)` -/
  | read (x : Nat) (content : Content)
  /-- `x = o.field` -/
  | get (x o i : Nat)
  /-- `o.field = y` -/
  | set (o i y : Nat)
  /-- `o.reset_field()` -/
  | reset (o i : Nat)
  /-- `x = o.parameter` -/
  | param (x o i : Nat)
  /-- `b.extend(bs)` -/
  | extend (b : Nat) (bs : List UInt8)
  /-- `b[i] = byte` -/
  | setByte (b i : Nat) (byte : UInt8)
  /-- `l.append(y)` -/
  | append (l y : Nat)
  /-- `x = l[i]` -/
  | item (x l i : Nat)
  /-- `l[i] = y` -/
  | setItem (l i y : Nat)
  /-- `del l[i]` -/
  | delItem (l i : Nat)

/-- the objects and the values of the variables -/
structure World where
  heap : Heap
  env : Nat → PyVal

namespace World

/-- assignment of the result of a computation; an exception leaves the variable as it is -/
def bindVar (w : World) (x : Nat) (m : M Heap PyVal) : World :=
  match m w.heap with
  | (.ok v, h) => ⟨h, fun y => if y = x then v else w.env y⟩
  | (.error _, h) => ⟨h, w.env⟩

/-- a computation without result -/
def exec (w : World) (m : M Heap Unit) : World := ⟨(m w.heap).2, w.env⟩

end World

/-- `b.extend(bs)`, `b[i] = byte` on the contents of a bytearray -/
def changeBytes (b : PyVal) (f : List UInt8 → Option (List UInt8)) : M Heap Unit := do
  let (a, cell) ← load b
  match cell with
  | .bytearray bs =>
    match f bs with
    | some bs' => store a (.bytearray bs')
    | none => M.throw .index
  | _ => M.throw .type

/-- a change of a list -/
def changeList (l : PyVal) (f : List PyVal → Option (List PyVal)) : M Heap Unit := do
  let (a, cell) ← load l
  match cell with
  | .list vs =>
    match f vs with
    | some vs' => store a (.list vs')
    | none => M.throw .index
  | _ => M.throw .type

/-- an element of a list -/
def listItem (l : PyVal) (i : Nat) : M Heap PyVal := do
  match (← load l).2 with
  | .list vs =>
    match vs[i]? with
    | some v => pure v
    | none => M.throw .index
  | _ => M.throw .type

/-- Execution of a statement.  Exceptions end the statement, not the program: the program may catch them. -/
def step (classes : List Class) (w : World) : Stmt → World
  | .const x v => w.bindVar x (pure (.atom v))
  | .assign x y => w.bindVar x (pure (w.env y))
  | .newBytes x bs => w.bindVar x (alloc (.bytearray bs))
  | .newList x ys => w.bindVar x (alloc (.list (ys.map w.env)))
  | .construct x cls params args =>
    match classes[cls]? with
    | some c => w.bindVar x (construct cls c (params.map w.env) (args.map (·.map w.env)))
    | none => w
  | .read x content => w.bindVar x (readContent content)
  | .get x o i => w.bindVar x (getField classes (w.env o) i)
  | .set o i y => w.exec (setField classes (w.env o) i (w.env y))
  | .reset o i => w.exec (resetField classes (w.env o) i)
  | .param x o i => w.bindVar x (getParam classes (w.env o) i)
  | .extend b bs => w.exec (changeBytes (w.env b) fun old => some (old ++ bs))
  | .setByte b i byte => w.exec (changeBytes (w.env b) fun old => if i < old.length then some (old.set i byte) else none)
  | .append l y => w.exec (changeList (w.env l) fun old => some (old ++ [w.env y]))
  | .item x l i => w.bindVar x (listItem (w.env l) i)
  | .setItem l i y => w.exec (changeList (w.env l) fun old => if i < old.length then some (old.set i (w.env y)) else none)
  | .delItem l i => w.exec (changeList (w.env l) fun old => if i < old.length then some (old.eraseIdx i) else none)

/-- execution of a program -/
def run (classes : List Class) (w : World) (p : List Stmt) : World := p.foldl (step classes) w

/-- the classes after the import of the generated modules -/
def imported (defs : List ClassDef) : List Class :=
  match (defineClasses defs []).1 with
  | .ok cs => cs
  | .error _ => []

/-- the state after the import: all variables are `None` -/
def start (defs : List ClassDef) : World := ⟨(defineClasses defs []).2, fun _ => .none⟩

end Zserio.Objects
