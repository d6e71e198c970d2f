import Verif.Model.TypeInfo
import Verif.Model.Compound
/-
Model of `ZserioTreeCreator` (creator.py).

Simplifications: the root type is a compound (everything else fails at the first call which needs the fields of the root type);
values do not carry their Python class, so the model takes an object where an object of a compound class is expected for an
object of this class, an integer which is the value of an item for the item of the enumeration, and an integer for a bitmask of
the expected class; a setter of a field whose array traits depend on other fields (`bit<length>`) evaluates the length when it is
called, which may raise - in the model setters of objects never raise.
-/
namespace Zserio

/-- creator.py:312-315 `_State` -/
inductive CreatorState where
  | beforeRoot
  | inCompound
  | inArray
  deriving DecidableEq, Repr

/-- creator.py:35-39: the attributes.  The stacks have their top first; an array under construction is an `arr`. -/
structure Creator where
  rootType : Nat
  rootArgs : List Int
  memberStack : List MemberInfo
  valueStack : List Val
  state : CreatorState

namespace Creator

/-- creator.py:23-39 `__init__` -/
def new (rootType : Nat) (rootArgs : List Int) : Creator := ⟨rootType, rootArgs, [], [], .beforeRoot⟩

/-- `isinstance(value, type_info.py_type)`; `bool` is a subclass of `int` -/
def isInstance : TypeInfo → Val → Bool
  | .builtin .int, .int _ => true
  | .builtin .int, .bool _ => true
  | .builtin .bool, .bool _ => true
  | .builtin .float, .float _ => true
  | .builtin .str, .str _ => true
  | .builtin .bytearray, .bytes _ => true
  | .builtin .bitBuffer, .bitBuffer _ => true
  | .enum e, .int x => e.items.any fun item => item.value == x
  | .bitmask _, .int _ => true
  | .compound _, .obj _ _ _ _ => true
  | _, _ => false

/-- creator.py:286-288: the type info of the compound at the top of the value stack, which is a compound in the state IN_COMPOUND -/
def topType (rootType : Nat) : List MemberInfo → Option Nat
  | [] => some rootType
  | m :: _ =>
    match m.type with
    | .compound id => some id
    | _ => none

/-- creator.py:286-288 `_get_type_info` -/
def typeId (s : Creator) : Option Nat := topType s.rootType s.memberStack

/-- creator.py:290-298 `_find_member_info` -/
def findMember : List MemberInfo → PyStr → Except Err MemberInfo
  | [], _ => .error .creator
  | m :: ms, name => if m.schemaName = name then .ok m else findMember ms name

/-- what the type arguments see of the parent: its parameters and the fields before the field `m` (members of a union or choice
see the parameters only) -/
def argEnv (ci : CompoundInfo) (parent : Val) (m : MemberInfo) (index : Option Nat) : Except Err Env :=
  match parent with
  | .obj params _ _ fields =>
    match ci.kind with
    | .struct => .ok ⟨params, fields.take m.prop, index.getD 0⟩
    | _ => .ok ⟨params, [], index.getD 0⟩
  | _ => .error .type

/-- creator.py:300-310 `_create_object`; `pci` is the type of the parent, `id` the compound type of the member -/
def createObject (I : TypeInfos) (pci : CompoundInfo) (m : MemberInfo) (id : Nat) (parent : Val) (index : Option Nat) :
    Except Err Val := do
  let env ← argEnv pci parent m index
  let args ← evalArgs m.args env
  (I id).new args

/-- `setattr(self._value_stack[-1], property, value)` for the current value stack, where the object has the type `id` -/
def setTop (I : TypeInfos) (id : Nat) (m : MemberInfo) (v : Val) : M Creator Unit := fun s =>
  match s.valueStack with
  | [] => (.error .index, s)
  | o :: vs =>
    match (I id).setAttr o m v with
    | .error e => (.error e, s)
    | .ok o => (.ok (), { s with valueStack := o :: vs })

/-- the member info of a field of the current compound: creator.py:76, 117, 170, 203 -/
def member (I : TypeInfos) (name : PyStr) (s : Creator) : Except Err (Nat × MemberInfo) :=
  match s.typeId with
  | none => .error .type
  | some id => do
    let m ← findMember (I id).fields name
    .ok (id, m)

/-- creator.py:41-50 `begin_root` -/
def beginRoot (I : TypeInfos) : M Creator Unit := fun s =>
  if s.state ≠ .beforeRoot then (.error .creator, s)
  else
    match (I s.rootType).new s.rootArgs with
    | .error e => (.error e, s)
    | .ok o => (.ok (), { s with valueStack := o :: s.valueStack, state := .inCompound })

/-- creator.py:52-64 `end_root` -/
def endRoot : M Creator Val := fun s =>
  if s.state ≠ .inCompound ∨ s.valueStack.length ≠ 1 then (.error .creator, s)
  else
    let s := { s with state := .beforeRoot }
    match s.valueStack with
    | [] => (.error .index, s)
    | v :: vs => (.ok v, { s with valueStack := vs })

/-- creator.py:66-85 `begin_array` -/
def beginArray (I : TypeInfos) (name : PyStr) : M Creator Unit := fun s =>
  if s.state ≠ .inCompound then (.error .creator, s)
  else
    match s.member I name with
    | .error e => (.error e, s)
    | .ok (_, m) =>
      if !m.isArray then (.error .creator, s)
      else (.ok (), { s with memberStack := m :: s.memberStack, valueStack := .arr [] :: s.valueStack, state := .inArray })

/-- creator.py:97-103 after the state has been checked: pop the member info and the value, set the field of the new top of the
value stack.  The type of the object there is the type of the new top of the member info stack. -/
def popAndSet (I : TypeInfos) : M Creator Unit := fun s =>
  match s.memberStack with
  | [] => (.error .index, s)
  | m :: ms =>
    let s := { s with memberStack := ms }
    match s.valueStack with
    | [] => (.error .index, s)
    | v :: vs =>
      let s := { s with valueStack := vs }
      match s.typeId with
      | none => (.error .type, s)
      | some id => setTop I id m v s

/-- creator.py:87-103 `end_array` -/
def endArray (I : TypeInfos) : M Creator Unit := fun s =>
  if s.state ≠ .inArray then (.error .creator, s)
  else
    match popAndSet I s with
    | (.error e, s) => (.error e, s)
    | (.ok (), s) => (.ok (), { s with state := .inCompound })

/-- creator.py:105-132 `begin_compound` -/
def beginCompound (I : TypeInfos) (name : PyStr) : M Creator Unit := fun s =>
  if s.state ≠ .inCompound then (.error .creator, s)
  else
    match s.member I name with
    | .error e => (.error e, s)
    | .ok (pid, m) =>
      if m.isArray then (.error .creator, s)
      else
        match m.type with
        | .compound id =>
          match s.valueStack with
          | [] => (.error .index, s)
          | parent :: _ =>
            match createObject I (I pid) m id parent none with
            | .error e => (.error e, s)
            | .ok o =>
              (.ok (), { s with memberStack := m :: s.memberStack, valueStack := o :: s.valueStack, state := .inCompound })
        | _ => (.error .creator, s)

/-- creator.py:134-156 `end_compound` -/
def endCompound (I : TypeInfos) : M Creator Unit := fun s =>
  match s.memberStack with
  | [] => (.error .creator, s)
  | m :: _ =>
    if s.state ≠ .inCompound then (.error .creator, s)
    else if m.isArray then (.error .creator, s)
    else popAndSet I s

/-- creator.py:172-182, 265-270: the check of a value -/
def checkValue (m : MemberInfo) (v : Val) : Bool := v.isNone || isInstance m.type v

/-- creator.py:158-189 `set_value` -/
def setValue (I : TypeInfos) (name : PyStr) (v : Val) : M Creator Unit := fun s =>
  if s.state ≠ .inCompound then (.error .creator, s)
  else
    match s.member I name with
    | .error e => (.error e, s)
    | .ok (id, m) =>
      if !v.isNone && m.isArray then (.error .creator, s)
      else if !checkValue m v then (.error .creator, s)
      else setTop I id m v s

/-- creator.py:191-204 `get_field_type` -/
def getFieldType (I : TypeInfos) (name : PyStr) : M Creator TypeInfo := fun s =>
  if s.state ≠ .inCompound then (.error .creator, s)
  else
    match s.member I name with
    | .error e => (.error e, s)
    | .ok (_, m) => (.ok m.type, s)

/-- creator.py:206-228 `begin_compound_element`; `value_stack[-1]` is the array, `value_stack[-2]` the compound with the array
field, whose type is the type of `member_info_stack[-2]` (or the root type) -/
def beginCompoundElement (I : TypeInfos) : M Creator Unit := fun s =>
  if s.state ≠ .inArray then (.error .creator, s)
  else
    match s.memberStack with
    | [] => (.error .index, s)
    | m :: ms =>
      match m.type with
      | .compound id =>
        match s.valueStack with
        | .arr xs :: parent :: _ =>
          match topType s.rootType ms with
          | none => (.error .type, s)
          | some pid =>
            match createObject I (I pid) m id parent (some xs.length) with
            | .error e => (.error e, s)
            | .ok o => (.ok (), { s with valueStack := o :: s.valueStack, state := .inCompound })
        | _ => (.error .index, s)
      | _ => (.error .creator, s)

/-- `self._value_stack[-1].append(value)` -/
def appendTop (v : Val) : M Creator Unit := fun s =>
  match s.valueStack with
  | .arr xs :: vs => (.ok (), { s with valueStack := .arr (xs ++ [v]) :: vs })
  | _ => (.error .type, s)

/-- creator.py:230-248 `end_compound_element` -/
def endCompoundElement : M Creator Unit := fun s =>
  match s.memberStack with
  | [] => (.error .creator, s)
  | m :: _ =>
    if s.state ≠ .inCompound then (.error .creator, s)
    else if !m.isArray then (.error .creator, s)
    else
      match s.valueStack with
      | [] => (.error .index, s)
      | v :: vs =>
        match appendTop v { s with valueStack := vs } with
        | (.error e, s) => (.error e, s)
        | (.ok (), s) => (.ok (), { s with state := .inArray })

/-- creator.py:250-270 `add_value_element` -/
def addValueElement (v : Val) : M Creator Unit := fun s =>
  if s.state ≠ .inArray then (.error .creator, s)
  else
    match s.memberStack with
    | [] => (.error .index, s)
    | m :: _ => if !checkValue m v then (.error .creator, s) else appendTop v s

/-- creator.py:272-284 `get_element_type` -/
def getElementType : M Creator TypeInfo := fun s =>
  if s.state ≠ .inArray then (.error .creator, s)
  else
    match s.memberStack with
    | [] => (.error .index, s)
    | m :: _ => (.ok m.type, s)

/-- the public methods -/
inductive Call where
  | beginRoot
  | endRoot
  | beginArray (name : PyStr)
  | endArray
  | beginCompound (name : PyStr)
  | endCompound
  | setValue (name : PyStr) (v : Val)
  | getFieldType (name : PyStr)
  | beginCompoundElement
  | endCompoundElement
  | addValueElement (v : Val)
  | getElementType

/-- what the methods return -/
inductive Result where
  | none
  | object (v : Val)
  | type (t : TypeInfo)

/-- a call of a method which returns nothing -/
def quiet (x : M Creator Unit) : M Creator Result := fun s => ((x s).1.map fun _ => .none, (x s).2)

/-- a call of a method -/
def call (I : TypeInfos) : Call → M Creator Result
  | .beginRoot => quiet (Creator.beginRoot I)
  | .endRoot => fun s => ((Creator.endRoot s).1.map .object, (Creator.endRoot s).2)
  | .beginArray name => quiet (Creator.beginArray I name)
  | .endArray => quiet (Creator.endArray I)
  | .beginCompound name => quiet (Creator.beginCompound I name)
  | .endCompound => quiet (Creator.endCompound I)
  | .setValue name v => quiet (Creator.setValue I name v)
  | .getFieldType name => fun s => ((Creator.getFieldType I name s).1.map .type, (Creator.getFieldType I name s).2)
  | .beginCompoundElement => quiet (Creator.beginCompoundElement I)
  | .endCompoundElement => quiet Creator.endCompoundElement
  | .addValueElement v => quiet (Creator.addValueElement v)
  | .getElementType => fun s => ((Creator.getElementType s).1.map .type, (Creator.getElementType s).2)

/-- successive calls, which end with the first exception -/
def run (I : TypeInfos) : List Call → M Creator (List Result)
  | [] => fun s => (.ok [], s)
  | c :: cs => fun s =>
    match call I c s with
    | (.error e, s) => (.error e, s)
    | (.ok r, s) =>
      match run I cs s with
      | (.error e, s) => (.error e, s)
      | (.ok rs, s) => (.ok (r :: rs), s)

end Creator
end Zserio
