import Verif.Model.Enumeration
import Verif.Model.Bitmask
import Verif.Model.JsonText
/-
Type information of generated types (typeinfo.py, TypeInfo.inc.ftl and the `type_info` methods of the templates) and the part
of the interface of generated objects which the walker, the tree creator and the JSON reader use through it: the constructor
called with the parameters only, `choice_tag`, `getattr` and `setattr` of field properties.

Only attributes read by the modelled code are kept: FIELDS, SELECTOR, ENUM_ITEMS, BITMASK_VALUES, ARRAY_LENGTH (its presence),
PROPERTY_NAME and TYPE_ARGUMENTS.
-/
namespace Zserio

/-- `TypeInfo.py_type` of the built-in types, PythonNativeMapper.java:270-350 -/
inductive PyType where
  | int
  | bool
  | float
  | str
  | bytearray
  | bitBuffer
  deriving DecidableEq, Repr

/-- typeinfo.py:9-200 `TypeInfo`, 203-260 `RecursiveTypeInfo` (which only delays the access to the type info it stands for).
The built-in types with the schema names "extern" and "bytes" are those with the Python types `BitBuffer` and `bytearray`
(both names are keywords, so no other type has them).  A compound is its number in the table of compounds. -/
inductive TypeInfo where
  | builtin (t : PyType)
  | enum (e : EnumClass)
  | bitmask (d : BitmaskDef)
  | compound (id : Nat)

/-- typeinfo.py:330-470 `MemberInfo` of a field, TypeInfo.inc.ftl:1-20, 98-165.  `prop` is PROPERTY_NAME: properties are
numbered in the order of the fields of the class.  `isArray`: the attribute ARRAY_LENGTH is present.  `optional`: the template
generated code for an optional field (only of interest for the property of an array).  `extIndex` is the position of an
extended field among the extended fields (`extended_field_index`, Structure.py.ftl:18-20).  `args` is TYPE_ARGUMENTS; each
function sees the parameters and the earlier fields of the parent. -/
structure MemberInfo where
  schemaName : PyStr
  type : TypeInfo
  prop : Nat
  isArray : Bool := false
  optional : Bool := false
  extIndex : Option Nat := none
  args : List (Expr Int) := []

/-- What distinguishes structures (no attribute SELECTOR), unions (SELECTOR is `None`, `choice_tag` is stored, Union.py.ftl:305-316)
and choices (`choice_tag` is computed from the parameters, Choice.py.ftl:315-345). -/
inductive CompoundKind where
  | struct
  | union
  | choice (tag : List Int → Except Err Int)

/-- The type info of a compound and the facts about its class: number of parameters, the default values of the constructor
arguments (Structure.py.ftl:22-34, only for structures) and the number of extended fields. -/
structure CompoundInfo where
  kind : CompoundKind
  fields : List MemberInfo
  numParams : Nat := 0
  defaults : List Val := []
  numExtended : Nat := 0

/-- the type infos of all compounds -/
abbrev TypeInfos := Nat → CompoundInfo

/-- `UNDEFINED_CHOICE`, Union.py.ftl:540, Choice.py.ftl:650 -/
def UNDEFINED_CHOICE : Int := -1

namespace CompoundInfo

/-- `choice_tag`, Union.py.ftl:305-316, Choice.py.ftl:315-345; `none` for structures, which have no selector -/
def choiceTag (ci : CompoundInfo) (params : List Int) (tag : Int) : Except Err (Option Int) :=
  match ci.kind with
  | .struct => .ok none
  | .union => .ok (some tag)
  | .choice f => do
    let t ← f params
    .ok (some t)

/-- `fields[choice_tag]`, walker.py:258.  A tag which is not the number of a field raises `IndexError`.  (Python would accept some
negative numbers, but the classes never have a negative tag other than `UNDEFINED_CHOICE`.) -/
def fieldAt (ci : CompoundInfo) (tag : Int) : Option MemberInfo := if tag < 0 then none else ci.fields[tag.toNat]?

/-- `self._num_extended_fields` after the constructor, Structure.py.ftl:57-59: the number of all fields -/
def initialExtended (ci : CompoundInfo) : Nat := if ci.numExtended > 0 then ci.fields.length else 0

/-- `py_type(*arguments)`, Structure.py.ftl:36-62, Union.py.ftl:30-68, Choice.py.ftl:52-82: a call with another number of
positional arguments is a `TypeError` for unions and choices.  (A structure takes its fields as further positional arguments;
neither the generated type arguments nor the callers of this model pass any.) -/
def new (ci : CompoundInfo) (params : List Int) : Except Err Val :=
  if params.length ≠ ci.numParams then .error .type
  else
    match ci.kind with
    | .struct => .ok (.obj params ci.initialExtended 0 ci.defaults)
    | .union => .ok (.obj params 0 UNDEFINED_CHOICE [.none])
    | .choice _ => .ok (.obj params 0 0 [.none])

end CompoundInfo

namespace MemberInfo

/-- the getter of the property, given the value of the member variable, CompoundField.inc.ftl:24-34: `raw_array` of `None` or of
something else than an `Array` raises, and so does the access to a missing member variable -/
def get (m : MemberInfo) (x : Val) : Except Err Val :=
  match x with
  | .unset => .error .type
  | .arr xs => .ok (.arr xs)
  | .none => if m.isArray && !m.optional then .error .type else .ok .none
  | x => if m.isArray then .error .type else .ok x

/-- the value which the setter of the property stores, CompoundField.inc.ftl:36-50 and array.py:62: `Array(..., None)` is empty -/
def stored (m : MemberInfo) (x : Val) : Val :=
  match x with
  | .none => if m.isArray && !m.optional then .arr [] else .none
  | x => x

end MemberInfo

namespace CompoundInfo

/-- `self._num_extended_fields` after the setter of the property, Structure.py.ftl:274-277 -/
def setExtended (ci : CompoundInfo) (numExt : Nat) (m : MemberInfo) : Nat :=
  match m.extIndex with
  | some i => if numExt > i then numExt else ci.numExtended
  | none => numExt

/-- `setattr(object, property, value)`, Structure.py.ftl:258-281, Union.py.ftl:262-285, Choice.py.ftl:262-284: the setter of an
extended field which is not present makes all extended fields present; a setter of a union changes the choice tag. -/
def setAttr (ci : CompoundInfo) (o : Val) (m : MemberInfo) (x : Val) : Except Err Val :=
  match o with
  | .obj params numExt tag fields =>
    match ci.kind with
    | .struct => .ok (.obj params (ci.setExtended numExt m) tag (fields.set m.prop (m.stored x)))
    | .union => .ok (.obj params numExt (m.prop : Int) [m.stored x])
    | .choice _ => .ok (.obj params numExt tag [m.stored x])
  | _ => .error .type

/-- the member variable behind a property: of a union or choice it is `_choice` -/
def attr (ci : CompoundInfo) (fields : List Val) (m : MemberInfo) : Option Val :=
  match ci.kind with
  | .struct => fields[m.prop]?
  | _ => fields[0]?

end CompoundInfo

end Zserio
