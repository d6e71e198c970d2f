import Verif.Spec.Packed
/-
Values of generated types and the schemas they are generated from.

The generated classes are produced from the templates in compiler/extensions/python/freemarker.  A schema is a table of
compound definitions; `Model/Compound.lean` gives the methods the templates produce for such a table.
-/
namespace Zserio

/-- A Python value stored in a generated object.  Enumeration items and bitmasks are represented by their integer values
(Enumeration.py.ftl:23, Bitmask.py.ftl:24), an `Array` by its raw list (array.py:38-70).  `obj` is an object of a generated
compound: its parameters, `_num_extended_fields` (Structure.py.ftl:53), `_choice_tag` (Union.py.ftl:57) and its field members
(for unions and choices the single member `_choice`, Union.py.ftl:58, Choice.py.ftl:80).  `unset` is a missing attribute.
Parameters of compound, floating point and string types are not modelled; boolean and enumeration parameters are integers. -/
inductive Val where
  | none
  | unset
  | int (v : Int)
  | bool (b : Bool)
  | float (x : PyFloat)
  | str (s : PyStr)
  | bytes (bs : List UInt8)
  | bitBuffer (b : BitBuffer)
  | arr (xs : List Val)
  | obj (params : List Int) (numExt : Nat) (tag : Int) (fields : List Val)

namespace Val

/-- `value is None` -/
def isNone : Val → Bool
  | none => true
  | _ => false

/-- an integer value; anything else raises `TypeError` / `AttributeError` when used as one -/
def asInt : Val → Except Err Int
  | int v => .ok v
  | _ => .error .type

/-- the list of an array field -/
def asArr : Val → Except Err (List Val)
  | arr xs => .ok xs
  | _ => .error .type

/-- the parameters of an object -/
def params : Val → Except Err (List Int)
  | obj ps _ _ _ => .ok ps
  | _ => .error .type

end Val

namespace Builtin

/-- the Python value of a built-in type -/
def inj : (b : Builtin) → b.Elem → Val
  | bitField _, v => .int v
  | signedBitField _, v => .int v
  | var _, v => .int v
  | float16, x => .float x
  | float32, x => .float x
  | float64, x => .float x
  | bool, x => .bool x
  | bytes, x => .bytes x
  | string, x => .str x
  | bitBuffer, x => .bitBuffer x

/-- Using a Python value as a value of a built-in type; a value of another type raises.  (Python would accept some values of
other types, e.g. `True` for an integer; such values are outside of the type annotations of the generated code.)  Bit buffers
which the constructor rejects (bitbuffer.py:32-36) do not exist and are not accepted here either. -/
def proj : (b : Builtin) → Val → Except Err b.Elem
  | bitField _, .int v => .ok v
  | signedBitField _, .int v => .ok v
  | var _, .int v => .ok v
  | float16, .float x => .ok x
  | float32, .float x => .ok x
  | float64, .float x => .ok x
  | bool, .bool x => .ok x
  | bytes, .bytes x => .ok x
  | string, .str x => .ok x
  | bitBuffer, .bitBuffer x => if x.bitsize ≤ 8 * x.buffer.length then .ok x else .error .type
  | _, _ => .error .type

end Builtin

/-- What the expressions of a field can see: the parameters of the compound, the fields declared before (the compiler rejects
references to later fields; a constraint sees its own field as well, appended) and the index of the array element. -/
structure Env where
  params : List Int
  fields : List Val
  index : Nat

/-- An expression of the schema language as generated (PythonExpressionFormatter): any function of what it can see, which may
raise. -/
abbrev Expr (α : Type) := Env → Except Err α

/-- An enumeration (Enumeration.py.ftl): underlying type, the values of its items (removed items included:
they are members of the generated class), the values of its removed items. -/
structure EnumDef where
  underlying : IntKind
  items : List Int
  removed : List Int

/-- The type of a field or of an array element.  `other` is used for the built-in types which cannot be packed. -/
inductive ElemType where
  | int (k : IntKind)
  | other (b : Builtin)
  | dynBits (signed : Bool) (length : Expr Int)
  | enum (e : EnumDef)
  | bitmask (underlying : IntKind)
  | compound (id : Nat) (args : List (Expr Int))

/-- `auto`: `T f[]`, `implicit`: `implicit T f[]`, `fixed`: `T f[length]` -/
inductive ArrayKind where
  | auto
  | implicit
  | fixed (length : Expr Int)

/-- array field: kind and the `packed` keyword (CompoundFieldTemplateData.java `Array`) -/
structure ArrayDef where
  kind : ArrayKind
  isPacked : Bool

/-- `optional T f` or `T f if clause` (CompoundField.inc.ftl:70-78) -/
inductive Optionality where
  | required
  | auto
  | clause (e : Expr Bool)

/-- `off: T f` or `offs[@index]: T f[]`, where the offset is a field of the same compound (offsets stored in nested compounds
are not modelled). -/
structure OffsetRef where
  field : Nat
  indexed : Bool

/-- A field (CompoundFieldTemplateData.java:30-66).  `default` is the value assigned to an extended field that is not in the
stream (`field_default_value`, Structure.py.ftl:22-34).  `packable` is `Field.isPackable` (core Field.java:231-241),
`recursive` is `Optional.isRecursive`.  `hash64`: the field is a dynamic bit field whose maximum size is more than 32 bits
(RuntimeFunctionDataCreator.java:53-59).  `rangeCheck`: the code was generated with `-withRangeCheckCode`
(CompoundFieldTemplateData.java:526-547). -/
structure FieldDef where
  type : ElemType
  array : Option ArrayDef := none
  optional : Optionality := .required
  extended : Bool := false
  alignment : Option Nat := none
  offset : Option OffsetRef := none
  constraint : Option (Expr Bool) := none
  default : Val := .none
  packable : Bool := false
  recursive : Bool := false
  hash64 : Bool := false
  rangeCheck : Bool := false

/-- A case of a choice: `case v1: case v2: field;`, the field may be missing (`case v: ;`) -/
structure CaseDef where
  values : List Int
  field : Option FieldDef

/-- A compound.  The `default` of a choice is missing, or has a field, or is empty.  A choice whose default is unreachable
(Choice.py.ftl:26-31: the last case is generated as `else`) is a choice with that last case as the default. -/
inductive CompoundDef where
  | struct (fields : List FieldDef)
  | union (fields : List FieldDef)
  | choice (selector : Expr Int) (cases : List CaseDef) (default : Option (Option FieldDef))

/-- The table of all compound definitions. -/
abbrev Schema := Nat → CompoundDef

/-- number of extended fields (CompoundField.inc.ftl:651-659 `num_extended_fields`) -/
def numExtended (fs : List FieldDef) : Nat := (fs.filter (·.extended)).length

end Zserio
