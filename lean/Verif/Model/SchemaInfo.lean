import Verif.Model.TypeInfo
import Verif.Model.Compound
/-
The type infos of the classes generated for a schema: what the `type_info` methods of Structure.py.ftl, Union.py.ftl and
Choice.py.ftl return (TypeInfo.inc.ftl), together with the facts about the constructors which `Model/TypeInfo.lean` keeps there.

`Schema` (Model/Schema.lean) has no names; what type infos tell in addition is given by `Labels`.
-/
namespace Zserio

/-- What a type info tells about a compound and does not follow from the methods which read and write it: the schema names of its
fields, the classes of enumeration and bitmask fields (`<type>.type_info()`, TypeInfo.inc.ftl:73-79; fields are given by the number
of the compound and their number) and the number of parameters. -/
structure Labels where
  name : (id k : Nat) → PyStr
  enumClass : (id k : Nat) → EnumClass
  bitmask : (id k : Nat) → BitmaskDef
  numParams : (id : Nat) → Nat

/-- `typeFullName` of built-in types, PythonNativeMapper.java:270-350 -/
def Builtin.pyType : Builtin → PyType
  | .bitField _ => .int
  | .signedBitField _ => .int
  | .var _ => .int
  | .float16 => .float
  | .float32 => .float
  | .float64 => .float
  | .bool => .bool
  | .bytes => .bytearray
  | .string => .str
  | .bitBuffer => .bitBuffer

namespace ElemType

/-- TypeInfo.inc.ftl:73-79 `type_info`, 4-17 `RecursiveTypeInfo` -/
def info (enum : EnumClass) (mask : BitmaskDef) : ElemType → TypeInfo
  | .int _ => .builtin .int
  | .other b => .builtin b.pyType
  | .dynBits _ _ => .builtin .int
  | .enum _ => .enum enum
  | .bitmask _ => .bitmask mask
  | .compound id _ => .compound id

/-- TYPE_ARGUMENTS, TypeInfo.inc.ftl:116-130: the arguments of a compound, or the length of a dynamic bit field -/
def args : ElemType → List (Expr Int)
  | .compound _ args => args
  | .dynBits _ length => [length]
  | _ => []

end ElemType

/-- TypeInfo.inc.ftl:1-20 `member_info_field` and 101-159 `member_info_field_attributes`; `ext` is `extended_field_index` if the
field is extended -/
def FieldDef.info (L : Labels) (id k : Nat) (ext : Option Nat) (f : FieldDef) : MemberInfo where
  schemaName := L.name id k
  type := f.type.info (L.enumClass id k) (L.bitmask id k)
  prop := k
  isArray := f.array.isSome
  optional := match f.optional with
    | .required => false
    | _ => true
  extIndex := ext
  args := f.type.args

namespace CompoundDef

/-- `fieldList` of the templates: the fields of a choice are those of its cases, in the order of the cases, and the field of the
default case -/
def fieldDefs : CompoundDef → List FieldDef
  | .struct fs => fs
  | .union fs => fs
  | .choice _ cases default => cases.filterMap CaseDef.field ++ (default.bind fun f => f).toList

/-- `extended_field_index`, Structure.py.ftl:18-20; only structures have extended fields -/
def extIndex (d : CompoundDef) (k : Nat) (f : FieldDef) : Option Nat :=
  match d with
  | .struct fs => if f.extended then some (k - Struct.base fs) else none
  | _ => none

/-- the members of the type info, Structure.py.ftl:131-135, Union.py.ftl:146-150, Choice.py.ftl:167-171 -/
def members (L : Labels) (id : Nat) (d : CompoundDef) : List MemberInfo :=
  d.fieldDefs.mapIdx fun k f => f.info L id k (d.extIndex k f)

end CompoundDef

namespace Choice

/-- `choice_tag` without the evaluation of the selector, Choice.py.ftl:316-342 with `choice_if`, 22-46: the number of the field of
the case (614-619: `CHOICE_<FIELD>` is the index of the field in `fieldList`), or `UNDEFINED_CHOICE` if the case is empty or if no
case matches.  `n` fields belong to the cases before. -/
def tagOf : List CaseDef → (default : Option (Option FieldDef)) → (n : Nat) → Int → Int
  | [], some (some _), n, _ => n
  | [], _, _, _ => UNDEFINED_CHOICE
  | k :: ks, default, n, s =>
    match k.field with
    | some _ => if s ∈ k.values then n else tagOf ks default (n + 1) s
    | none => if s ∈ k.values then UNDEFINED_CHOICE else tagOf ks default n s

/-- `choice_tag`, Choice.py.ftl:328-342 -/
def tag (selector : Expr Int) (cases : List CaseDef) (default : Option (Option FieldDef)) (params : List Int) : Except Err Int := do
  let s ← selector ⟨params, [], 0⟩
  .ok (tagOf cases default 0 s)

end Choice

/-- The type info of a compound and the facts about its constructor: Structure.py.ftl:36-62 (the constructor stores the default
values by `compound_setter_field`), Union.py.ftl, Choice.py.ftl. -/
def CompoundDef.info (L : Labels) (id : Nat) (d : CompoundDef) : CompoundInfo where
  kind := match d with
    | .struct _ => .struct
    | .union _ => .union
    | .choice selector cases default => .choice (Choice.tag selector cases default)
  fields := d.members L id
  numParams := L.numParams id
  defaults := match d with
    | .struct fs => fs.mapIdx fun k f => (f.info L id k (d.extIndex k f)).stored f.default
    | _ => []
  numExtended := match d with
    | .struct fs => Zserio.numExtended fs
    | _ => 0

/-- the type infos of all compounds of a schema -/
def Schema.infos (defs : Schema) (L : Labels) : TypeInfos := fun id => (defs id).info L id

end Zserio
