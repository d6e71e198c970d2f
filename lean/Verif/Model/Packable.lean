/-
Which types can be packed, which classes get methods for packed arrays, and where the generated code uses them.

Sources: compiler/core/src/zserio/ast/ArrayInstantiation.java, CompoundType.java, UnionType.java, Field.java,
compiler/core/src/zserio/extension/common/PackedTypesCollector.java,
compiler/extensions/python/freemarker/CompoundField.inc.ftl, Structure.py.ftl, Choice.py.ftl, Union.py.ftl, Enumeration.py.ftl, Bitmask.py.ftl.

Subtypes and templates are resolved.  Java methods which call themselves are given the number of calls which fit on the stack; `none` is a
`StackOverflowError`.
-/
namespace Zserio.Packable

/-- the base type of a field or of the elements of an array; enumerations and bitmasks are items -/
inductive Base where
  | integer
  | unpackable
  | item (id : Nat)
  | compound (id : Nat)
  deriving DecidableEq, Repr

/-- ArrayInstantiation.java:24-35 -/
structure ArrayOf where
  isPacked : Bool
  isImplicit : Bool := false
  deriving DecidableEq, Repr

/-- a field; `usedAsOffset`: it is used in an offset of another field (Field.java:233, `usedAsOffsetLocation`) -/
structure Field where
  base : Base
  array : Option ArrayOf := none
  usedAsOffset : Bool := false
  deriving DecidableEq, Repr

/-- a structure, choice or union -/
structure Compound where
  isUnion : Bool := false
  fields : List Field
  deriving DecidableEq, Repr

/-- the array is declared with `packed` -/
def Field.isPacked (f : Field) : Bool :=
  match f.array with
  | some a => a.isPacked
  | none => false

/-- a `for` loop which returns true at the first element with the property -/
def anyOf {α : Type} (p : α → Option Bool) : List α → Option Bool
  | [] => some false
  | x :: xs => match p x with
    | none => none
    | some true => some true
    | some false => anyOf p xs

/-- ArrayInstantiation.java:178-191 `isTypePackable`, `isSimpleTypePackable` -/
def typePackable (compound : Nat → Option Bool) : Base → Option Bool
  | .compound c => compound c
  | .integer | .item _ => some true
  | .unpackable => some false

/-- Field.java:231-241 `isPackable`, ArrayInstantiation.java:92-100 `isPackable` -/
def fieldPackable (compound : Nat → Option Bool) (f : Field) : Option Bool :=
  if f.usedAsOffset then some false
  else match f.array with
    | some a => if a.isImplicit then some false else typePackable compound f.base
    | none => typePackable compound f.base

/-- CompoundType.java:228-251 `hasPackableField` -/
def hasPackableField (compound : Nat → Option Bool) (self : Nat) (fields : List Field) : Option Bool :=
  anyOf (fun f => if f.base = .compound self then some false else fieldPackable compound f) fields

/-- CompoundType.java:152-155 `isPackable`, UnionType.java:61-65 -/
def isPackable (defs : Nat → Compound) : Nat → Nat → Option Bool
  | 0, _ => none
  | n + 1, c =>
    if (defs c).isUnion then some (!(defs c).fields.isEmpty)
    else hasPackableField (isPackable defs n) c (defs c).fields

/-- what is warned about packed arrays -/
inductive Warning where
  | array
  | union
  deriving DecidableEq, Repr

/-- ArrayInstantiation.java:193-233 `checkPackedArrayElementType` -/
def packedWarning (defs : Nat → Compound) (n : Nat) (f : Field) : Option Warning :=
  if !f.isPacked then none
  else match f.base with
    | .compound c =>
      if isPackable defs n c ≠ some true then (if !(defs c).fields.isEmpty then some .array else none)
      else if (defs c).isUnion ∧ hasPackableField (isPackable defs n) c (defs c).fields ≠ some true then some .union
      else none
    | .unpackable => some .array
    | _ => none

/-- PackedTypesCollector.java:55-100 `visitCompound`; `set` is `packedTypes` -/
def visit (defs : Nat → Compound) : Nat → Nat → Nat → List Base → Option (List Base)
  | 0, _, _, _ => none
  | n + 1, depth, c, set => (defs c).fields.foldlM (fun set f =>
      let depth := if f.isPacked then depth + 1 else depth
      if depth > 0 then
        match f.base with
        | .compound d => if c ≠ d then visit defs n depth d (f.base :: set) else some (f.base :: set)
        | _ => some (f.base :: set)
      else some set) set

/-- PackedTypesCollector.java:24-40: all types of all packages are visited -/
def collect (defs : Nat → Compound) (n : Nat) (types : List Nat) : Option (List Base) :=
  types.foldlM (fun set c => visit defs n 0 c set) []

/-- Structure.py.ftl:89, 352, 397, 456, 531, 600, 632 (the same in Choice.py.ftl and Union.py.ftl), Enumeration.py.ftl:54, 107, 154, 189, 249,
Bitmask.py.ftl:55, 144, 190, 225, 256: whether the class has the methods for packed arrays (`init_packing_context`, `bitsizeof_packed`,
`initialize_offsets_packed`, `from_reader_packed`, `read_packed`, `write_packed`) and, for compounds, the class `ZserioPackingContext`.  For
built-in types the runtime has what is needed. -/
def hasPackedMethods (defs : Nat → Compound) (n : Nat) (set : List Base) : Base → Bool
  | .compound c => isPackable defs n c = some true && set.contains (.compound c)
  | .item i => set.contains (.item i)
  | .integer => true
  | .unpackable => false

/-- `uses_field_packing_context` and `array_field_packed_suffix` (CompoundField.inc.ftl:245-249, 664-669) with the flag `packed`: whether the
methods for packed arrays of the type of the field, or of the elements, are called in a method of the class -/
def usesPacked (defs : Nat → Compound) (n : Nat) (packed : Bool) (f : Field) : Bool :=
  fieldPackable (isPackable defs n) f = some true && (packed || f.isPacked)

/-- the types whose methods for packed arrays are used in the class of the compound: in the methods without packing, in those with packing if
there are any, and in the factories of elements (CompoundField.inc.ftl:475-530, `IS_OBJECT_PACKABLE`) -/
def requests (defs : Nat → Compound) (n : Nat) (set : List Base) (c : Nat) : List Base :=
  ((defs c).fields.filter (usesPacked defs n false)).map (·.base) ++
  (if hasPackedMethods defs n set (.compound c) then ((defs c).fields.filter (usesPacked defs n true)).map (·.base) else []) ++
  ((defs c).fields.filter fun f => f.array.isSome && fieldPackable (isPackable defs n) f = some true && set.contains f.base).map (·.base)

end Zserio.Packable
