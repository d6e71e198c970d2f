import Verif.Model.Compound
import Verif.Model.HashCode
/-
`__eq__` and `__hash__` of generated structures, unions and choices, of enumerations, bitmasks and of the class `Array`.

Values are compared as the generated code does, by the types of the fields: both operands are objects of the same class, so that
their fields have the same types.  `None` and missing attributes are handled explicitly; a value of a type other than the declared
one is an error here (Python would compare it unequal or, e.g. for `True` and `1`, equal).  Comparison of lists by identity before
equality (which makes a list containing a NaN object equal to itself) is not modelled.
-/
namespace Zserio

/-- Python `==` of two floats: NaNs are unequal to everything, the zeros are equal to each other -/
def pyFloatEq (a b : PyFloat) : Bool :=
  let m := a.toNat % 2 ^ 63
  let n := b.toNat % 2 ^ 63
  if m > 0x7FF0000000000000 ∨ n > 0x7FF0000000000000 then false
  else if m = 0 ∧ n = 0 then true
  else a == b

/-- Does the type hash with `calc_hashcode_int64`?  RuntimeFunctionDataCreator.java:199-217; the sizes of variable length
integers are in core VarIntegerType.java (`getMaxBitSize`: 16, 32, 64, 72 and 40 for varsize). -/
def IntKind.wide : IntKind → Bool
  | .bitField n => decide (n > 32)
  | .signedBitField n => decide (n > 32)
  | .var .varint16 | .var .varuint16 | .var .varint32 | .var .varuint32 => false
  | .var _ => true

/-- the hash of an integer field -/
def hashIntegral (wide : Bool) (seed : Int) (v : Option Int) : Int := if wide then hashInt64 seed v else hashInt32 seed v

/-- `==` of integers, booleans, strings and byte strings -/
def same {α : Type} [DecidableEq α] (x y : α) : Bool := decide (x = y)

namespace Builtin

/-- `==` of two values of a built-in type -/
def eqElem : (b : Builtin) → b.Elem → b.Elem → Except Err Bool
  | bitField _, x, y => .ok (same (α := Int) x y)
  | signedBitField _, x, y => .ok (same (α := Int) x y)
  | var _, x, y => .ok (same (α := Int) x y)
  | float16, x, y => .ok (pyFloatEq x y)
  | float32, x, y => .ok (pyFloatEq x y)
  | float64, x, y => .ok (pyFloatEq x y)
  | bool, x, y => .ok (same (α := Bool) x y)
  | bytes, x, y => .ok (same (α := List UInt8) x y)
  | string, x, y => .ok (same (α := PyStr) x y)
  | bitBuffer, x, y => BitBuffer.eq x y

/-- the hash of a field of a built-in type, RuntimeFunctionDataCreator.java:177-252 -/
def hashField : (b : Builtin) → Int → Option b.Elem → Except Err Int
  | bitField n, s, v => .ok (hashIntegral (IntKind.bitField n).wide s v)
  | signedBitField n, s, v => .ok (hashIntegral (IntKind.signedBitField n).wide s v)
  | var t, s, v => .ok (hashIntegral (IntKind.var t).wide s v)
  | float16, s, v => hashFloat32 s v
  | float32, s, v => hashFloat32 s v
  | float64, s, v => .ok (hashFloat64 s v)
  | bool, s, v => .ok (hashBool s v)
  | bytes, s, v => .ok (hashBytes s v)
  | string, s, v => .ok (hashString s v)
  | bitBuffer, s, none => .ok (hashObject s none)
  | bitBuffer, s, some v => do
    let h ← BitBuffer.hash v
    .ok (hashObject s (some h))

/-- the hash of an array element: as of a field, except that all integers use `calc_hashcode_int32` (hashcode.py:160-175) -/
def hashElem : (b : Builtin) → Int → Option b.Elem → Except Err Int
  | bitField _, s, v => .ok (hashInt32 s v)
  | signedBitField _, s, v => .ok (hashInt32 s v)
  | var _, s, v => .ok (hashInt32 s v)
  | float16, s, v => hashFloat32 s v
  | float32, s, v => hashFloat32 s v
  | float64, s, v => .ok (hashFloat64 s v)
  | bool, s, v => .ok (hashBool s v)
  | bytes, s, v => .ok (hashBytes s v)
  | string, s, v => .ok (hashString s v)
  | bitBuffer, s, v => hashField bitBuffer s v

end Builtin

/-- `__eq__` and `__hash__` of a class -/
structure EqHash where
  eq : Val → Val → Except Err Bool
  hash : Val → Except Err Int

/-- the value is `None`, there is no attribute, or the value is used by `f` -/
def Val.orNone {α : Type} (v : Val) (f : Val → Except Err α) : Except Err (Option α) :=
  match v with
  | .none => .ok Option.none
  | .unset => .error .type
  | v => do
    let x ← f v
    .ok (some x)

/-- `==` of two values which may be `None` -/
def Val.eqOrNone (v u : Val) (f : Val → Val → Except Err Bool) : Except Err Bool :=
  match v, u with
  | .unset, _ => .error .type
  | _, .unset => .error .type
  | .none, .none => .ok true
  | .none, _ => .ok false
  | _, .none => .ok false
  | v, u => f v u

/-- `==` of values of no particular type: those left in `_choice` when no field is selected.  Arrays and objects, which such values
can be only if the parameters have been changed behind the object, are not modelled. -/
def Val.dynEq (v u : Val) : Except Err Bool :=
  v.eqOrNone u fun v u => match v, u with
  | .int x, .int y => .ok (decide (x = y))
  | .bool x, .bool y => .ok (decide (x = y))
  | .float x, .float y => .ok (pyFloatEq x y)
  | .str x, .str y => .ok (decide (x = y))
  | .bytes x, .bytes y => .ok (decide (x = y))
  | .bitBuffer x, .bitBuffer y => Builtin.bitBuffer.proj (.bitBuffer x) >>= fun _ => Builtin.bitBuffer.proj (.bitBuffer y) >>= fun _ =>
    BitBuffer.eq x y
  | _, _ => .error .type

namespace ElemType

/-- `==` of two values, neither of which is `None` -/
def eqValue (cs : Nat → EqHash) : ElemType → Val → Val → Except Err Bool
  | .int _, v, u | .dynBits _ _, v, u | .enum _, v, u | .bitmask _, v, u => do
    let x ← v.asInt
    let y ← u.asInt
    .ok (decide (x = y))
  | .other b, v, u => do
    let x ← b.proj v
    let y ← b.proj u
    b.eqElem x y
  | .compound id _, v, u => (cs id).eq v u

/-- `==` of two values.  Enumeration items are equal if they are the same item, bitmasks if their values are equal
(Bitmask.py.ftl:98-102). -/
def eq (cs : Nat → EqHash) (t : ElemType) (v u : Val) : Except Err Bool := v.eqOrNone u (t.eqValue cs)

/-- `calc_hashcode_object` of a value whose `__hash__` is computed by `h` -/
def hashObj (seed : Int) (v : Val) (h : Val → Except Err Int) : Except Err Int := do
  let x ← v.orNone h
  .ok (hashObject seed x)

/-- `__hash__` of enumerations and bitmasks, Enumeration.py.ftl:98-101, Bitmask.py.ftl:104-107 -/
def hashItem (k : IntKind) (v : Val) : Except Err Int := do
  let x ← v.asInt
  .ok (hashIntegral k.wide HASH_SEED (some x))

/-- `calc_hashcode_<suffix>(seed, value)` of a field, CompoundField.inc.ftl:18-22, RuntimeFunctionDataCreator.java:50-64 -/
def hash (cs : Nat → EqHash) (hash64 : Bool) : ElemType → Int → Val → Except Err Int
  | .int k, s, v => do
    let x ← v.orNone Val.asInt
    .ok (hashIntegral k.wide s x)
  | .dynBits _ _, s, v => do
    let x ← v.orNone Val.asInt
    .ok (hashIntegral hash64 s x)
  | .other b, s, v => do
    let x ← v.orNone b.proj
    b.hashField s x
  | .enum e, s, v => hashObj s v (hashItem e.underlying)
  | .bitmask k, s, v => hashObj s v (hashItem k)
  | .compound id _, s, v => hashObj s v (cs id).hash

/-- the step of `CALC_HASHCODE_FUNC` of the array traits for one element -/
def hashElem (cs : Nat → EqHash) : ElemType → Int → Val → Except Err Int
  | .int _, s, v | .dynBits _ _, s, v => do
    let x ← v.orNone Val.asInt
    .ok (hashInt32 s x)
  | .other b, s, v => do
    let x ← v.orNone b.proj
    b.hashElem s x
  | .enum e, s, v => hashObj s v (hashItem e.underlying)
  | .bitmask k, s, v => hashObj s v (hashItem k)
  | .compound id _, s, v => hashObj s v (cs id).hash

end ElemType

/-- Python `==` of two lists of the same length: the elements until the first difference -/
def eqList (eq : Val → Val → Except Err Bool) : List Val → List Val → Except Err Bool
  | x :: xs, y :: ys => do
    let b ← eq x y
    if b then eqList eq xs ys else .ok false
  | _, _ => .ok true

namespace FieldDef

/-- `self.<field> == other.<field>`; arrays: array.py:144-149 -/
def eqValue (cs : Nat → EqHash) (f : FieldDef) (v u : Val) : Except Err Bool :=
  match f.array with
  | none => f.type.eq cs v u
  | some _ => v.eqOrNone u fun v u => do
    let xs ← v.asArr
    let ys ← u.asArr
    if xs.length = ys.length then eqList (f.type.eq cs) xs ys else .ok false

/-- CompoundField.inc.ftl:2-6 `compound_compare_field` -/
def eqOptional (cs : Nat → EqHash) (f : FieldDef) (env env' : Env) (v u : Val) : Except Err Bool :=
  match f.optional with
  | .required => f.eqValue cs v u
  | _ => do
    let used ← f.isUsed env v
    if used then f.eqValue cs v u
    else do
      let otherUsed ← f.isUsed env' u
      .ok (!otherUsed)

/-- Structure.py.ftl:172-178: `present`, `present'` are the results of `is_<field>_present` of the two objects -/
def eq (cs : Nat → EqHash) (f : FieldDef) (env env' : Env) (present present' : Bool) (v u : Val) : Except Err Bool :=
  if f.extended then
    if present then
      if present' then f.eqOptional cs env env' v u else .ok false
    else .ok (!present')
  else f.eqOptional cs env env' v u

/-- `CALC_HASHCODE_FUNC(HASH_SEED, raw_array)`, array.py:151-152 -/
def hashArray (cs : Nat → EqHash) (f : FieldDef) (v : Val) : Except Err Int := do
  let xs ← v.asArr
  xs.foldlM (f.type.hashElem cs) HASH_SEED

/-- CompoundField.inc.ftl:18-22 `compound_hashcode_field_inner`; an empty array is falsy -/
def hashValue (cs : Nat → EqHash) (f : FieldDef) (seed : Int) (v : Val) : Except Err Int :=
  match f.array with
  | none => f.type.hash cs f.hash64 seed v
  | some _ =>
    match v with
    | .arr [] => .ok (hashObject seed none)
    | v => ElemType.hashObj seed v (f.hashArray cs)

/-- CompoundField.inc.ftl:8-16 `compound_hashcode_field` -/
def hashOptional (cs : Nat → EqHash) (f : FieldDef) (env : Env) (seed : Int) (v : Val) : Except Err Int := do
  let used ← f.isUsed env v
  if used then f.hashValue cs seed v else .ok seed

/-- Structure.py.ftl:206-213 -/
def hash (cs : Nat → EqHash) (f : FieldDef) (env : Env) (present : Bool) (seed : Int) (v : Val) : Except Err Int :=
  if f.extended && !present then .ok seed else f.hashOptional cs env seed v

end FieldDef

/-- The type of a parameter as far as the hash depends on it: integers, `bool`, enumerations and bitmasks. -/
inductive ParamKind where
  | integer (wide : Bool)
  | bool
  | item (underlying : IntKind)

/-- CompoundParameter.inc.ftl:41-46; the value of a parameter is an integer in the model -/
def ParamKind.hash (seed : Int) (p : Int) : ParamKind → Int
  | .integer wide => hashIntegral wide seed (some p)
  | .bool => hashBool seed (some (decide (p ≠ 0)))
  | .item k => hashObject seed (some (hashIntegral k.wide HASH_SEED (some p)))

/-- CompoundParameter.inc.ftl:41-46 `compound_hashcode_parameters`: all parameters in order -/
def hashParams : List ParamKind → List Int → Int → Int
  | k :: ks, p :: ps, seed => hashParams ks ps (k.hash seed p)
  | _, _, seed => seed

namespace Struct

/-- Structure.py.ftl:170-184 `structure_compare_fields` -/
def eq (cs : Nat → EqHash) (params : List Int) (numExt numExt' base : Nat) :
    List FieldDef → (prior prior' : List Val) → List Val → List Val → Except Err Bool
  | [], _, _, [], [] => .ok true
  | f :: fs, prior, prior', v :: vs, u :: us => do
    let b ← f.eq cs ⟨params, prior, 0⟩ ⟨params, prior', 0⟩ (isPresent numExt base prior.length) (isPresent numExt' base prior'.length) v u
    if b then eq cs params numExt numExt' base fs (prior ++ [v]) (prior' ++ [u]) vs us else .ok false
  | _, _, _, _, _ => .error .type

/-- Structure.py.ftl:206-213 -/
def hash (cs : Nat → EqHash) (params : List Int) (numExt base : Nat) :
    List FieldDef → (prior : List Val) → List Val → Int → Except Err Int
  | [], _, [], seed => .ok seed
  | f :: fs, prior, v :: vs, seed => do
    let seed ← f.hash cs ⟨params, prior, 0⟩ (isPresent numExt base prior.length) seed v
    hash cs params numExt base fs (prior ++ [v]) vs seed
  | _, _, _, _ => .error .type

/-- Structure.py.ftl:185-215 -/
def eqHash (cs : Nat → EqHash) (kinds : List ParamKind) (fs : List FieldDef) : EqHash where
  eq := fun v u =>
    match v, u with
    | .obj ps k _ vs, .obj qs l _ us => if ps = qs then eq cs ps k l (base fs) fs [] [] vs us else .ok false
    | _, _ => .error .type
  hash := fun v =>
    match v with
    | .obj ps k _ vs => hash cs ps k (base fs) fs [] vs (hashParams kinds ps HASH_SEED)
    | _ => .error .type

end Struct

namespace Branch

/-- `self._choice == other._choice`: the type of the values is the type of the selected field, if there is one -/
def eq (cs : Nat → EqHash) (f : Option FieldDef) (v u : Val) : Except Err Bool :=
  match f with
  | some f => f.eqValue cs v u
  | none => v.dynEq u

/-- Union.py.ftl:195-202, Choice.py.ftl:215-226 -/
def hash (cs : Nat → EqHash) (f : Option FieldDef) (seed : Int) (v : Val) : Except Err Int :=
  match f with
  | some f => f.hashValue cs seed v
  | none => .ok seed

end Branch

/-- Union.py.ftl:183-211 -/
def Union.eqHash (cs : Nat → EqHash) (kinds : List ParamKind) (fs : List FieldDef) : EqHash where
  eq := fun v u =>
    match v, u with
    | .obj ps _ tag [v], .obj qs _ tag' [u] =>
      if ps = qs then
        if tag = tag' then Branch.eq cs (Union.select fs tag).toOption v u else .ok false
      else .ok false
    | _, _ => .error .type
  hash := fun v =>
    match v with
    | .obj ps _ tag [v] =>
      Branch.hash cs (Union.select fs tag).toOption (hashInt32 (hashParams kinds ps HASH_SEED) (some tag)) v
    | _ => .error .type

/-- Choice.py.ftl:208-234.  `__eq__` does not evaluate the selector; the model does, to know the type of `_choice`. -/
def Choice.eqHash (cs : Nat → EqHash) (kinds : List ParamKind) (selector : Expr Int) (cases : List CaseDef)
    (default : Option (Option FieldDef)) : EqHash where
  eq := fun v u =>
    match v, u with
    | .obj ps _ _ [v], .obj qs _ _ [u] =>
      if ps = qs then
        match Choice.select selector cases default ps with
        | .ok (f, _) => Branch.eq cs f v u
        | .error _ => v.dynEq u
      else .ok false
    | _, _ => .error .type
  hash := fun v =>
    match v with
    | .obj ps _ _ [v] => do
      let s ← selector ⟨ps, [], 0⟩
      match Choice.selectCase cases default 1 s with
      | .ok (f, _) => Branch.hash cs f (hashParams kinds ps HASH_SEED) v
      | .error _ => .ok (hashParams kinds ps HASH_SEED)
    | _ => .error .type

/-- `__eq__` and `__hash__` of a compound with parameters of the given kinds -/
def CompoundDef.eqHash (cs : Nat → EqHash) (kinds : List ParamKind) : CompoundDef → EqHash
  | .struct fs => Struct.eqHash cs kinds fs
  | .union fs => Union.eqHash cs kinds fs
  | .choice selector cases default => Choice.eqHash cs kinds selector cases default

/-- `__eq__` and `__hash__` of the compound `id` of a schema when calls can be nested at most `n` deep; `kinds` are the kinds of the
parameters of each compound. -/
def Schema.eqHash (defs : Schema) (kinds : Nat → List ParamKind) : (n : Nat) → (id : Nat) → EqHash
  | 0, _ => ⟨fun _ _ => .error .recursion, fun _ => .error .recursion⟩
  | n + 1, id => (defs id).eqHash (Schema.eqHash defs kinds n) (kinds id)

end Zserio
