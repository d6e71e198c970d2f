import Verif.Model.TypeInfo
/-
What the types of a schema say about an object, whatever its parameters and the choices made in it.
-/
namespace Zserio

/-- Values of the types which are not compounds. -/
inductive SimpleValue : TypeInfo → Val → Prop where
  | int (x : Int) : SimpleValue (.builtin .int) (.int x)
  /-- `bool` is a subclass of `int` -/
  | boolInt (b : Bool) : SimpleValue (.builtin .int) (.bool b)
  | bool (b : Bool) : SimpleValue (.builtin .bool) (.bool b)
  | float (x : PyFloat) : SimpleValue (.builtin .float) (.float x)
  | str (s : PyStr) : SimpleValue (.builtin .str) (.str s)
  | bytes (b : List UInt8) : SimpleValue (.builtin .bytearray) (.bytes b)
  | bitBuffer (b : BitBuffer) : SimpleValue (.builtin .bitBuffer) (.bitBuffer b)
  /-- an item of the enumeration -/
  | enum {e : EnumClass} {item : EnumItem} : item ∈ e.items → SimpleValue (.enum e) (.int item.value)
  /-- a number within the bounds of the bitmask -/
  | bitmask {d : BitmaskDef} {x : Int} : d.lowerBound ≤ x → x ≤ d.upperBound → SimpleValue (.bitmask d) (.int x)

/-- Where a value is: a whole object of a compound type, a field, a single value. -/
inductive Spot where
  | object (id : Nat)
  | field (m : MemberInfo)
  | item (t : TypeInfo)

/-- All parts of the value have the types of the schema, or are `None`. -/
inductive Typed (I : TypeInfos) : Spot → Val → Prop where
  | struct {id : Nat} {ps : List Int} {k : Nat} {fs : List Val} : (I id).kind = .struct → ps.length = (I id).numParams →
    fs.length = (I id).fields.length →
    (∀ (i : Nat) (m : MemberInfo) (v : Val), (I id).fields[i]? = some m → fs[i]? = some v → Typed I (.field m) v) →
    Typed I (.object id) (.obj ps k 0 fs)
  /-- the choice tag of a union is the number of the field whose value it has -/
  | union {id : Nat} {ps : List Int} {i : Nat} {m : MemberInfo} {v : Val} : (I id).kind = .union → ps.length = (I id).numParams →
    (I id).fields[i]? = some m → Typed I (.field m) v → Typed I (.object id) (.obj ps 0 (i : Int) [v])
  | noUnion {id : Nat} {ps : List Int} : (I id).kind = .union → ps.length = (I id).numParams →
    Typed I (.object id) (.obj ps 0 UNDEFINED_CHOICE [.none])
  /-- the value of a choice is a value of one of its fields -/
  | choice {id : Nat} {ps : List Int} {tag : List Int → Except Err Int} {m : MemberInfo} {v : Val} : (I id).kind = .choice tag →
    ps.length = (I id).numParams → m ∈ (I id).fields → Typed I (.field m) v → Typed I (.object id) (.obj ps 0 0 [v])
  | noChoice {id : Nat} {ps : List Int} {tag : List Int → Except Err Int} : (I id).kind = .choice tag →
    ps.length = (I id).numParams → Typed I (.object id) (.obj ps 0 0 [.none])
  | array {m : MemberInfo} {xs : List Val} : m.isArray = true → (∀ x ∈ xs, Typed I (.item m.type) x) → Typed I (.field m) (.arr xs)
  | noArray {m : MemberInfo} : m.isArray = true → m.optional = true → Typed I (.field m) .none
  | single {m : MemberInfo} {x : Val} : m.isArray = false → Typed I (.item m.type) x → Typed I (.field m) x
  | none {t : TypeInfo} : Typed I (.item t) .none
  | simple {t : TypeInfo} {x : Val} : SimpleValue t x → Typed I (.item t) x
  | compound {id : Nat} {x : Val} : Typed I (.object id) x → Typed I (.item (.compound id)) x

end Zserio
