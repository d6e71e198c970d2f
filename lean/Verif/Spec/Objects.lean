import Verif.Model.Objects
/-
What a program can see of objects, and which objects belong together.
-/
namespace Zserio.Objects

/-- the values an object refers to -/
def Cell.parts : Cell → List PyVal
  | .bytearray _ => []
  | .list elements => elements
  | .array raw => [raw]
  | .inst _ params _ _ members => params ++ members

/-- the value refers to the object at the address, directly or through other objects -/
inductive Reach (h : Heap) : PyVal → Nat → Prop
  | here (a : Nat) : Reach h (.ref a) a
  | part {a b : Nat} {c : Cell} {v : PyVal} : h[a]? = some c → v ∈ c.parts → Reach h v b → Reach h (.ref a) b

/-- What is seen of a value without looking into its parts. -/
inductive View where
  | none
  | atom (v : Val)
  | bytearray (bytes : List UInt8)
  | list (length : Nat)
  | array
  | inst (cls numParams numExt : Nat) (tag : Int) (numMembers : Nat)

/-- what is seen of an object -/
def Cell.view : Cell → View
  | .bytearray bs => .bytearray bs
  | .list elements => .list elements.length
  | .array _ => .array
  | .inst cls params numExt tag members => .inst cls params.length numExt tag members.length

/-- what is seen of a value, and its parts -/
def look (h : Heap) : PyVal → Option (View × List PyVal)
  | .none => some (.none, [])
  | .atom v => some (.atom v, [])
  | .ref a => h[a]?.map fun c => (c.view, c.parts)

/-- What is seen when one follows a path: each number on it selects a part (an element, a parameter or a member). -/
def see (h : Heap) : (path : List Nat) → PyVal → Option View
  | [], v => (look h v).map (·.1)
  | i :: path, v => (look h v).bind fun s => s.2[i]?.bind (see h path)

/-- the variables of a statement -/
def Stmt.vars : Stmt → List Nat
  | .const x _ => [x]
  | .assign x y => [x, y]
  | .newBytes x _ => [x]
  | .newList x ys => x :: ys
  | .construct x _ params args => x :: params ++ args.filterMap id
  | .read x _ => [x]
  | .get x o _ => [x, o]
  | .set o _ y => [o, y]
  | .reset o _ => [o]
  | .param x o _ => [x, o]
  | .extend b _ => [b]
  | .setByte b _ _ => [b]
  | .append l y => [l, y]
  | .item x l _ => [x, l]
  | .setItem l _ y => [l, y]
  | .delItem l _ => [l]

/-- The field is a `bytes` field of a structure which is neither an array nor optional: the default value of its argument is a
bytearray. -/
def SharedDefault (c : ClassDef) (i : Nat) : Prop :=
  c.kind = .struct ∧ ∃ f, c.fields[i]? = some f ∧ f.isArray = false ∧ f.optional = false ∧ f.initializer = none ∧
    f.type = .bytes

/-- the statement, if it calls a constructor, gives a value to each of these fields -/
def Stmt.Explicit (defs : List ClassDef) : Stmt → Prop
  | .construct _ cls _ args => ∀ c i, defs[cls]? = some c → SharedDefault c i → ∃ x, args[i]? = some (some x)
  | _ => True

/-- no object is reached both from a variable in the set and from one outside of it -/
def Separate (X : Nat → Prop) (w : World) : Prop :=
  ∀ x y a, X x → ¬X y → Reach w.heap (w.env x) a → ¬Reach w.heap (w.env y) a

/-- What the getter of a field returns after the value was assigned: the same value, but a new, empty list for an array which is not
optional if the value is `None`. -/
def Gets (f : FieldDef) (v : PyVal) (before : Heap) (r : PyVal) (h : Heap) : Prop :=
  if f.isArray = true ∧ f.optional = false ∧ v.isNone = true then
    ∃ a, r = .ref a ∧ before.length ≤ a ∧ h[a]? = some (.list [])
  else r = v

/-- the value of an argument: the given one or the default -/
def Argument (c : Class) (args : List (Option PyVal)) (i : Nat) (v : PyVal) : Prop :=
  args[i]? = some (some v) ∨ ((args[i]? = none ∨ args[i]? = some none) ∧ c.defaults[i]? = some v)

/-- the default value of an argument of a structure's constructor, without those which are shared -/
def FieldDef.Default (f : FieldDef) (v : PyVal) : Prop :=
  match f.initializer with
  | some u => v = .atom u
  | none =>
    if f.optional = true ∨ f.isArray = true then v = .none
    else
      match f.type with
      | .builtin zero => v = .atom zero
      | .bytes => ∃ a, v = .ref a
      | .other => v = .none

end Zserio.Objects
