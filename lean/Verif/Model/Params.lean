import Verif.Model.CompoundEq
/-
Parameters of compound types which are objects: arguments of fields when an object is read, and the check of the parameters when it is
written (CompoundField.inc.ftl).  `Model/Compound.lean` has only parameters which are compared by value; here objects have an identity.

One structure `self` is modelled, with fields which are read one after the other.  What the bit stream contains is arbitrary: a field reads
any value, and creates any new objects.  Nothing in generated code for reading changes an object which exists already, except for `self`.
-/
namespace Zserio.Params

/-- A value of a built-in Python type (`isBuiltin`, NativeTypeInfoTemplateData.java:92).  Comparisons of values of different types are
not modelled (they are unequal). -/
inductive Atom where
  | none
  | int (v : Int)
  | bool (b : Bool)
  | str (s : PyStr)
  | float (x : PyFloat)
  deriving DecidableEq

/-- Python `==` of values of built-in types -/
def Atom.eq : Atom → Atom → Bool
  | .float x, .float y => pyFloatEq x y
  | a, b => a = b

/-- What can be in an attribute: a value of a built-in type, or a reference to an object -/
inductive Value where
  | atom (a : Atom)
  | ref (addr : Nat)
  deriving DecidableEq

/-- An object: of a bitmask or enumeration with its value, a list, or an object of a compound type with its parameters and fields -/
inductive Obj where
  | item (v : Int)
  | list (vs : List Value)
  | inst (params fields : List Value)
  deriving DecidableEq

/-- All objects; the address is the position. -/
abbrev Heap := List Obj

/-- Result of an expression: something which exists, or a new object of a bitmask type (`from_value`, Bitmask.py.ftl:23-38), which is
different from all objects which exist -/
inductive Result where
  | value (v : Value)
  | fresh (mask : Int)
  deriving DecidableEq

/-- Arguments and conditions as generated (PythonExpressionFormattingPolicy.java).  `known` is an object which exists since the import of
its module: an enumeration item, a bitmask value (Bitmask.py.ftl:287-297) or a constant.  `op` is any operator whose result is of a
built-in type, applied to the values of its operands; `mask` is an operator of bitmasks (Bitmask.py.ftl:133-143); `call` is the result of a
function of the object `x` or, without `x`, of `self`. -/
inductive Arg where
  | atom (a : Atom)
  | known (addr : Nat)
  | param (i : Nat)
  | field (i : Nat)
  | dot (x : Arg) (i : Nat)
  | dotParam (x : Arg) (i : Nat)
  | elem (x i : Arg)
  | cond (c x y : Arg)
  | op (f : Atom → Atom → Except Err Atom) (x y : Arg)
  | mask (f : Int → Int → Except Err Int) (x y : Arg)
  | call (x : Option Arg) (body : Arg)

/-- the parameters and fields of an object -/
def Heap.inst (h : Heap) (a : Nat) : Except Err (List Value × List Value) :=
  match h[a]? with
  | some (.inst ps fs) => .ok (ps, fs)
  | _ => .error .type

/-- an attribute, if it is set already -/
def attr (vs : List Value) (i : Nat) : Except Err Result :=
  match vs[i]? with
  | some v => .ok (.value v)
  | none => .error .type

/-- the object a result refers to -/
def Result.addr : Result → Except Err Nat
  | .value (.ref a) => .ok a
  | _ => .error .type

/-- the value of a bitmask or enumeration item -/
def Result.mask (h : Heap) : Result → Except Err Int
  | .fresh v => .ok v
  | .value (.ref a) => match h[a]? with
    | some (.item v) => .ok v
    | _ => .error .type
  | .value (.atom _) => .error .type

/-- what an operator sees of an operand: a value of a built-in type, or the value of a bitmask or enumeration item (`valueof`, `isset`,
`==`) -/
def Result.atom (h : Heap) : Result → Except Err Atom
  | .value (.atom a) => .ok a
  | r => do .ok (.int (← r.mask h))

/-- an element of a list -/
def element (h : Heap) (r : Result) (i : Atom) : Except Err Result := do
  let a ← r.addr
  match h[a]?, i with
  | some (.list vs), .int n => if n < 0 then .error .index else match vs[n.toNat]? with
    | some v => .ok (.value v)
    | none => .error .index
  | _, _ => .error .type

/-- the value of an expression for the object at the address `self` -/
def Arg.eval (h : Heap) : Nat → Arg → Except Err Result
  | _, .atom a => .ok (.value (.atom a))
  | _, .known a => .ok (.value (.ref a))
  | self, .param i => do attr (← h.inst self).1 i
  | self, .field i => do attr (← h.inst self).2 i
  | self, .dot x i => do
    let a ← (← x.eval h self).addr
    attr (← h.inst a).2 i
  | self, .dotParam x i => do
    let a ← (← x.eval h self).addr
    attr (← h.inst a).1 i
  | self, .elem x i => do
    let r ← x.eval h self
    let n ← (← i.eval h self).atom h
    element h r n
  | self, .cond c x y => do
    let b ← (← c.eval h self).atom h
    match b with
    | .bool true => x.eval h self
    | .bool false => y.eval h self
    | _ => .error .type
  | self, .op f x y => do
    let u ← (← x.eval h self).atom h
    let v ← (← y.eval h self).atom h
    .ok (.value (.atom (← f u v)))
  | self, .mask f x y => do
    let u ← (← x.eval h self).mask h
    let v ← (← y.eval h self).mask h
    .ok (.fresh (← f u v))
  | self, .call none body => body.eval h self
  | self, .call (some x) body => do
    let a ← (← x.eval h self).addr
    body.eval h a

/-! ### Fields -/

/-- NativeTypeInfoTemplateData.java:92 `isBuiltin` of the type of a parameter -/
inductive Kind where
  | builtin
  | object
  deriving DecidableEq

/-- A field.  `condition` is the clause of an optional field.  `plain` is a field without arguments: `read` is any function of the objects
which exist, whose result are the value of the field and the new objects.  For a field of a compound type with arguments `read` gives the
fields of the new object, and other new objects. -/
inductive Content where
  | plain (read : Heap → Except Err (Value × List Obj))
  | compound (args : List (Kind × Arg)) (read : List Value → Heap → Except Err (List Value × List Obj))

structure Field where
  condition : Option Arg
  content : Content

/-- `is_<field>_used` (Structure.py.ftl:292-305); fields with the keyword `optional` and extended fields are not modelled here -/
def Field.used (f : Field) (h : Heap) (self : Nat) : Except Err Bool :=
  match f.condition with
  | none => .ok true
  | some c => do
    match ← (← c.eval h self).atom h with
    | .bool b => .ok b
    | _ => .error .type

/-- The arguments of `from_reader` (CompoundField.inc.ftl:256-260).  A new object of a bitmask gets an address here. -/
def evalArgs (self : Nat) : List (Kind × Arg) → Heap → Except Err (List Value × Heap)
  | [], h => .ok ([], h)
  | a :: as, h => do
    match ← a.2.eval h self with
    | .value v =>
      let r ← evalArgs self as h
      .ok (v :: r.1, r.2)
    | .fresh m =>
      let r ← evalArgs self as (h ++ [.item m])
      .ok (.ref h.length :: r.1, r.2)

/-- `self._<field> = <value>` while the object is read: fields are read in order -/
def Heap.append (h : Heap) (self : Nat) (v : Value) : Except Err Heap := do
  let o ← h.inst self
  .ok (h.set self (.inst o.1 (o.2 ++ [v])))

/-- CompoundField.inc.ftl:185-216 `compound_read_field_inner` -/
def Content.read (c : Content) (h : Heap) (self : Nat) : Except Err (Value × Heap) :=
  match c with
  | .plain read => do
    let r ← read h
    .ok (r.1, h ++ r.2)
  | .compound args read => do
    let as ← evalArgs self args h
    let r ← read as.1 as.2
    .ok (.ref (as.2 ++ r.2).length, as.2 ++ r.2 ++ [.inst as.1 r.1])

/-- CompoundField.inc.ftl:169-183 `compound_read_field`: a field which is not used is `None` -/
def Field.read (f : Field) (h : Heap) (self : Nat) : Except Err Heap := do
  if ← f.used h self then
    let r ← f.content.read h self
    r.2.append self r.1
  else h.append self (.atom .none)

/-- `read` of the structure, Structure.py.ftl:498-528 -/
def readFields (self : Nat) : List Field → Heap → Except Err Heap
  | [], h => .ok h
  | f :: fs, h => do readFields self fs (← f.read h self)

/-- `from_reader` (Structure.py.ftl:66-87): a new object with its parameters, then its fields; the result are all objects, the new one
is at the position `h.length` -/
def fromReader (params : List Value) (fs : List Field) (h : Heap) : Except Err Heap :=
  readFields h.length fs (h ++ [.inst params []])

/-! ### The check when the object is written -/

/-- CompoundField.inc.ftl:362-363: `!=` for built-in types, `is not` otherwise -/
def differs (k : Kind) (p : Value) (r : Result) : Bool :=
  match k, p, r with
  | .builtin, .atom a, .value (.atom b) => !a.eq b
  | .builtin, _, _ => true
  | .object, p, .value v => p ≠ v
  | .object, _, .fresh _ => true

/-- CompoundField.inc.ftl:359-366: the parameters of a field one after the other; `ps` are the parameters of its value -/
def checkParams (h : Heap) (self : Nat) : List (Kind × Arg) → List Value → Except Err Unit
  | [], _ => .ok ()
  | a :: as, p :: ps => do
    if differs a.1 p (← a.2.eval h self) then .error .parameter else checkParams h self as ps
  | _ :: _, [] => .error .type

/-- CompoundField.inc.ftl:356-368 `compound_check_parameterized_field`; `v` is the value of the field -/
def Field.check (f : Field) (h : Heap) (self : Nat) (v : Value) : Except Err Unit := do
  if ← f.used h self then
    match f.content with
    | .plain _ => .ok ()
    | .compound args _ => do
      let a ← (Result.value v).addr
      let o ← h.inst a
      checkParams h self args o.1
  else .ok ()

/-- the fields one after the other, as `write` does (CompoundField.inc.ftl:276-310 `compound_write_field`) -/
def checkFields (h : Heap) (self : Nat) : List Field → List Value → Except Err Unit
  | [], _ => .ok ()
  | f :: fs, v :: vs => do
    f.check h self v
    checkFields h self fs vs
  | _ :: _, [] => .error .type

/-- the checks of the parameters of all fields in `write` of the structure -/
def check (fs : List Field) (h : Heap) (self : Nat) : Except Err Unit := do
  let o ← h.inst self
  checkFields h self fs o.2

end Zserio.Params
