import Verif.Spec.PyClass
/-
What names in expressions mean: fields and parameters of objects of compound types, and the reading of dotted names by Python.
-/
namespace Zserio.PathNames

/-- What an object holds besides its parameters: the fields of a structure, or the one field of a choice or union which is chosen
out of those which are declared.  Values are addresses in a store. -/
inductive Body where
  | struct (fields : List (PyStr × Nat))
  | choice (declared : List PyStr) (chosen : PyStr) (value : Nat)
  deriving DecidableEq, Repr

/-- an object of a compound type, with the names of the schema -/
structure Object where
  params : List (PyStr × Nat)
  body : Body
  deriving DecidableEq, Repr

/-- the objects at the addresses; values of other types are at addresses without object -/
abbrev Store := Nat → Option Object

/-- one step of a path of the schema: a field or a parameter of an object -/
inductive Step where
  | field (name : PyStr)
  | parameter (name : PyStr)
  deriving DecidableEq, Repr

/-- the value of a field or parameter of an object: fields of choices have a value only if they are chosen -/
def Object.value (ob : Object) : Step → Option Nat
  | .parameter n => ob.params.lookup n
  | .field n =>
    match ob.body with
    | .struct fields => fields.lookup n
    | .choice _ chosen v => if n = chosen then some v else none

/-- the value of a path in the object at an address -/
def Store.value (st : Store) : Nat → List Step → Option Nat
  | a, [] => some a
  | a, s :: rest => do
    let ob ← st a
    let v ← ob.value s
    st.value v rest

/-- the parts of a dotted name in a Python text -/
inductive Part where
  | name (s : PyStr)
  | dot
  deriving DecidableEq, Repr

/-- the names in a dotted name; nothing if it is not well-formed -/
def readDotted : List Part → Option (List PyStr)
  | [.name s] => some [s]
  | .name s :: .dot :: rest => (readDotted rest).map (s :: ·)
  | _ => none

end Zserio.PathNames
