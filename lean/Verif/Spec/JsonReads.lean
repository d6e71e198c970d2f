import Verif.Spec.JsonDoc
import Verif.Model.JsonReader
/-
What object a JSON document stands for: the meaning of `from_json_string`, without parser, observers, stacks and states.

`CompoundInfo.new` and `CompoundInfo.setAttr` are the constructor and the setters of the classes, `Creator.createObject` calls the
constructor with the type arguments of a field, `convertValue` takes names for items of enumerations and for bitmasks.
-/
namespace Zserio.Json
open Creator

/-- the result, if there is one -/
def okay {α : Type} : Except Err α → Option α
  | .ok a => some a
  | .error _ => none

/-- A simple value for a field or an array element: converted, and `None` or an instance of the type. -/
def readValue (m : MemberInfo) (v : Val) : Option Val := do
  let w ← okay (convertValue v m.type)
  if w.isNone || isInstance m.type w then some w else none

/-- a number; `true` and `false` are 1 and 0 in Python -/
def number : Val → Option Int
  | .int x => some x
  | .bool true => some 1
  | .bool false => some 0
  | _ => none

/-- numbers -/
def readInts : List Doc → Option (List Int)
  | [] => some []
  | .value v :: ds => do
    let x ← number v
    let xs ← readInts ds
    some (x :: xs)
  | _ :: _ => none

/-- A bit buffer: its bytes and its bit size; the last ones if there are several. -/
def readBitBuffer (buffer : Option (List Int)) (bitSize : Option Int) : List (PyStr × Doc) → Option Val
  | [] => do
    let bytes ← okay (toBytes (← buffer))
    let b ← okay (BitBuffer.make bytes (some (← bitSize)))
    some (.bitBuffer b)
  | (key, .array ds) :: ms => do
    if key = py! "buffer" then
      let xs ← readInts ds
      readBitBuffer (some xs) bitSize ms
    else none
  | (key, .value v) :: ms => do
    if key = py! "bitSize" then
      let n ← number v
      readBitBuffer buffer (some n) ms
    else none
  | _ :: _ => none

/-- bytes -/
def readBytes (buffer : Option (List UInt8)) : List (PyStr × Doc) → Option Val
  | [] => buffer.map .bytes
  | (key, .array ds) :: ms => do
    if key = py! "buffer" then
      let xs ← readInts ds
      let bytes ← okay (toBytes xs)
      readBytes (some bytes) ms
    else none
  | _ :: _ => none

/-- A JSON object for the field `m` of the object `o` of the type `id`, or for the element `index` of this field: a bit buffer, bytes,
or a compound, which is created with the type arguments and filled by `fill`. -/
def readObject (I : TypeInfos) (id : Nat) (o : Val) (m : MemberInfo) (index : Option Nat) (ms : List (PyStr × Doc))
    (fill : Nat → Val → Option Val) : Option Val :=
  match m.type with
  | .builtin .bitBuffer => readBitBuffer none none ms
  | .builtin .bytearray => readBytes none ms
  | .compound cid => do
    let c ← okay (createObject I (I id) m cid o index)
    fill cid c
  | _ => none

mutual

/-- The members of a JSON object, one after the other, for the object `o` of the type `id`. -/
def readMembers (I : TypeInfos) (id : Nat) (o : Val) : List (PyStr × Doc) → Option Val
  | [] => some o
  | (key, d) :: ms => do
    let m ← (I id).fields.find? fun m => m.schemaName = key
    let v ← readField I id o m d
    let o ← okay ((I id).setAttr o m v)
    readMembers I id o ms

/-- A field; `None` may be given for an array too. -/
def readField (I : TypeInfos) (id : Nat) (o : Val) (m : MemberInfo) : Doc → Option Val
  | .value v => do
    let w ← readValue m v
    if m.isArray && !w.isNone then none else some w
  | .array ds => if m.isArray then (readElements I id o m 0 ds).map .arr else none
  | .object ms => if m.isArray then none else readObject I id o m none ms fun cid c => readMembers I cid c ms

/-- the elements of an array field, from the element `index` -/
def readElements (I : TypeInfos) (id : Nat) (o : Val) (m : MemberInfo) (index : Nat) : List Doc → Option (List Val)
  | [] => some []
  | d :: ds => do
    let x ← readElement I id o m index d
    let xs ← readElements I id o m (index + 1) ds
    some (x :: xs)

/-- an element of an array field -/
def readElement (I : TypeInfos) (id : Nat) (o : Val) (m : MemberInfo) (index : Nat) : Doc → Option Val
  | .value v => readValue m v
  | .array _ => none
  | .object ms => readObject I id o m (some index) ms fun cid c => readMembers I cid c ms

end

/-- The object which the JSON object with these members stands for. -/
def readRoot (I : TypeInfos) (id : Nat) (args : List Int) (ms : List (PyStr × Doc)) : Option Val := do
  let o ← okay ((I id).new args)
  readMembers I id o ms

end Zserio.Json
