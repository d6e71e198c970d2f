import Verif.Model.RemoteOffsets
/-
Which objects a schema declares, which fields are offsets, and where the offsets of an object are stored.
-/
namespace Zserio.Remote

/-! ## The declarations -/

/-- field `j` of the class `c` is used as an offset somewhere in the schema -/
def IsOffset (S : Classes) (c j : Nat) : Prop :=
  ∃ c' f p indexed, f ∈ (S c').fields ∧ f.offset = some p ∧ p.place S c' = some (.slot c j indexed)

/-! ## Objects -/

/-- the object has this class -/
def Heap.hasClass (h : Heap) (a c : Nat) : Prop := ∃ o, h[a]? = some o ∧ o.cls = c

/-- the value is one of a field with this type -/
def Value.Fits (h : Heap) (t : RType) : Value → Prop
  | .leaf v => match t with | .leaf _ => True | .compound _ => v = .none
  | .ref a => match t with | .leaf _ => False | .compound c => h.hasClass a c

/-- the attribute is a list exactly if the field is an array, except that it may be `None` -/
def Slot.Fits (h : Heap) (f : RField) : Slot → Prop
  | .one v => (f.array = none ∨ v = .leaf .none) ∧ v.Fits h f.type
  | .many vs => f.array.isSome = true ∧ ∀ v ∈ vs, v.Fits h f.type

/-- the objects are what the schema declares -/
structure WellTyped (S : Classes) (h : Heap) : Prop where
  param : ∀ (a : Nat) (o : Obj) (i : Nat) (t : RType) (v : Value), h[a]? = some o → (S o.cls).params[i]? = some t →
    o.params[i]? = some v → v.Fits h t
  field : ∀ (a : Nat) (o : Obj) (j : Nat) (f : RField) (s : Slot), h[a]? = some o → (S o.cls).fields[j]? = some f → o.fields[j]? = some s → s.Fits h f

/-- a value, or a list of the same length -/
def Slot.SameShape : Slot → Slot → Prop
  | .one _, .one _ => True
  | .many vs, .many vs' => vs.length = vs'.length
  | _, _ => False

/-- The two heaps have the same objects, with the same values in all fields which are not offsets. -/
structure Similar (S : Classes) (h g : Heap) : Prop where
  length : g.length = h.length
  cls : ∀ (a : Nat) (o o' : Obj), h[a]? = some o → g[a]? = some o' → o'.cls = o.cls
  params : ∀ (a : Nat) (o o' : Obj), h[a]? = some o → g[a]? = some o' → o'.params = o.params
  fields : ∀ (a : Nat) (o o' : Obj), h[a]? = some o → g[a]? = some o' → o'.fields.length = o.fields.length
  slots : ∀ (a : Nat) (o o' : Obj) (j : Nat) (s s' : Slot), h[a]? = some o → g[a]? = some o' →
    o.fields[j]? = some s → o'.fields[j]? = some s' →
    s.SameShape s' ∧ (¬ IsOffset S o.cls j → s' = s)

/-- The rules for writing offsets: an offset is a field, or an element of an array, which is of an unsigned type with a fixed number
of bits and is not optional; it is read only by the checks before a value is written; no check reports a wrong offset. -/
structure Rules (S : Classes) : Prop where
  offset : ∀ c f p, f ∈ (S c).fields → f.offset = some p → ∃ d j indexed t n, p.place S c = some (.slot d j indexed) ∧
    (S d).fields[j]? = some t ∧ t.type = .leaf (.int (.bitField n)) ∧ t.optional = .required ∧ t.array.isSome = indexed
  clause : ∀ c f cl, f ∈ (S c).fields → f.optional = .clause cl → ∀ h g a, Similar S h g → cl g a = cl h a
  clauseError : ∀ c f cl, f ∈ (S c).fields → f.optional = .clause cl → ∀ h a, cl h a ≠ .error .offset
  checkError : ∀ c f, f ∈ (S c).fields → ∀ h a, f.checks h a ≠ .error .offset

/-! ## Where the offsets of an object are stored -/

/-- the place a path leads to, if there is one -/
def placesOfPath (o : Option Path) (h : Heap) (self index : Nat) : List Loc :=
  match o with
  | none => []
  | some p =>
    match p.target h self index with
    | .ok l => [l]
    | .error _ => []

/-- in a value: those of the object; `rec` lists those of an object -/
def placesOfValue (rec : Nat → List Loc) : RType → Value → List Loc
  | .compound _, .ref a => rec a
  | _, _ => []

/-- in the elements from number `i` on, with the offset of each element -/
def placesOfElements (rec : Nat → List Loc) (t : RType) (o : Option Path) (h : Heap) (self : Nat) : Nat → List Value → List Loc
  | _, [] => []
  | i, v :: vs => placesOfPath o h self i ++ placesOfValue rec t v ++ placesOfElements rec t o h self (i + 1) vs

/-- in what a field holds -/
def placesOfSlot (rec : Nat → List Loc) (f : RField) (h : Heap) (self : Nat) : Slot → List Loc
  | .one v => placesOfPath f.ownOffset h self 0 ++ placesOfValue rec f.type v
  | .many vs => placesOfPath f.ownOffset h self 0 ++ placesOfElements rec f.type f.elemOffset h self 0 vs

/-- in field `j`, if it is used -/
def placesOfField (rec : Nat → List Loc) (f : RField) (h : Heap) (self j : Nat) : List Loc :=
  match h.slot self j with
  | .error _ => []
  | .ok s =>
    match f.isUsed h self s with
    | .ok true => placesOfSlot rec f h self s
    | _ => []

/-- in the fields from number `j` on -/
def placesOfFields (rec : Nat → List Loc) (h : Heap) (self : Nat) : Nat → List RField → List Loc
  | _, [] => []
  | j, f :: fs => placesOfField rec f h self j ++ placesOfFields rec h self (j + 1) fs

/-- The places of all offsets which are stored when the object is written, one for each value which has an offset. Objects are
followed up to the depth `n`. -/
def offsetPlaces (S : Classes) (h : Heap) : Nat → Nat → List Loc
  | 0, _ => []
  | n + 1, a =>
    match h[a]? with
    | none => []
    | some o => placesOfFields (offsetPlaces S h n) h a 0 (S o.cls).fields

/-- what is stored in a place -/
def Heap.read (h : Heap) (l : Loc) : Option Value :=
  match h.slot l.addr l.field, l.index with
  | .ok (.one v), none => some v
  | .ok (.many vs), some i => vs[i]?
  | _, _ => none

end Zserio.Remote
