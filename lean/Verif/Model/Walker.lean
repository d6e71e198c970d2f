import Verif.Model.TypeInfo
/-
Model of walker.py: `Walker` and the walk filters.

The walker sends events to its observer.  An observer cannot influence the walk (except by raising, which ends it), so the model
returns the list of events, and an observer is a function of this list.
-/
namespace Zserio

/-- The calls of a `WalkObserver`, walker.py:14-95 -/
inductive Event where
  | beginRoot (root : Val)
  | endRoot (root : Val)
  | beginArray (array : List Val) (m : MemberInfo)
  | endArray (array : List Val) (m : MemberInfo)
  | beginCompound (compound : Val) (m : MemberInfo) (index : Option Nat)
  | endCompound (compound : Val) (m : MemberInfo) (index : Option Nat)
  | visitValue (value : Val) (m : MemberInfo) (index : Option Nat)

/-- walker.py:98-202 `WalkFilter`: an object with a state, whose methods may raise -/
structure WalkFilter (σ : Type) where
  beforeArray : List Val → MemberInfo → M σ Bool
  afterArray : List Val → MemberInfo → M σ Bool
  beforeCompound : Val → MemberInfo → Option Nat → M σ Bool
  afterCompound : Val → MemberInfo → Option Nat → M σ Bool
  beforeValue : Val → MemberInfo → Option Nat → M σ Bool
  afterValue : Val → MemberInfo → Option Nat → M σ Bool

/-- Code which may raise, changes the state of the filter and sends events. -/
def Walk (σ α : Type) := σ → Except Err α × σ × List Event

namespace Walk

/-- return a value -/
def pure {σ α : Type} (a : α) : Walk σ α := fun s => (.ok a, s, [])

/-- sequential composition: an exception ends the execution -/
def bind {σ α β : Type} (x : Walk σ α) (f : α → Walk σ β) : Walk σ β := fun s =>
  match x s with
  | (.ok a, s, es) => ((f a s).1, (f a s).2.1, es ++ (f a s).2.2)
  | (.error e, s, es) => (.error e, s, es)

instance {σ : Type} : Monad (Walk σ) where
  pure := Walk.pure
  bind := Walk.bind

/-- an exception -/
def throw {σ α : Type} (e : Err) : Walk σ α := fun s => (.error e, s, [])

/-- a call of the observer -/
def emit {σ : Type} (e : Event) : Walk σ Unit := fun s => (.ok (), s, [e])

/-- a call of the filter -/
def filter {σ α : Type} (x : M σ α) : Walk σ α := fun s => ((x s).1, (x s).2, [])

/-- a computation which may raise -/
def lift {σ α : Type} (x : Except Err α) : Walk σ α := fun s => (x, s, [])

end Walk

namespace Walker
variable {σ : Type}

/-- walker.py:294-297, a simple value or `None` -/
def simple (F : WalkFilter σ) (v : Val) (m : MemberInfo) (idx : Option Nat) : Walk σ Bool := do
  let enter ← Walk.filter (F.beforeValue v m idx)
  if enter then
    Walk.emit (.visitValue v m idx)
    Walk.filter (F.afterValue v m idx)
  else Walk.filter (F.afterValue v m idx)

/-- walker.py:288-293, a compound whose fields are walked by `fields` -/
def compound (F : WalkFilter σ) (v : Val) (m : MemberInfo) (idx : Option Nat) (fields : Walk σ Unit) : Walk σ Bool := do
  let enter ← Walk.filter (F.beforeCompound v m idx)
  if enter then
    Walk.emit (.beginCompound v m idx)
    fields
    Walk.emit (.endCompound v m idx)
    Walk.filter (F.afterCompound v m idx)
  else Walk.filter (F.afterCompound v m idx)

/-- walker.py:270-277, an array whose elements are walked by `elements` -/
def array (F : WalkFilter σ) (xs : List Val) (m : MemberInfo) (elements : Walk σ Unit) : Walk σ Bool := do
  let enter ← Walk.filter (F.beforeArray xs m)
  if enter then
    Walk.emit (.beginArray xs m)
    elements
    Walk.emit (.endArray xs m)
    Walk.filter (F.afterArray xs m)
  else Walk.filter (F.afterArray xs m)

/-- a member variable of an object together with the walk of a field with this value -/
abbrev Attr (σ : Type) := Val × (MemberInfo → Walk σ Bool)

/-- `self._walk_field(getattr(zserio_object, property), field)` -/
def walkAttr (a : Option (Attr σ)) (m : MemberInfo) : Walk σ Bool :=
  match a with
  | none => Walk.throw .type
  | some (x, walk) => do
    let _ ← Walk.lift (m.get x)
    walk m

/-- walker.py:262-267, the loop over the fields of a structure -/
def structFields (attrs : List (Attr σ)) : List MemberInfo → Walk σ Unit
  | [] => pure ()
  | m :: ms => do
    let cont ← walkAttr attrs[m.prop]? m
    if cont then structFields attrs ms else pure ()

/-- walker.py:248-267 `_walk_fields` of an object with the given member variables -/
def fields (ci : CompoundInfo) (params : List Int) (tag : Int) (attrs : List (Attr σ)) : Walk σ Unit := do
  let choice ← Walk.lift (ci.choiceTag params tag)
  match choice with
  | some choiceTag =>
    if choiceTag = UNDEFINED_CHOICE then pure ()
    else
      match ci.fieldAt choiceTag with
      | some m => do
        let _ ← walkAttr attrs[0]? m
        pure ()
      | none => Walk.throw .index
  | none => structFields attrs ci.fields

/-- walker.py:281-297 `_walk_field_value` of a value which is not an object: `_walk_fields` raises if it is walked as a compound
(unless it is a structure without fields, whose values are objects all the same) -/
def notObject (F : WalkFilter σ) (v : Val) (m : MemberInfo) (idx : Option Nat) : Walk σ Bool :=
  match m.type, v with
  | .compound _, .none => simple F v m idx
  | .compound _, v => compound F v m idx (Walk.throw .type)
  | _, v => simple F v m idx

/-- walker.py:281-297 `_walk_field_value` of an object with the given member variables -/
def object (I : TypeInfos) (F : WalkFilter σ) (v : Val) (params : List Int) (tag : Int) (attrs : List (Attr σ)) (m : MemberInfo)
    (idx : Option Nat) : Walk σ Bool :=
  match m.type with
  | .compound id => compound F v m idx (fields (I id) params tag attrs)
  | _ => simple F v m idx

mutual

/-- walker.py:281-297 `_walk_field_value` of an array element -/
def element (I : TypeInfos) (F : WalkFilter σ) : Val → MemberInfo → Nat → Walk σ Bool
  | .obj ps k tag fs, m, i => object I F (.obj ps k tag fs) ps tag (walkAttrs I F fs) m (some i)
  | v, m, i => notObject F v m (some i)

/-- walker.py:269-279 `_walk_field` -/
def field (I : TypeInfos) (F : WalkFilter σ) : Val → MemberInfo → Walk σ Bool
  | .arr xs, m => if m.isArray then array F xs m (elements I F xs m 0) else notObject F (.arr xs) m none
  | .obj ps k tag fs, m => object I F (.obj ps k tag fs) ps tag (walkAttrs I F fs) m none
  | v, m => notObject F v m none

/-- walker.py:273-275, the loop over the elements of an array -/
def elements (I : TypeInfos) (F : WalkFilter σ) : List Val → MemberInfo → Nat → Walk σ Unit
  | [], _, _ => pure ()
  | x :: xs, m, i => do
    let cont ← element I F x m i
    if cont then elements I F xs m (i + 1) else pure ()

/-- the member variables with their walks -/
def walkAttrs (I : TypeInfos) (F : WalkFilter σ) : List Val → List (Attr σ)
  | [] => []
  | x :: xs => (x, field I F x) :: walkAttrs I F xs

end

/-- walker.py:245, the fields of the root object -/
def rootFields (I : TypeInfos) (F : WalkFilter σ) (id : Nat) (v : Val) : Walk σ Unit :=
  match v with
  | .obj ps _ tag fs => fields (I id) ps tag (walkAttrs I F fs)
  | _ => Walk.throw .type

/-- walker.py:244-246 -/
def root (I : TypeInfos) (F : WalkFilter σ) (id : Nat) (v : Val) : Walk σ Unit := do
  Walk.emit (.beginRoot v)
  rootFields I F id v
  Walk.emit (.endRoot v)

/-- walker.py:225-246 `walk`; `type` is what `zserio_object.type_info()` returns, `none` if there is no such method -/
def walk (I : TypeInfos) (F : WalkFilter σ) (type : Option TypeInfo) (v : Val) : Walk σ Unit :=
  match type with
  | some (.compound id) => root I F id v
  | _ => Walk.throw .walker

end Walker

/-! ### Filters -/

/-- walker.py:342-383 `DefaultWalkFilter` -/
def defaultFilter : WalkFilter Unit where
  beforeArray := fun _ _ => pure true
  afterArray := fun _ _ => pure true
  beforeCompound := fun _ _ _ => pure true
  afterCompound := fun _ _ _ => pure true
  beforeValue := fun _ _ _ => pure true
  afterValue := fun _ _ _ => pure true

namespace DepthFilter

/-- walker.py:439-442 `_enter_depth_level`; the state is `_depth` -/
def enter (maxDepth : Int) : M Int Bool := fun depth => (.ok (decide (depth ≤ maxDepth)), depth + 1)

/-- walker.py:444-446 `_leave_depth_level` -/
def leave : M Int Bool := fun depth => (.ok true, depth - 1)

end DepthFilter

/-- walker.py:386-446 `DepthWalkFilter`, which starts with `_depth = 1` -/
def depthFilter (maxDepth : Int) : WalkFilter Int where
  beforeArray := fun _ _ => DepthFilter.enter maxDepth
  afterArray := fun _ _ => DepthFilter.leave
  beforeCompound := fun _ _ _ => DepthFilter.enter maxDepth
  afterCompound := fun _ _ _ => DepthFilter.leave
  beforeValue := fun _ _ _ => fun depth => (.ok (decide (depth ≤ maxDepth)), depth)
  afterValue := fun _ _ _ => pure true

/-- walker.py:707-708 `_filter_array_element` -/
def filterArrayElement (maxLength : Int) (idx : Option Nat) : Bool :=
  match idx with
  | none => true
  | some i => decide ((i : Int) < maxLength)

/-- walker.py:655-708 `ArrayLengthWalkFilter` -/
def arrayLengthFilter (maxLength : Int) : WalkFilter Unit where
  beforeArray := fun _ _ => pure true
  afterArray := fun _ _ => pure true
  beforeCompound := fun _ _ idx => pure (filterArrayElement maxLength idx)
  afterCompound := fun _ _ idx => pure (filterArrayElement maxLength idx)
  beforeValue := fun _ _ idx => pure (filterArrayElement maxLength idx)
  afterValue := fun _ _ idx => pure (filterArrayElement maxLength idx)

/-- The list of filters of an `AndWalkFilter`; the filters have states of different types. -/
inductive Filters : Type → Type 1 where
  | nil : Filters Unit
  | cons {σ τ : Type} (F : WalkFilter σ) (Fs : Filters τ) : Filters (σ × τ)

namespace Filters

/-- walker.py:766-767 `_apply_filters`: all methods are called in order, the results are combined by `and`, starting with
`acc` -/
def apply {σ : Type} (method : {τ : Type} → WalkFilter τ → M τ Bool) : Filters σ → (acc : Bool) → M σ Bool
  | nil, acc => pure acc
  | cons F Fs, acc => fun (s, t) =>
    match method F s with
    | (.error e, s) => (.error e, (s, t))
    | (.ok b, s) => ((apply method Fs (acc && b) t).1, (s, (apply method Fs (acc && b) t).2))

end Filters

/-- walker.py:711-767 `AndWalkFilter` -/
def andFilter {σ : Type} (Fs : Filters σ) : WalkFilter σ where
  beforeArray := fun xs m => Fs.apply (fun F => F.beforeArray xs m) true
  afterArray := fun xs m => Fs.apply (fun F => F.afterArray xs m) true
  beforeCompound := fun v m idx => Fs.apply (fun F => F.beforeCompound v m idx) true
  afterCompound := fun v m idx => Fs.apply (fun F => F.afterCompound v m idx) true
  beforeValue := fun v m idx => Fs.apply (fun F => F.beforeValue v m idx) true
  afterValue := fun v m idx => Fs.apply (fun F => F.afterValue v m idx) true

/-! ### Regular expressions

The compiled regular expression is any function from paths to whether `match` succeeds. -/

namespace RegexFilter

/-- walker.py:547-549 `_get_current_path_impl`: `".".join(current_path)` -/
def joinPath : List PyStr → PyStr
  | [] => []
  | [s] => s
  | s :: ss => s ++ py! "." ++ joinPath ss

/-- `name + f"[{index}]"` -/
def indexed (name : PyStr) (i : Nat) : PyStr := name ++ py! "[" ++ Json.decimalNat i ++ py! "]"

/-- `current_path[-1] = s` -/
def setLast (s : PyStr) : List PyStr → Except Err (List PyStr)
  | [] => .error .index
  | [_] => .ok [s]
  | a :: as => do
    let as ← setLast s as
    .ok (a :: as)

/-- `current_path.pop()` -/
def pop : List PyStr → Except Err (List PyStr)
  | [] => .error .index
  | [_] => .ok []
  | a :: as => do
    let as ← pop as
    .ok (a :: as)

/-- walker.py:551-560 `_append_path_impl` -/
def appendPath (path : List PyStr) (m : MemberInfo) : Option Nat → Except Err (List PyStr)
  | none => .ok (path ++ [m.schemaName])
  | some i => setLast (indexed m.schemaName i) path

/-- walker.py:562-571 `_pop_path_impl` -/
def popPath (path : List PyStr) (m : MemberInfo) : Option Nat → Except Err (List PyStr)
  | none => pop path
  | some _ => setLast m.schemaName path

/-- the state of `_SubtreeRegexFilter`, walker.py:579-582 -/
structure Subtree where
  path : List PyStr
  matched : Bool

/-- walker.py:593-598, 604-614, 625-634: extend the path, match it -/
def Subtree.before (regex : PyStr → Bool) (path : List PyStr → Except Err (List PyStr)) : M Subtree Bool := fun s =>
  match path s.path with
  | .error e => (.error e, s)
  | .ok p => (.ok (!regex (joinPath p)), ⟨p, regex (joinPath p)⟩)

/-- walker.py:600-602, 616-623, 636-643 -/
def Subtree.after (path : List PyStr → Except Err (List PyStr)) : M Subtree Bool := fun s =>
  match path s.path with
  | .error e => (.error e, s)
  | .ok p => (.ok (!s.matched), { s with path := p })

/-- walker.py:573-652 `_SubtreeRegexFilter` -/
def subtree (regex : PyStr → Bool) : WalkFilter Subtree where
  beforeArray := fun _ m => Subtree.before regex fun p => .ok (p ++ [m.schemaName])
  afterArray := fun _ _ => Subtree.after pop
  beforeCompound := fun _ m idx => Subtree.before regex fun p => appendPath p m idx
  afterCompound := fun _ m idx => Subtree.after fun p => popPath p m idx
  beforeValue := fun _ m idx => Subtree.before regex fun p => appendPath p m idx
  afterValue := fun _ m idx => Subtree.after fun p => popPath p m idx

/-- walker.py:527-536 `_match_subtree` with the current path; a compound value is walked (its class has the type info of the
field's type) -/
def matchSubtree (I : TypeInfos) (regex : PyStr → Bool) (path : List PyStr) (v : Val) (m : MemberInfo) : Except Err Bool :=
  match m.type, v with
  | .compound _, .none => .ok (regex (joinPath path))
  | .compound id, v =>
    match Walker.walk I (subtree regex) (some (.compound id)) v ⟨path, false⟩ with
    | (.ok (), s, _) => .ok s.matched
    | (.error e, _, _) => .error e
  | _, _ => .ok (regex (joinPath path))

/-- walker.py:475-482, the loop over the elements in `before_array`; the state is `_current_path` -/
def matchElements (I : TypeInfos) (regex : PyStr → Bool) (m : MemberInfo) : Nat → List Val → M (List PyStr) Bool
  | _, [] => fun path =>
    match setLast m.schemaName path with
    | .error e => (.error e, path)
    | .ok path => (.ok false, path)
  | i, x :: xs => fun path =>
    match setLast (indexed m.schemaName i) path with
    | .error e => (.error e, path)
    | .ok path =>
      match matchSubtree I regex path x m with
      | .error e => (.error e, path)
      | .ok true => (.ok true, path)
      | .ok false => matchElements I regex m (i + 1) xs path

/-- walker.py:488-498 `before_compound` after the path has been extended -/
def matchCompound (I : TypeInfos) (regex : PyStr → Bool) (path : List PyStr) (v : Val) (m : MemberInfo) : Except Err Bool :=
  if regex (joinPath path) then .ok true else matchSubtree I regex path v m

/-- change the path, then compute the result from it -/
def change (path : List PyStr → Except Err (List PyStr)) (result : List PyStr → Except Err Bool) : M (List PyStr) Bool := fun s =>
  match path s with
  | .error e => (.error e, s)
  | .ok p => (result p, p)

end RegexFilter

open RegexFilter in
/-- walker.py:449-571 `RegexWalkFilter`; the state is `_current_path`, at first empty -/
def regexFilter (I : TypeInfos) (regex : PyStr → Bool) : WalkFilter (List PyStr) where
  beforeArray := fun xs m path =>
    if regex (joinPath (path ++ [m.schemaName])) then (.ok true, path ++ [m.schemaName])
    else matchElements I regex m 0 xs (path ++ [m.schemaName])
  afterArray := fun _ _ => change pop fun _ => .ok true
  beforeCompound := fun v m idx => change (fun p => appendPath p m idx) fun p => matchCompound I regex p v m
  afterCompound := fun _ m idx => change (fun p => popPath p m idx) fun _ => .ok true
  beforeValue := fun v m idx => change (fun p => appendPath p m idx) fun p => matchSubtree I regex p v m
  afterValue := fun _ m idx => change (fun p => popPath p m idx) fun _ => .ok true

end Zserio
