import Verif.Model.Walker
/-
Vocabulary for the statements about the walker: the nodes of an object tree with their paths, and what a well-nested sequence
of events says.
-/
namespace Zserio

/-- A step from a node of an object tree to a child: the `k`-th field of a compound, which has the given name, or an element
of an array. -/
inductive Step where
  | field (k : Nat) (name : PyStr)
  | elem (i : Nat)
  deriving DecidableEq

/-- the number of the field or of the element -/
def Step.index : Step → Nat
  | .field k _ => k
  | .elem i => i

/-- The way from the root object to a node. -/
abbrev Path := List Step

/-- Paths are ordered as the nodes are in the schema and in the arrays: a node comes before its children, and a child with all
its descendants comes before the next child. -/
def Path.Before (p q : Path) : Prop := List.Lex (· < ·) (p.map Step.index) (q.map Step.index)

/-- A node of an object tree: the root object of the compound type `id`, an array, or a single value, which is the value of a field
or an element of an array. -/
inductive Node where
  | root (id : Nat) (o : Val)
  | array (m : MemberInfo) (xs : List Val)
  | item (m : MemberInfo) (x : Val)

/-- the node of a field with the value `x` -/
def MemberInfo.node (m : MemberInfo) (x : Val) : Node :=
  match x with
  | .arr xs => if m.isArray then .array m xs else .item m (.arr xs)
  | x => .item m x

/-- The field `m` of the object `o` of the compound type `id` has the value `x`: all fields of a structure, the chosen field of a
union or choice. -/
inductive FieldOf (I : TypeInfos) (id : Nat) : Val → MemberInfo → Val → Prop where
  | struct {ps : List Int} {k : Nat} {tag : Int} {fs : List Val} {m : MemberInfo} {v x : Val} :
    (I id).kind = .struct → m ∈ (I id).fields → fs[m.prop]? = some v → m.get v = .ok x → FieldOf I id (.obj ps k tag fs) m x
  | chosen {ps : List Int} {k : Nat} {tag : Int} {v x : Val} {vs : List Val} {i : Nat} {m : MemberInfo} :
    (I id).choiceTag ps tag = .ok (some (i : Int)) → (I id).fields[i]? = some m → m.get v = .ok x →
    FieldOf I id (.obj ps k tag (v :: vs)) m x

/-- All fields of the object can be read. -/
inductive ReadableObject (I : TypeInfos) (id : Nat) : Val → Prop where
  | struct {ps : List Int} {k : Nat} {tag : Int} {fs : List Val} :
    (I id).kind = .struct → (∀ m ∈ (I id).fields, ∃ v x, fs[m.prop]? = some v ∧ m.get v = .ok x) →
    ReadableObject I id (.obj ps k tag fs)
  | chosen {ps : List Int} {k : Nat} {tag : Int} {v x : Val} {vs : List Val} {i : Nat} {m : MemberInfo} :
    (I id).choiceTag ps tag = .ok (some (i : Int)) → (I id).fields[i]? = some m → m.get v = .ok x →
    ReadableObject I id (.obj ps k tag (v :: vs))
  | undefined {ps : List Int} {k : Nat} {tag : Int} {fs : List Val} :
    (I id).choiceTag ps tag = .ok (some UNDEFINED_CHOICE) → ReadableObject I id (.obj ps k tag fs)

/-- The node is an object of the compound type `id` (and not `None`). -/
inductive Node.IsCompound : Node → Nat → Val → Prop where
  | root {id : Nat} {o : Val} : IsCompound (.root id o) id o
  | item {m : MemberInfo} {id : Nat} {o : Val} : m.type = .compound id → o.isNone = false → IsCompound (.item m o) id o

/-- The children of a node. -/
inductive Child (I : TypeInfos) : Node → Step → Node → Prop where
  | elem {m : MemberInfo} {xs : List Val} {i : Nat} {x : Val} : xs[i]? = some x → Child I (.array m xs) (.elem i) (.item m x)
  | field {n : Node} {id : Nat} {o : Val} {m : MemberInfo} {x : Val} :
    n.IsCompound id o → FieldOf I id o m x → Child I n (.field m.prop m.schemaName) (m.node x)

/-- The path `p` leads from the node `n` to its descendant `n'`. -/
inductive HasNode (I : TypeInfos) : Node → Path → Node → Prop where
  | refl {n : Node} : HasNode I n [] n
  | step {n n₁ n' : Node} {s : Step} {p : Path} : Child I n s n₁ → HasNode I n₁ p n' → HasNode I n (s :: p) n'

/-- All fields of all objects in the tree can be read. -/
def Readable (I : TypeInfos) (n : Node) : Prop := ∀ p n' id o, HasNode I n p n' → n'.IsCompound id o → ReadableObject I id o

/-- The fields are numbered by their positions. -/
def TypeInfos.Numbered (I : TypeInfos) : Prop :=
  ∀ (id k : Nat) (m : MemberInfo), (I id).fields[k]? = some m → m.prop = k

/-- the step to a node, which is given by the arguments of the events -/
def stepOf (m : MemberInfo) : Option Nat → Step
  | none => .field m.prop m.schemaName
  | some i => .elem i

/-- `Nested p inArray events L`: the events are well nested and report exactly the nodes `L`, in this order, below the node with
the path `p`; `inArray` tells whether this node is an array (then all items have an element index). -/
inductive Nested : (p : Path) → (inArray : Bool) → List Event → List (Path × Node) → Prop where
  | nil {p : Path} {a : Bool} : Nested p a [] []
  | value {p : Path} {v : Val} {m : MemberInfo} {idx : Option Nat} {es : List Event} {L : List (Path × Node)} :
    Nested p idx.isSome es L →
    Nested p idx.isSome (.visitValue v m idx :: es) ((p ++ [stepOf m idx], .item m v) :: L)
  | compound {p : Path} {v : Val} {m : MemberInfo} {idx : Option Nat} {es₁ es : List Event} {L₁ L : List (Path × Node)} :
    Nested (p ++ [stepOf m idx]) false es₁ L₁ → Nested p idx.isSome es L →
    Nested p idx.isSome (.beginCompound v m idx :: es₁ ++ .endCompound v m idx :: es) ((p ++ [stepOf m idx], .item m v) :: L₁ ++ L)
  | array {p : Path} {xs : List Val} {m : MemberInfo} {es₁ es : List Event} {L₁ L : List (Path × Node)} :
    Nested (p ++ [stepOf m none]) true es₁ L₁ → Nested p false es L →
    Nested p false (.beginArray xs m :: es₁ ++ .endArray xs m :: es) ((p ++ [stepOf m none], .array m xs) :: L₁ ++ L)

/-- The events of the walk of the root object `o`: the nodes `L` are reported in well-nested events between `begin_root` and
`end_root`, in the order of the schema. -/
def Reports (o : Val) (events : List Event) (L : List (Path × Node)) : Prop :=
  ∃ es, events = .beginRoot o :: es ++ [.endRoot o] ∧ Nested [] false es L ∧ L.Pairwise (fun a b => Path.Before a.1 b.1)

/-! ### Filters which decide by the position -/

/-- `Visited I acc p n r n'`: `acc` accepts the node `n`, which has the path `p`, and all nodes on the path `r` from there to `n'`,
including `n'`. -/
inductive Visited (I : TypeInfos) (acc : Path → Node → Prop) : Path → Node → Path → Node → Prop where
  | refl {p : Path} {n : Node} : acc p n → Visited I acc p n [] n
  | step {p r : Path} {n n₁ n' : Node} {s : Step} : acc p n → Child I n s n₁ → Visited I acc (p ++ [s]) n₁ r n' →
    Visited I acc p n (s :: r) n'

/-- The node `n` with the path `p` below `root` is accepted, and so are all nodes above it, except for the root. -/
def Selected (I : TypeInfos) (root : Node) (acc : Path → Node → Prop) (p : Path) (n : Node) : Prop :=
  ∃ s r n₁, p = s :: r ∧ Child I root s n₁ ∧ Visited I acc [s] n₁ r n

/-- `L` are exactly the nodes which are accepted together with all nodes above them. -/
def Selects (I : TypeInfos) (root : Node) (acc : Path → Node → Prop) (L : List (Path × Node)) : Prop :=
  ∀ p n, (p, n) ∈ L ↔ Selected I root acc p n

/-- no child with a greater index is accepted -/
def NoneAfter (I : TypeInfos) (root : Node) (acc : Path → Node → Prop) (p : Path) (s : Step) : Prop :=
  ∀ s' n', s.index < s'.index → HasNode I root (p ++ [s']) n' → ¬ acc (p ++ [s']) n'

/-- One pair of methods `before_...` and `after_...` of a filter, called for the node `n` with the path `p ++ [s]`.
`outside` and `inside` are the states the filter can have before the pair of calls and between the two calls. -/
structure PathFilterCall {σ : Type} (I : TypeInfos) (root : Node) (acc : Path → Node → Prop) (p : Path) (s : Step) (n : Node)
    (outside inside : σ → Prop) (before after : M σ Bool) : Prop where
  before : ∀ st, outside st → ∃ b st', before st = (.ok b, st') ∧ (b = true ↔ acc (p ++ [s]) n) ∧ inside st'
  after : ∀ st, inside st → ∃ c st', after st = (.ok c, st') ∧ outside st' ∧ (c = false → NoneAfter I root acc p s)

/-- In the tree below `root` the filter accepts a node if and only if `acc` accepts it, wherever the walker comes from.
`rep inArray p state`: the state is one the filter can have while the walker is at the node with the path `p`, which is an array
or an object. -/
structure PathFilter {σ : Type} (I : TypeInfos) (root : Node) (F : WalkFilter σ) (rep : Bool → Path → σ → Prop)
    (acc : Path → Node → Prop) : Prop where
  array : ∀ p m xs, HasNode I root (p ++ [stepOf m none]) (.array m xs) →
    PathFilterCall I root acc p (stepOf m none) (.array m xs) (rep false p) (rep true (p ++ [stepOf m none]))
      (F.beforeArray xs m) (F.afterArray xs m)
  compound : ∀ p m x idx id, HasNode I root (p ++ [stepOf m idx]) (.item m x) → (Node.item m x).IsCompound id x →
    PathFilterCall I root acc p (stepOf m idx) (.item m x) (rep idx.isSome p) (rep false (p ++ [stepOf m idx]))
      (F.beforeCompound x m idx) (F.afterCompound x m idx)
  value : ∀ p m x idx, HasNode I root (p ++ [stepOf m idx]) (.item m x) → (∀ id, ¬ (Node.item m x).IsCompound id x) →
    ∃ inside, PathFilterCall I root acc p (stepOf m idx) (.item m x) (rep idx.isSome p) inside
      (F.beforeValue x m idx) (F.afterValue x m idx)

/-- All filters of the list decide by the position, with the given conditions. -/
inductive Filters.Path (I : TypeInfos) (root : Node) :
    {σ : Type} → Filters σ → (Bool → Zserio.Path → σ → Prop) → List (Zserio.Path → Node → Prop) → Prop where
  | nil : Filters.Path I root .nil (fun _ _ _ => True) []
  | cons {σ τ : Type} {F : WalkFilter σ} {Fs : Filters τ} {rep : Bool → Zserio.Path → σ → Prop}
    {reps : Bool → Zserio.Path → τ → Prop} {acc : Zserio.Path → Node → Prop} {accs : List (Zserio.Path → Node → Prop)} :
    PathFilter I root F rep acc → Filters.Path I root Fs reps accs →
    Filters.Path I root (.cons F Fs) (fun a p st => rep a p st.1 ∧ reps a p st.2) (acc :: accs)

/-- the conjunction of the conditions -/
def allOf (accs : List (Path → Node → Prop)) (p : Path) (n : Node) : Prop := ∀ acc ∈ accs, acc p n

/-! ### Paths as text -/

/-- The path in the dot notation: `field.array[3].field`. -/
def Path.text : Path → PyStr
  | [] => []
  | .field _ name :: p => name ++ rest p
  | .elem i :: p => py! "[" ++ Json.decimalNat i ++ py! "]" ++ rest p
where
  rest : Path → PyStr
    | [] => []
    | .field _ name :: p => py! "." ++ name ++ rest p
    | .elem i :: p => py! "[" ++ Json.decimalNat i ++ py! "]" ++ rest p

/-- The nodes a `RegexWalkFilter` lets through: the path of the node or of a descendant matches the regular expression, where
an array ignores whether the path of an element which is a compound itself matches. -/
def RegexAccepts (I : TypeInfos) (regex : PyStr → Bool) (p : Path) (n : Node) : Prop :=
  ∃ r n', HasNode I n r n' ∧ regex (Path.text (p ++ r)) = true ∧
    ¬ ∃ m xs i id o, n = .array m xs ∧ r = [.elem i] ∧ n'.IsCompound id o

end Zserio
