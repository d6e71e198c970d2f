import Verif.Lemmas.WalkerRegex
import Verif.Lemmas.WalkerReadable
/-
C40, C41: the walker and its filters.
-/
set_option linter.unusedSimpArgs false
namespace Zserio
open Walker

/-! ### Type infos for the examples -/

namespace WalkDemo

/-- struct Root { Item first; uint8 values[]; Item items[]; Any any; optional uint8 more[]; Empty empties[]; }; -/
def rootFields : List MemberInfo := [
  { schemaName := py! "first", type := .compound 1, prop := 0 },
  { schemaName := py! "values", type := .builtin .int, prop := 1, isArray := true },
  { schemaName := py! "items", type := .compound 1, prop := 2, isArray := true },
  { schemaName := py! "any", type := .compound 2, prop := 3 },
  { schemaName := py! "more", type := .builtin .int, prop := 4, isArray := true, optional := true },
  { schemaName := py! "empties", type := .compound 3, prop := 5, isArray := true }]

/-- struct Item { uint8 key; optional string text; }; -/
def itemFields : List MemberInfo := [
  { schemaName := py! "key", type := .builtin .int, prop := 0 },
  { schemaName := py! "text", type := .builtin .str, prop := 1, optional := true }]

/-- union Any { uint8 number; Item item; }; -/
def anyFields : List MemberInfo := [
  { schemaName := py! "number", type := .builtin .int, prop := 0 },
  { schemaName := py! "item", type := .compound 1, prop := 1 }]

/-- the four types `Root`, `Item`, `Any` and `struct Empty {};` -/
def infos : TypeInfos
  | 0 => { kind := .struct, fields := rootFields, defaults := [.none, .arr [], .arr [], .none, .none, .arr []] }
  | 1 => { kind := .struct, fields := itemFields, defaults := [.int 0, .none] }
  | 2 => { kind := .union, fields := anyFields }
  | _ => { kind := .struct, fields := [] }

/-- an object of the type `Item` -/
def item (k : Int) (s : PyStr) : Val := .obj [] 0 0 [.int k, .str s]

/-- an object of the type `Root` -/
def root : Val :=
  .obj [] 0 0 [item 1 (py! "a"), .arr [.int 10, .int 11, .int 12], .arr [item 2 (py! "b"), .obj [] 0 0 [.int 3, .none]],
    .obj [] 0 1 [item 4 (py! "c")], .none, .arr [.obj [] 0 0 []]]

theorem numbered_of {I : TypeInfos} {id : Nat} {ms : List MemberInfo} (h : (I id).fields = ms)
    (hn : ms.map MemberInfo.prop = List.range ms.length) (k : Nat) (m : MemberInfo) (hm : (I id).fields[k]? = some m) : m.prop = k := by
  rw [h] at hm
  have h1 : (ms.map MemberInfo.prop)[k]? = some m.prop := by simp [hm]
  rw [hn] at h1
  have := List.getElem?_eq_some_iff.mp h1
  obtain ⟨_, h2⟩ := this
  simpa using h2.symm

theorem numbered : infos.Numbered := by
  intro id
  match id with
  | 0 => exact numbered_of (ms := rootFields) rfl rfl
  | 1 => exact numbered_of (ms := itemFields) rfl rfl
  | 2 => exact numbered_of (ms := anyFields) rfl rfl
  | _ + 3 => exact numbered_of (ms := []) rfl rfl

theorem readable : Readable infos (.root 0 root) := walk_readable rfl

end WalkDemo

/-! ### The walk -/

theorem path_before_irrefl (p : Path) : ¬ Path.Before p p := by
  unfold Path.Before
  induction p with
  | nil => intro h; cases h
  | cons s p ih =>
    intro h
    cases h with
    | rel h => exact absurd h (Nat.lt_irrefl _)
    | cons h => exact ih h

/-- what is reported is reported once -/
theorem reports_nodup {o : Val} {es : List Event} {L : List (Path × Node)} (h : Reports o es L) : (L.map Prod.fst).Nodup := by
  obtain ⟨_, _, _, ho⟩ := h
  rw [List.Nodup, List.pairwise_map]
  refine ho.imp ?_
  intro a b hab he
  rw [he] at hab
  exact path_before_irrefl _ hab

theorem selected_true {I : TypeInfos} {root n : Node} {p : Path} :
    Selected I root (fun _ _ => True) p n ↔ p ≠ [] ∧ HasNode I root p n := by
  constructor
  · rintro ⟨s, r, n₁, rfl, hc, hv⟩
    exact ⟨by simp, .step hc hv.hasNode⟩
  · rintro ⟨hp, hn⟩
    cases hn with
    | refl => exact absurd rfl hp
    | @step _ n₁ _ s r hc hn =>
      refine ⟨s, r, n₁, rfl, hc, ?_⟩
      generalize [s] = q
      clear hc hp
      induction hn generalizing q with
      | refl => exact .refl trivial
      | step hc _ ih => exact .step trivial hc (ih _)

/-- **C40**: a walk with the default filter of an object whose fields can be read visits every node of the object tree (fields,
arrays, elements, at every depth) exactly once, in the order of the schema and of the indices, in well-nested pairs of begin and
end events, within `begin_root` and `end_root`. -/
theorem C40_walk {I : TypeInfos} (hI : I.Numbered) {id : Nat} {o : Val} (hr : Readable I (.root id o)) :
    ∃ es L, walk I defaultFilter (some (.compound id)) o () = (.ok (), (), es) ∧ Reports o es L ∧ (L.map Prod.fst).Nodup ∧
      ∀ p n, (p, n) ∈ L ↔ p ≠ [] ∧ HasNode I (.root id o) p n := by
  obtain ⟨_, es, L, hw, _, h1, h2⟩ := walk_path hI hr (defaultFilter_path I _) (st := ()) trivial
  exact ⟨es, L, hw, h1, reports_nodup h1, fun p n => (h2 p n).trans selected_true⟩

example : ∃ es L, walk WalkDemo.infos defaultFilter (some (.compound 0)) WalkDemo.root () = (.ok (), (), es) ∧
    Reports WalkDemo.root es L ∧ (L.map Prod.fst).Nodup ∧
    ∀ p n, (p, n) ∈ L ↔ p ≠ [] ∧ HasNode WalkDemo.infos (.root 0 WalkDemo.root) p n :=
  C40_walk WalkDemo.numbered WalkDemo.readable

/-- the nodes of the example are there: `items[1].key` is 3 -/
example : HasNode WalkDemo.infos (.root 0 WalkDemo.root) [.field 2 (py! "items"), .elem 1, .field 0 (py! "key")]
    (.item { schemaName := py! "key", type := .builtin .int, prop := 0 } (.int 3)) :=
  .step (.field (m := { schemaName := py! "items", type := .compound 1, prop := 2, isArray := true })
      (x := .arr [WalkDemo.item 2 (py! "b"), .obj [] 0 0 [.int 3, .none]]) .root (.struct rfl (by simp [WalkDemo.infos, WalkDemo.rootFields]) rfl rfl))
    (.step (.elem rfl) (.step (.field (m := { schemaName := py! "key", type := .builtin .int, prop := 0 }) (x := .int 3)
      (.item rfl rfl) (.struct rfl (by simp [WalkDemo.infos, WalkDemo.itemFields]) rfl rfl)) .refl))

/-- **C40**: the walk with the default filter succeeds if and only if all fields of all objects in the tree can be read. -/
theorem C40_walk_iff {I : TypeInfos} (hI : I.Numbered) {id : Nat} {o : Val} :
    (∃ es, walk I defaultFilter (some (.compound id)) o () = (.ok (), (), es)) ↔ Readable I (.root id o) :=
  ⟨fun ⟨_, h⟩ => walk_readable h, fun h => (C40_walk hI h).imp fun _ ⟨_, h, _⟩ => h⟩

/-- **C40**: something that is not a compound is rejected before any event. -/
theorem C40_not_compound {σ : Type} (I : TypeInfos) (F : WalkFilter σ) {type : Option TypeInfo} (h : ∀ id, type ≠ some (.compound id))
    (v : Val) (st : σ) : walk I F type v st = (.error .walker, st, []) := by
  unfold walk
  split
  · rename_i id
    exact absurd rfl (h id)
  · rfl

example : walk WalkDemo.infos defaultFilter (some (.builtin .int)) (.int 3) () = (.error .walker, (), []) :=
  C40_not_compound _ _ (by simp) _ _

/-! ### Any filter -/

/-- **C41**: with any filter whatsoever a walk which succeeds reports nodes of the object tree, each at most once, in the order of
the schema, in well-nested events, and no node without its parent. -/
theorem C41_any_filter {σ : Type} {I : TypeInfos} (hI : I.Numbered) {F : WalkFilter σ} {id : Nat} {o : Val}
    (hr : Readable I (.root id o)) {st st' : σ} {es : List Event} (h : walk I F (some (.compound id)) o st = (.ok (), st', es)) :
    ∃ L, Reports o es L ∧ (L.map Prod.fst).Nodup ∧ (∀ p n, (p, n) ∈ L → p ≠ [] ∧ HasNode I (.root id o) p n) ∧
      ∀ p s n, (p ++ [s], n) ∈ L → p ≠ [] → ∃ n', (p, n') ∈ L := by
  obtain ⟨L, h1, h2, h3⟩ := walk_any hI hr h
  exact ⟨L, h1, reports_nodup h1, h2, h3⟩

/-- a filter which skips every second call -/
def alternating : WalkFilter Bool where
  beforeArray := fun _ _ s => (.ok s, !s)
  afterArray := fun _ _ s => (.ok true, s)
  beforeCompound := fun _ _ _ s => (.ok s, !s)
  afterCompound := fun _ _ _ s => (.ok true, s)
  beforeValue := fun _ _ _ s => (.ok s, !s)
  afterValue := fun _ _ _ s => (.ok s, s)

example : ∃ es, walk WalkDemo.infos alternating (some (.compound 0)) WalkDemo.root true = (.ok (), false, es) ∧
    ∃ L, Reports WalkDemo.root es L := by
  refine ⟨_, rfl, ?_⟩
  obtain ⟨L, h, _⟩ := C41_any_filter (F := alternating) (st := true) WalkDemo.numbered WalkDemo.readable rfl
  exact ⟨L, h⟩

/-! ### The filters of the library -/

theorem hasNode_split_step {I : TypeInfos} {root n : Node} {s : Step} {r : Path} (h : HasNode I root (s :: r) n) :
    ∃ n₁, Child I root s n₁ ∧ HasNode I n₁ r n := by
  cases h with
  | step hc h => exact ⟨_, hc, h⟩

/-- conditions on the path which hold for all prefixes -/
theorem selected_of_prefix {I : TypeInfos} {root n : Node} {p : Path} {c : Path → Prop}
    (hc : ∀ q s, c (q ++ [s]) → q ≠ [] → c q) :
    Selected I root (fun p _ => c p) p n ↔ p ≠ [] ∧ HasNode I root p n ∧ c p := by
  have hpre : ∀ r q : Path, c (q ++ r) → q ≠ [] → c q := by
    intro r
    induction r with
    | nil => intro q h _; simpa using h
    | cons s r ih =>
      intro q h hq
      exact hc q s (ih (q ++ [s]) (by simpa using h) (by simp)) hq
  have hv : ∀ {q : Path} {n₁ n : Node} {r : Path}, Visited I (fun p _ => c p) q n₁ r n → c (q ++ r) := by
    intro q n₁ n r h
    induction h with
    | refl h => simpa using h
    | step _ _ _ ih => simpa using ih
  constructor
  · rintro ⟨s, r, n₁, rfl, hch, h⟩
    exact ⟨by simp, .step hch h.hasNode, by simpa using hv h⟩
  · rintro ⟨hp, hn, hcp⟩
    cases hn with
    | refl => exact absurd rfl hp
    | @step _ n₁ _ s r hch hn =>
      refine ⟨s, r, n₁, rfl, hch, ?_⟩
      have h0 : c ([s] ++ r) := hcp
      have h1 : [s] ≠ [] := by simp
      generalize [s] = q at h0 h1
      clear hcp hp hch
      induction hn generalizing q with
      | refl => exact .refl (by simpa using h0)
      | @step n n₁ n' t r hch _ ih =>
        exact .step (hpre _ _ h0 h1) hch (ih _ (by simpa using h0) (by simp))

/-- **C41**: `DepthWalkFilter(d)` visits exactly the nodes whose depth is at most `d` (the fields of the root object have the
depth 1). -/
theorem C41_depth {I : TypeInfos} (hI : I.Numbered) {id : Nat} {o : Val} (hr : Readable I (.root id o)) (d : Int) :
    ∃ es L, walk I (depthFilter d) (some (.compound id)) o 1 = (.ok (), 1, es) ∧ Reports o es L ∧
      ∀ p n, (p, n) ∈ L ↔ p ≠ [] ∧ HasNode I (.root id o) p n ∧ (p.length : Int) ≤ d := by
  obtain ⟨st, es, L, hw, hst, h1, h2⟩ := walk_path hI hr (depthFilter_path I _ d) (st := 1) (by simp)
  have : st = 1 := by simpa using hst
  subst this
  refine ⟨es, L, hw, h1, fun p n => (h2 p n).trans (selected_of_prefix ?_)⟩
  intro q s h _
  simp only [List.length_append, List.length_cons, List.length_nil] at h
  omega

example : ∃ es L, walk WalkDemo.infos (depthFilter 2) (some (.compound 0)) WalkDemo.root 1 = (.ok (), 1, es) ∧
    Reports WalkDemo.root es L ∧
    ∀ p n, (p, n) ∈ L ↔ p ≠ [] ∧ HasNode WalkDemo.infos (.root 0 WalkDemo.root) p n ∧ (p.length : Int) ≤ 2 :=
  C41_depth WalkDemo.numbered WalkDemo.readable 2

theorem visited_short {I : TypeInfos} {n : Int} {q r : Path} {n₁ n' : Node}
    (h : Visited I (fun p _ => ShortIndex n p) q n₁ r n') : ∀ i, Step.elem i ∈ r → (i : Int) < n := by
  induction h with
  | refl _ => simp
  | step _ _ hv ih =>
    intro i hi
    rw [List.mem_cons] at hi
    rcases hi with rfl | hi
    · exact hv.accepted i (by simp)
    · exact ih i hi

theorem selected_short {I : TypeInfos} {root node : Node} {p : Path} {n : Int} :
    Selected I root (fun p _ => ShortIndex n p) p node ↔ p ≠ [] ∧ HasNode I root p node ∧ ∀ i, Step.elem i ∈ p → (i : Int) < n := by
  have key : ∀ {q : Path} {n₁ n' : Node} {r : Path}, HasNode I n₁ r n' →
      (Visited I (fun p _ => ShortIndex n p) q n₁ r n' ↔ ShortIndex n q ∧ ∀ i, Step.elem i ∈ r → (i : Int) < n) := by
    intro q n₁ n' r hn
    induction hn generalizing q with
    | refl =>
      constructor
      · intro h
        exact ⟨h.accepted, by simp⟩
      · rintro ⟨h, _⟩
        exact .refl h
    | @step m m₁ m' s r hc hn ih =>
      constructor
      · intro h
        cases h with
        | step ha hc' hv =>
          refine ⟨ha, ?_⟩
          intro i hi
          rw [List.mem_cons] at hi
          rcases hi with rfl | hi
          · exact hv.accepted i (by simp)
          · exact visited_short hv i hi
      · rintro ⟨h1, h2⟩
        refine .step h1 hc (ih.mpr ⟨?_, fun i hi => h2 i (List.mem_cons_of_mem _ hi)⟩)
        intro i hi
        simp only [List.getLast?_append, List.getLast?_singleton, Option.some_or, Option.some.injEq] at hi
        exact h2 i (by simp [hi])
  constructor
  · rintro ⟨s, r, n₁, rfl, hch, h⟩
    have h' := (key h.hasNode).mp h
    refine ⟨by simp, .step hch h.hasNode, ?_⟩
    intro i hi
    rw [List.mem_cons] at hi
    rcases hi with rfl | hi
    · exact h'.1 i rfl
    · exact h'.2 i hi
  · rintro ⟨hp, hn, hcp⟩
    cases hn with
    | refl => exact absurd rfl hp
    | @step _ n₁ _ s r hch hn =>
      refine ⟨s, r, n₁, rfl, hch, (key hn).mpr ⟨?_, fun i hi => hcp i (List.mem_cons_of_mem _ hi)⟩⟩
      intro i hi
      simp only [List.getLast?_singleton, Option.some.injEq] at hi
      exact hcp i (by simp [hi])

/-- **C41**: `ArrayLengthWalkFilter(n)` visits exactly the nodes which are not in an array element with an index of `n` or more:
the first `n` elements of each array. -/
theorem C41_array_length {I : TypeInfos} (hI : I.Numbered) {id : Nat} {o : Val} (hr : Readable I (.root id o)) (n : Int) :
    ∃ es L, walk I (arrayLengthFilter n) (some (.compound id)) o () = (.ok (), (), es) ∧ Reports o es L ∧
      ∀ p node, (p, node) ∈ L ↔ p ≠ [] ∧ HasNode I (.root id o) p node ∧ ∀ i, Step.elem i ∈ p → (i : Int) < n := by
  obtain ⟨_, es, L, hw, _, h1, h2⟩ := walk_path hI hr (arrayLengthFilter_path hI _ n) (st := ()) trivial
  exact ⟨es, L, hw, h1, fun p node => (h2 p node).trans selected_short⟩

example : ∃ es L, walk WalkDemo.infos (arrayLengthFilter 1) (some (.compound 0)) WalkDemo.root () = (.ok (), (), es) ∧
    Reports WalkDemo.root es L ∧ ∀ p node, (p, node) ∈ L ↔
      p ≠ [] ∧ HasNode WalkDemo.infos (.root 0 WalkDemo.root) p node ∧ ∀ i, Step.elem i ∈ p → (i : Int) < 1 :=
  C41_array_length WalkDemo.numbered WalkDemo.readable 1

/-- **C41**: `AndWalkFilter` visits exactly the nodes which each of its filters visits, if these are filters which decide by the
position of a node (as all filters of the library do, in any combination). -/
theorem C41_and {σ : Type} {I : TypeInfos} (hI : I.Numbered) {id : Nat} {o : Val} (hr : Readable I (.root id o)) {Fs : Filters σ}
    {rep : Bool → Path → σ → Prop} {accs : List (Path → Node → Prop)} (hF : Filters.Path I (.root id o) Fs rep accs) {st : σ}
    (hs : rep false [] st) :
    ∃ st' es L, walk I (andFilter Fs) (some (.compound id)) o st = (.ok (), st', es) ∧ Reports o es L ∧
      ∀ p n, (p, n) ∈ L ↔ p ≠ [] ∧ HasNode I (.root id o) p n ∧ ∀ acc ∈ accs, Selected I (.root id o) acc p n := by
  obtain ⟨st', es, L, hw, _, h1, h2⟩ := walk_path hI hr (andFilter_path hF) hs
  refine ⟨st', es, L, hw, h1, fun p n => (h2 p n).trans ⟨?_, ?_⟩⟩
  · rintro ⟨s, r, n₁, rfl, hc, hv⟩
    exact ⟨by simp, .step hc hv.hasNode, fun acc hacc => ⟨s, r, n₁, rfl, hc, (visited_allOf hI hv.hasNode).mp hv acc hacc⟩⟩
  · rintro ⟨hp, hn, ha⟩
    cases hn with
    | refl => exact absurd rfl hp
    | @step _ n₁ _ s r hc hn =>
      refine ⟨s, r, n₁, rfl, hc, (visited_allOf hI hn).mpr ?_⟩
      intro acc hacc
      obtain ⟨s', r', n₂, he, hc', hv⟩ := ha acc hacc
      simp only [List.cons.injEq] at he
      obtain ⟨rfl, rfl⟩ := he
      rw [child_unique hI hc hc']
      exact hv

/-- **C41**: the combination of a depth filter, an array length filter and another filter which decides by the position. -/
theorem C41_and_depth_length {σ : Type} {I : TypeInfos} (hI : I.Numbered) {id : Nat} {o : Val} (hr : Readable I (.root id o))
    (d n : Int) {F : WalkFilter σ} {rep : Bool → Path → σ → Prop} {acc : Path → Node → Prop}
    (hF : PathFilter I (.root id o) F rep acc) {st : σ} (hs : rep false [] st) :
    ∃ st' es L, walk I (andFilter (.cons (depthFilter d) (.cons F (.cons (arrayLengthFilter n) .nil)))) (some (.compound id)) o
        (1, st, (), ()) = (.ok (), st', es) ∧ Reports o es L ∧
      ∀ p node, (p, node) ∈ L ↔ Selected I (.root id o) acc p node ∧ (p.length : Int) ≤ d ∧ ∀ i, Step.elem i ∈ p → (i : Int) < n := by
  obtain ⟨st', es, L, hw, h1, h2⟩ := C41_and hI hr
    (.cons (depthFilter_path I _ d) (.cons hF (.cons (arrayLengthFilter_path hI _ n) .nil))) (st := (1, st, (), ()))
    ⟨by simp, hs, trivial, trivial⟩
  refine ⟨st', es, L, hw, h1, fun p node => ?_⟩
  have hd : Selected I (.root id o) (fun p _ => (p.length : Int) ≤ d) p node ↔ _ := selected_of_prefix (c := fun p => (p.length : Int) ≤ d) (by
    intro q s h _
    simp only [List.length_append, List.length_cons, List.length_nil] at h
    omega)
  rw [h2]
  simp only [List.mem_cons, List.not_mem_nil, or_false, forall_eq_or_imp, forall_eq, hd, selected_short]
  constructor
  · rintro ⟨hp, hn, ⟨_, _, h3⟩, h4, _, _, h5⟩
    exact ⟨h4, h3, h5⟩
  · rintro ⟨h4, h3, h5⟩
    have hn : p ≠ [] ∧ HasNode I (.root id o) p node := by
      obtain ⟨s, r, n₁, rfl, hc, hv⟩ := h4
      exact ⟨by simp, .step hc hv.hasNode⟩
    exact ⟨hn.1, hn.2, ⟨hn.1, hn.2, h3⟩, h4, hn.1, hn.2, h5⟩

example (regex : PyStr → Bool) : ∃ st' es L, walk WalkDemo.infos
      (andFilter (.cons (depthFilter 3) (.cons (regexFilter WalkDemo.infos regex) (.cons (arrayLengthFilter 1) .nil))))
      (some (.compound 0)) WalkDemo.root (1, [], (), ()) = (.ok (), st', es) ∧ Reports WalkDemo.root es L ∧
    ∀ p node, (p, node) ∈ L ↔ Selected WalkDemo.infos (.root 0 WalkDemo.root) (RegexAccepts WalkDemo.infos regex) p node ∧
      (p.length : Int) ≤ 3 ∧ ∀ i, Step.elem i ∈ p → (i : Int) < 1 :=
  C41_and_depth_length WalkDemo.numbered WalkDemo.readable 3 1 (regexFilter_path WalkDemo.numbered WalkDemo.readable regex) rfl

/-! ### Regular expressions -/

/-- **C41**: which nodes `RegexWalkFilter` visits.  The regular expression is an arbitrary condition on the paths. -/
theorem C41_regex_partial {I : TypeInfos} (hI : I.Numbered) {id : Nat} {o : Val} (hr : Readable I (.root id o))
    (regex : PyStr → Bool) :
    ∃ es L, walk I (regexFilter I regex) (some (.compound id)) o [] = (.ok (), [], es) ∧ Reports o es L ∧
      Selects I (.root id o) (RegexAccepts I regex) L := by
  obtain ⟨st, es, L, hw, hst, h1, h2⟩ := walk_path hI hr (regexFilter_path hI hr regex) (st := []) rfl
  have : st = [] := hst
  subst this
  exact ⟨es, L, hw, h1, h2⟩

theorem visited_last {I : TypeInfos} {acc : Path → Node → Prop} {q r : Path} {n₁ n : Node} (h : Visited I acc q n₁ r n) :
    acc (q ++ r) n := by
  induction h with
  | refl h => simpa using h
  | step _ _ _ ih => simpa using ih

theorem regexAccepts_of_descendant {I : TypeInfos} {regex : PyStr → Bool} {p q r : Path} {n₁ n : Node} (hq : q ++ r = p)
    (hn : HasNode I n₁ r n) (hc : ∀ id o, ¬ n.IsCompound id o) (hm : regex (Path.text p) = true) :
    RegexAccepts I regex q n₁ := by
  refine ⟨r, n, hn, by rw [hq]; exact hm, ?_⟩
  rintro ⟨_, _, _, id, o, _, _, h⟩
  exact hc id o h

/-- **C41**: `RegexWalkFilter` visits a node which is not a compound and has no elements (a simple value, `None` or an empty array) if
and only if its path matches the regular expression. -/
theorem C41_regex_values {I : TypeInfos} (hI : I.Numbered) {id : Nat} {o : Val} (hr : Readable I (.root id o))
    (regex : PyStr → Bool) :
    ∃ es L, walk I (regexFilter I regex) (some (.compound id)) o [] = (.ok (), [], es) ∧ Reports o es L ∧
      ∀ p n, (∀ s n', ¬ Child I n s n') → (∀ id o, ¬ n.IsCompound id o) →
        ((p, n) ∈ L ↔ p ≠ [] ∧ HasNode I (.root id o) p n ∧ regex (Path.text p) = true) := by
  obtain ⟨es, L, hw, h1, h2⟩ := C41_regex_partial hI hr regex
  refine ⟨es, L, hw, h1, ?_⟩
  intro p n hl hnc
  rw [h2 p n]
  constructor
  · rintro ⟨s, r, n₁, rfl, hc, hv⟩
    refine ⟨by simp, .step hc hv.hasNode, ?_⟩
    obtain ⟨r', n', hn', hm, _⟩ := visited_last hv
    cases hn' with
    | refl => simpa using hm
    | step hc' _ => exact absurd hc' (hl _ _)
  · rintro ⟨hp, hn, hm⟩
    cases hn with
    | refl => exact absurd rfl hp
    | @step _ n₁ _ s r hc hn =>
      refine ⟨s, r, n₁, rfl, hc, ?_⟩
      have h0 : [s] ++ r = s :: r := rfl
      generalize [s] = q at h0
      generalize hP : s :: r = P at h0 hm
      clear hc hp hP
      induction hn generalizing q with
      | refl => exact .refl (regexAccepts_of_descendant h0 .refl hnc hm)
      | @step n n₁ n' t r hch hn ih =>
        exact .step (regexAccepts_of_descendant h0 (.step hch hn) hnc hm) hch
          (ih hl hnc _ (by simpa using h0))

example : ∃ es L, walk WalkDemo.infos (regexFilter WalkDemo.infos (· == py! "items[0].key")) (some (.compound 0)) WalkDemo.root [] =
    (.ok (), [], es) ∧ Reports WalkDemo.root es L ∧
    ∀ p n, (∀ s n', ¬ Child WalkDemo.infos n s n') → (∀ id o, ¬ n.IsCompound id o) →
      ((p, n) ∈ L ↔ p ≠ [] ∧ HasNode WalkDemo.infos (.root 0 WalkDemo.root) p n ∧ (Path.text p == py! "items[0].key") = true) :=
  C41_regex_values WalkDemo.numbered WalkDemo.readable _

/-- **C41** (what is missing): an array of compounds is not visited if only the path of an element itself matches: with the
regular expression `items\[0\]$` nothing is visited, although the element `items[0]` exists. -/
theorem C41_regex_element_ignored :
    (walk WalkDemo.infos (regexFilter WalkDemo.infos (· == py! "items[0]")) (some (.compound 0)) WalkDemo.root []).2.2 =
      [.beginRoot WalkDemo.root, .endRoot WalkDemo.root] ∧
    ∃ n, HasNode WalkDemo.infos (.root 0 WalkDemo.root) [.field 2 (py! "items"), .elem 0] n ∧
      Path.text [.field 2 (py! "items"), .elem 0] = py! "items[0]" := by
  refine ⟨rfl, .item { schemaName := py! "items", type := .compound 1, prop := 2, isArray := true } (WalkDemo.item 2 (py! "b")), ?_, rfl⟩
  exact .step (.field (m := { schemaName := py! "items", type := .compound 1, prop := 2, isArray := true })
      (x := .arr [WalkDemo.item 2 (py! "b"), .obj [] 0 0 [.int 3, .none]]) .root
      (.struct rfl (by simp [WalkDemo.infos, WalkDemo.rootFields]) rfl rfl)) (.step (.elem rfl) .refl)

end Zserio
