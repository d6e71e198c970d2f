import Verif.Lemmas.WalkerInstances
/-
The filter with a regular expression.
-/
set_option linter.unusedSimpArgs false
namespace Zserio
open RegexFilter

/-- the components of a path: array indices belong to the component of the array -/
def Path.extend (l : List PyStr) : Step → List PyStr
  | .field _ name => l ++ [name]
  | .elem i => l.dropLast ++ [indexed (l.getLast?.getD []) i]

def Path.comps (p : Path) : List PyStr := p.foldl Path.extend []

theorem Path.comps_append (p : Path) (s : Step) : Path.comps (p ++ [s]) = Path.extend (Path.comps p) s := by
  simp [Path.comps, List.foldl_append]

theorem joinPath_append {l : List PyStr} (h : l ≠ []) (s : PyStr) : joinPath (l ++ [s]) = joinPath l ++ py! "." ++ s := by
  induction l with
  | nil => simp at h
  | cons a l ih =>
    cases l with
    | nil => simp [joinPath]
    | cons b l =>
      have := ih (by simp)
      simp only [List.cons_append] at this ⊢
      simp only [joinPath, this, List.append_assoc]

theorem joinPath_indexed (l : List PyStr) (s : PyStr) (i : Nat) :
    joinPath (l ++ [indexed s i]) = joinPath (l ++ [s]) ++ (py! "[" ++ Json.decimalNat i ++ py! "]") := by
  cases l with
  | nil => simp [joinPath, indexed]
  | cons a l =>
    rw [joinPath_append (by simp), joinPath_append (by simp)]
    simp [indexed, List.append_assoc]

theorem Path.rest_append (p : Path) (s : Step) : Path.text.rest (p ++ [s]) = Path.text.rest p ++ Path.text.rest [s] := by
  induction p with
  | nil => cases s <;> simp [Path.text.rest]
  | cons a p ih =>
    cases a <;> simp only [List.cons_append, Path.text.rest, ih, List.append_assoc]

theorem Path.text_append {p : Path} (h : p ≠ []) (s : Step) : Path.text (p ++ [s]) = Path.text p ++ Path.text.rest [s] := by
  cases p with
  | nil => simp at h
  | cons a p => cases a <;> simp only [List.cons_append, Path.text, Path.rest_append, List.append_assoc]

theorem Path.comps_ne_nil {p : Path} (h : p ≠ []) : Path.comps p ≠ [] := by
  rcases List.eq_nil_or_concat p with rfl | ⟨q, s, rfl⟩
  · exact absurd rfl h
  · rw [List.concat_eq_append, Path.comps_append]
    cases s <;> simp [Path.extend]

theorem joinPath_comps (p : Path) (h : ∀ i q, p ≠ .elem i :: q) : joinPath (Path.comps p) = Path.text p := by
  induction hn : p.length generalizing p with
  | zero =>
    have := List.length_eq_zero_iff.mp hn
    subst this
    rfl
  | succ k ih =>
    rcases List.eq_nil_or_concat p with rfl | ⟨q, s, rfl⟩
    · simp at hn
    · have hq : ∀ i q', q ≠ .elem i :: q' := by
        intro i q' he
        exact h i (q' ++ [s]) (by simp [he])
      have ihq := ih q hq (by simpa using hn)
      rw [List.concat_eq_append, Path.comps_append]
      by_cases hq0 : q = []
      · subst hq0
        cases s with
        | field k name => simp [Path.comps, Path.extend, joinPath, Path.text, Path.text.rest]
        | elem i => exact absurd rfl (h i [])
      · have hc := Path.comps_ne_nil hq0
        rw [Path.text_append hq0, ← ihq]
        cases s with
        | field k name =>
          rw [Path.extend, joinPath_append hc]
          simp [Path.text.rest]
        | elem i =>
          rw [Path.extend, joinPath_indexed]
          have : (Path.comps q).dropLast ++ [(Path.comps q).getLast?.getD []] = Path.comps q := by
            rw [List.getLast?_eq_some_getLast hc]
            simpa using List.dropLast_concat_getLast hc
          rw [this]
          simp [Path.text.rest]

theorem setLast_append (l : List PyStr) (a s : PyStr) : setLast s (l ++ [a]) = .ok (l ++ [s]) := by
  induction l with
  | nil => rfl
  | cons b l ih =>
    cases l with
    | nil => rfl
    | cons c l =>
      simp only [List.cons_append] at ih ⊢
      rw [setLast, ih]
      · rfl
      · simp

theorem pop_append (l : List PyStr) (a : PyStr) : pop (l ++ [a]) = .ok l := by
  induction l with
  | nil => rfl
  | cons b l ih =>
    cases l with
    | nil => rfl
    | cons c l =>
      simp only [List.cons_append] at ih ⊢
      rw [pop, ih]
      · rfl
      · simp

/-- the path of the filter while the walker is at the node with the path `p` -/
def PathRep (a : Bool) (p : Path) (st : List PyStr) : Prop :=
  match a with
  | false => st = Path.comps p
  | true => ∃ x, st = (Path.comps p).dropLast ++ [x]

/-- the parent of an array element is the array -/
theorem elem_parent {I : TypeInfos} {id : Nat} {o : Val} {p : Path} {i : Nat} {m : MemberInfo} {x : Val}
    (h : HasNode I (.root id o) (p ++ [.elem i]) (.item m x)) : ∃ q, p = q ++ [.field m.prop m.schemaName] := by
  obtain ⟨n, h1, h2⟩ := h.unsnoc
  cases h2 with
  | elem _ =>
    rcases List.eq_nil_or_concat p with rfl | ⟨q, s, rfl⟩
    · cases h1
    · rw [List.concat_eq_append] at h1
      obtain ⟨n', _, h4⟩ := h1.unsnoc
      refine ⟨q, ?_⟩
      rw [List.concat_eq_append]
      generalize hg : Node.array m _ = g at h4
      cases h4 with
      | elem _ => simp at hg
      | @field _ _ _ m' x' _ _ =>
        have : m = m' := by
          unfold MemberInfo.node at hg
          split at hg
          · split at hg
            · simp only [Node.array.injEq] at hg
              exact hg.1
            · simp at hg
          · simp at hg
        rw [this]

/-- nodes of an object do not have paths which begin with an element -/
theorem no_elem {I : TypeInfos} {id : Nat} {o : Val} {p : Path} {n : Node} (h : HasNode I (.root id o) p n) (i : Nat) (q : Path) :
    p ≠ .elem i :: q := by
  rintro rfl
  cases h with
  | step hc _ => cases hc

theorem appendPath_rep {I : TypeInfos} {id : Nat} {o : Val} {p : Path} {m : MemberInfo} {idx : Option Nat} {x : Val}
    (hn : HasNode I (.root id o) (p ++ [stepOf m idx]) (.item m x)) {st : List PyStr} (h : PathRep idx.isSome p st) :
    appendPath st m idx = .ok (Path.comps (p ++ [stepOf m idx])) := by
  cases idx with
  | none =>
    simp only [PathRep, Option.isSome] at h
    rw [h, appendPath, Path.comps_append]
    rfl
  | some i =>
    simp only [PathRep, Option.isSome] at h
    obtain ⟨y, rfl⟩ := h
    obtain ⟨q, rfl⟩ := elem_parent hn
    rw [appendPath, setLast_append]
    simp only [Path.comps_append, stepOf, Path.extend]
    simp

theorem popPath_rep {I : TypeInfos} {id : Nat} {o : Val} {p : Path} {m : MemberInfo} {idx : Option Nat} {x : Val}
    (hn : HasNode I (.root id o) (p ++ [stepOf m idx]) (.item m x)) :
    ∃ st, popPath (Path.comps (p ++ [stepOf m idx])) m idx = .ok st ∧ PathRep idx.isSome p st := by
  cases idx with
  | none =>
    refine ⟨Path.comps p, ?_, rfl⟩
    rw [Path.comps_append]
    exact pop_append _ _
  | some i =>
    obtain ⟨q, rfl⟩ := elem_parent hn
    refine ⟨Path.comps q ++ [m.schemaName], ?_, m.schemaName, ?_⟩
    · simp only [Path.comps_append, stepOf, Path.extend]
      simp [popPath, setLast_append]
    · rw [Path.comps_append]
      simp [Path.extend]

theorem pop_rep {p : Path} {m : MemberInfo} {st : List PyStr} (h : PathRep true (p ++ [stepOf m none]) st) :
    pop st = .ok (Path.comps p) := by
  obtain ⟨x, rfl⟩ := h
  rw [Path.comps_append]
  simp [Path.extend, stepOf, pop_append]

theorem comps_rep_true (p : Path) (m : MemberInfo) : PathRep true (p ++ [stepOf m none]) (Path.comps p ++ [m.schemaName]) := by
  refine ⟨m.schemaName, ?_⟩
  rw [Path.comps_append]
  simp [Path.extend, stepOf]

namespace Walker
open Walker

section
variable (I : TypeInfos) (regex : PyStr → Bool)

/-- some descendant of the node `n`, which has the path `p`, or the node itself matches -/
def SomeMatch (p : Path) (n : Node) : Prop := ∃ r n', HasNode I n r n' ∧ regex (Path.text (p ++ r)) = true

def SubChild (p : Path) (a : Bool) (s : Step) (n : Node) (w : Walk Subtree Bool) : Prop :=
  ∀ st, PathRep a p st → ∃ b st' es, w ⟨st, false⟩ = (.ok (!b), ⟨st', b⟩, es) ∧ PathRep a p st' ∧
    (b = true ↔ SomeMatch I regex (p ++ [s]) n)

def SubForest (p : Path) (a : Bool) (cs : Step → Node → Prop) (w : Walk Subtree Unit) : Prop :=
  ∀ st, PathRep a p st → ∃ b st' es, w ⟨st, false⟩ = (.ok (), ⟨st', b⟩, es) ∧ PathRep a p st' ∧
    (b = true ↔ ∃ s n, cs s n ∧ SomeMatch I regex (p ++ [s]) n)

end

variable {I : TypeInfos} {regex : PyStr → Bool} {rid : Nat} {ro : Val}

theorem subForest_loop {p : Path} {a : Bool} {l : List (Step × Node × Walk Subtree Bool)}
    (h : ∀ c ∈ l, SubChild I regex p a c.1 c.2.1 c.2.2) :
    SubForest I regex p a (fun s n => ∃ w, (s, n, w) ∈ l) (loop l) := by
  induction l with
  | nil => exact fun st hr => ⟨false, st, [], rfl, hr, by simp⟩
  | cons c l ih =>
    intro st hr
    obtain ⟨b, st₁, es₁, hw, hr₁, hb⟩ := h c (by simp) st hr
    cases b with
    | true =>
      refine ⟨true, st₁, es₁ ++ [], ?_, hr₁, by simpa using ⟨c.1, c.2.1, ⟨c.2.2, by simp⟩, hb.mp rfl⟩⟩
      rw [loop, Walk.bind_ok hw]
      rfl
    | false =>
      obtain ⟨b, st₂, es₂, hw₂, hr₂, hb₂⟩ := ih (fun c hc => h c (List.mem_cons_of_mem _ hc)) st₁ hr₁
      refine ⟨b, st₂, es₁ ++ es₂, ?_, hr₂, hb₂.trans ⟨?_, ?_⟩⟩
      · rw [loop, Walk.bind_ok hw]
        simp [hw₂]
      · rintro ⟨s, n, ⟨w, hm⟩, hs⟩
        exact ⟨s, n, ⟨w, List.mem_cons_of_mem _ hm⟩, hs⟩
      · rintro ⟨s, n, ⟨w, hm⟩, hs⟩
        rw [List.mem_cons] at hm
        rcases hm with he | hm
        · rw [← he] at hb
          exact absurd (hb.mpr hs) (by simp)
        · exact ⟨s, n, ⟨w, hm⟩, hs⟩

theorem someMatch_iff {p : Path} {n : Node} : SomeMatch I regex p n ↔
    regex (Path.text p) = true ∨ ∃ s n', Child I n s n' ∧ SomeMatch I regex (p ++ [s]) n' := by
  constructor
  · rintro ⟨r, n', hn, hm⟩
    cases hn with
    | refl => exact .inl (by simpa using hm)
    | @step _ n₁ _ s r hc hn => exact .inr ⟨s, n₁, hc, r, n', hn, by simpa using hm⟩
  · rintro (h | ⟨s, n₁, hc, r, n', hn, hm⟩)
    · exact ⟨[], n, .refl, by simpa using h⟩
    · exact ⟨s :: r, n', .step hc hn, by simpa using hm⟩

theorem sub_simple {p : Path} {v : Val} {m : MemberInfo} {idx : Option Nat}
    (hn : HasNode I (.root rid ro) (p ++ [stepOf m idx]) (.item m v)) (hv : ∀ id, ¬ (Node.item m v).IsCompound id v) :
    SubChild I regex p idx.isSome (stepOf m idx) (.item m v) (simple (subtree regex) v m idx) := by
  intro st hr
  have h1 := appendPath_rep hn hr
  obtain ⟨st₂, h2, hr₂⟩ := popPath_rep hn
  have hj := joinPath_comps _ (no_elem hn)
  have hb : Walk.filter ((subtree regex).beforeValue v m idx) ⟨st, false⟩ =
      (.ok (!regex (Path.text (p ++ [stepOf m idx]))), ⟨Path.comps (p ++ [stepOf m idx]), regex (Path.text (p ++ [stepOf m idx]))⟩, []) := by
    simp [Walk.filter, subtree, Subtree.before, h1, hj]
  have ha : ∀ b, Walk.filter ((subtree regex).afterValue v m idx) ⟨Path.comps (p ++ [stepOf m idx]), b⟩ =
      (.ok (!b), ⟨st₂, b⟩, []) := by
    intro b
    simp [Walk.filter, subtree, Subtree.after, h2]
  have hm : SomeMatch I regex (p ++ [stepOf m idx]) (.item m v) ↔ regex (Path.text (p ++ [stepOf m idx])) = true := by
    rw [someMatch_iff]
    simp only [or_iff_left_iff_imp]
    rintro ⟨s, n', hc, _⟩
    exact absurd hc (not_compound_no_child hv s n')
  unfold simple
  cases hx : regex (Path.text (p ++ [stepOf m idx])) with
  | true =>
    refine ⟨true, st₂, [], ?_, hr₂, by simp [hm, hx]⟩
    rw [Walk.bind_ok hb, hx]
    simp [ha]
  | false =>
    refine ⟨false, st₂, [.visitValue v m idx], ?_, hr₂, by simp [hm, hx]⟩
    rw [Walk.bind_ok hb, hx]
    simp only [Bool.not_false, if_true]
    rw [Walk.bind_ok (show Walk.emit (.visitValue v m idx) _ = (.ok (), _, [.visitValue v m idx]) from rfl), ha]
    simp

theorem sub_compound {p : Path} {v : Val} {m : MemberInfo} {idx : Option Nat} {w : Walk Subtree Unit} {cs : Step → Node → Prop}
    (hcs : ∀ t n', cs t n' ↔ Child I (.item m v) t n')
    (hn : HasNode I (.root rid ro) (p ++ [stepOf m idx]) (.item m v)) (h : SubForest I regex (p ++ [stepOf m idx]) false cs w) :
    SubChild I regex p idx.isSome (stepOf m idx) (.item m v) (compound (subtree regex) v m idx w) := by
  intro st hr
  have h1 := appendPath_rep hn hr
  obtain ⟨st₂, h2, hr₂⟩ := popPath_rep hn
  have hj := joinPath_comps _ (no_elem hn)
  have hb : Walk.filter ((subtree regex).beforeCompound v m idx) ⟨st, false⟩ =
      (.ok (!regex (Path.text (p ++ [stepOf m idx]))), ⟨Path.comps (p ++ [stepOf m idx]), regex (Path.text (p ++ [stepOf m idx]))⟩, []) := by
    simp [Walk.filter, subtree, Subtree.before, h1, hj]
  have ha : ∀ b, Walk.filter ((subtree regex).afterCompound v m idx) ⟨Path.comps (p ++ [stepOf m idx]), b⟩ =
      (.ok (!b), ⟨st₂, b⟩, []) := by
    intro b
    simp [Walk.filter, subtree, Subtree.after, h2]
  unfold compound
  cases hx : regex (Path.text (p ++ [stepOf m idx])) with
  | true =>
    refine ⟨true, st₂, [], ?_, hr₂, by rw [someMatch_iff]; simp [hx]⟩
    rw [Walk.bind_ok hb, hx]
    simp [ha]
  | false =>
    obtain ⟨b, st₁, es, hw, hr₁, hm⟩ := h _ rfl
    simp only [PathRep] at hr₁
    subst hr₁
    refine ⟨b, st₂, .beginCompound v m idx :: es ++ [.endCompound v m idx], ?_, hr₂, ?_⟩
    · rw [Walk.bind_ok hb, hx]
      simp only [Bool.not_false, if_true]
      rw [Walk.bind_ok (show Walk.emit (.beginCompound v m idx) _ = (.ok (), _, [.beginCompound v m idx]) from rfl), Walk.bind_ok hw,
        Walk.bind_ok (show Walk.emit (.endCompound v m idx) _ = (.ok (), _, [.endCompound v m idx]) from rfl), ha]
      simp
    · rw [hm, someMatch_iff, hx]
      simp [hcs]

theorem sub_array {p : Path} {xs : List Val} {m : MemberInfo} {w : Walk Subtree Unit} {cs : Step → Node → Prop}
    (hcs : ∀ t n', cs t n' ↔ Child I (.array m xs) t n') (hn : HasNode I (.root rid ro) (p ++ [stepOf m none]) (.array m xs))
    (h : SubForest I regex (p ++ [stepOf m none]) true cs w) :
    SubChild I regex p false (stepOf m none) (.array m xs) (array (subtree regex) xs m w) := by
  intro st hr
  simp only [PathRep] at hr
  subst hr
  have hj := joinPath_comps _ (no_elem hn)
  have hcomp : Path.comps p ++ [m.schemaName] = Path.comps (p ++ [stepOf m none]) := by
    rw [Path.comps_append]
    rfl
  have hb : Walk.filter ((subtree regex).beforeArray xs m) ⟨Path.comps p, false⟩ =
      (.ok (!regex (Path.text (p ++ [stepOf m none]))), ⟨Path.comps (p ++ [stepOf m none]), regex (Path.text (p ++ [stepOf m none]))⟩, []) := by
    simp [Walk.filter, subtree, Subtree.before, hcomp, hj]
  have ha : ∀ b st, PathRep true (p ++ [stepOf m none]) st → Walk.filter ((subtree regex).afterArray xs m) ⟨st, b⟩ =
      (.ok (!b), ⟨Path.comps p, b⟩, []) := by
    intro b st hst
    simp [Walk.filter, subtree, Subtree.after, pop_rep hst]
  have hr0 : PathRep true (p ++ [stepOf m none]) (Path.comps (p ++ [stepOf m none])) := hcomp ▸ comps_rep_true p m
  unfold array
  cases hx : regex (Path.text (p ++ [stepOf m none])) with
  | true =>
    refine ⟨true, Path.comps p, [], ?_, rfl, by rw [someMatch_iff]; simp [hx]⟩
    rw [Walk.bind_ok hb, hx]
    simp [ha _ _ hr0]
  | false =>
    obtain ⟨b, st₁, es, hw, hr₁, hm⟩ := h _ hr0
    refine ⟨b, Path.comps p, .beginArray xs m :: es ++ [.endArray xs m], ?_, rfl, ?_⟩
    · rw [Walk.bind_ok hb, hx]
      simp only [Bool.not_false, if_true]
      rw [Walk.bind_ok (show Walk.emit (.beginArray xs m) _ = (.ok (), _, [.beginArray xs m]) from rfl), Walk.bind_ok hw,
        Walk.bind_ok (show Walk.emit (.endArray xs m) _ = (.ok (), _, [.endArray xs m]) from rfl), ha _ _ hr₁]
      simp
    · rw [hm, someMatch_iff, hx]
      simp [hcs]


theorem sub_object (hI : I.Numbered) {ps : List Int} {k : Nat} {tag : Int} {fs : List Val}
    (ih : ∀ x ∈ fs, ∀ m p, HasNode I (.root rid ro) (p ++ [stepOf m none]) (m.node x) →
      SubChild I regex p false (stepOf m none) (m.node x) (field I (subtree regex) x m)) {n : Node}
    {id : Nat} (hr : Readable I (.root rid ro)) {p : Path} (hn : HasNode I (.root rid ro) p n)
    (hc : n.IsCompound id (.obj ps k tag fs)) :
    ∃ cs : Step → Node → Prop, (∀ t n', cs t n' ↔ Child I n t n') ∧
      SubForest I regex p false cs (fields (I id) ps tag (walkAttrs I (subtree regex) fs)) := by
  obtain ⟨l, ⟨hl, hso⟩, he⟩ := fields_eq hI (F := subtree regex) (hr _ _ id _ hn hc)
  have hmem : ∀ t n', (∃ w, (t, n', w) ∈ fieldChildren I (subtree regex) l) ↔ Child I n t n' := by
    intro t n'
    constructor
    · rintro ⟨w, hm⟩
      obtain ⟨m, x, hm', he'⟩ := mem_fieldChildren.mp hm
      simp only [Prod.mk.injEq] at he'
      rw [he'.1, he'.2.1]
      exact .field hc ((hl m x).mp hm')
    · intro hch
      cases hch with
      | elem _ => cases hc
      | @field _ id' o' m x hc' hf =>
        obtain ⟨rfl, rfl⟩ := isCompound_unique hc hc'
        exact ⟨_, mem_fieldChildren.mpr ⟨m, x, (hl m x).mpr hf, rfl⟩⟩
  refine ⟨fun s n => ∃ w, (s, n, w) ∈ fieldChildren I (subtree regex) l, hmem, ?_⟩
  rw [he]
  refine subForest_loop ?_
  intro c hm
  have hnode : HasNode I (.root rid ro) (p ++ [c.1]) c.2.1 := hn.child ((hmem _ _).mp ⟨c.2.2, hm⟩)
  obtain ⟨m, x, hm', rfl⟩ := mem_fieldChildren.mp hm
  exact ih x (fieldOf_mem ((hl m x).mp hm')).1 m p hnode

theorem sub_elements {xs : List Val} {m : MemberInfo}
    (ih : ∀ x ∈ xs, ∀ p i, HasNode I (.root rid ro) (p ++ [.elem i]) (.item m x) →
      SubChild I regex p true (.elem i) (.item m x) (element I (subtree regex) x m i)) {p : Path}
    (hn : HasNode I (.root rid ro) p (.array m xs)) :
    ∃ cs : Step → Node → Prop, (∀ t n', cs t n' ↔ Child I (.array m xs) t n') ∧
      SubForest I regex p true cs (elements I (subtree regex) xs m 0) := by
  have hmem : ∀ t n', (∃ w, (t, n', w) ∈ arrayChildren I (subtree regex) m xs 0) ↔ Child I (.array m xs) t n' := by
    intro t n'
    constructor
    · rintro ⟨w, hm⟩
      obtain ⟨i, x, hx, he⟩ := mem_arrayChildren.mp hm
      simp only [Prod.mk.injEq] at he
      rw [he.1, he.2.1]
      exact .elem (by simpa using hx)
    · intro hc
      cases hc with
      | elem hx => exact ⟨_, mem_arrayChildren.mpr ⟨_, _, hx, by rw [Nat.zero_add]⟩⟩
      | field hc _ => cases hc
  refine ⟨fun s n => ∃ w, (s, n, w) ∈ arrayChildren I (subtree regex) m xs 0, hmem, ?_⟩
  rw [elements_eq]
  refine subForest_loop ?_
  intro c hm
  have hnode : HasNode I (.root rid ro) (p ++ [c.1]) c.2.1 := hn.child ((hmem _ _).mp ⟨c.2.2, hm⟩)
  obtain ⟨i, x, hx, rfl⟩ := mem_arrayChildren.mp hm
  exact ih x (List.mem_of_getElem? hx) p _ hnode

theorem sub_notObject (hr : Readable I (.root rid ro)) {p : Path} {v : Val}
    {m : MemberInfo} {idx : Option Nat} (hn : HasNode I (.root rid ro) (p ++ [stepOf m idx]) (.item m v))
    (hv : ∀ ps k tag fs, v ≠ .obj ps k tag fs) :
    SubChild I regex p idx.isSome (stepOf m idx) (.item m v) (notObject (subtree regex) v m idx) := by
  have hs : notObject (subtree regex) v m idx = simple (subtree regex) v m idx := by
    unfold notObject
    split
    · rfl
    · rename_i v _ _ n ht hne
      obtain ⟨_, _, _, _, he⟩ := not_readable (hr.of_hasNode hn) ht (by cases v <;> simp_all [Val.isNone])
      exact absurd he (hv _ _ _ _)
    · rfl
  rw [hs]
  refine sub_simple hn ?_
  intro id hc
  cases hc with
  | item ht hnn =>
    obtain ⟨_, _, _, _, he⟩ := not_readable (hr.of_hasNode hn) ht hnn
    exact hv _ _ _ _ he

theorem sub_item (hI : I.Numbered) (hr : Readable I (.root rid ro)) {ps : List Int} {k : Nat} {tag : Int} {fs : List Val}
    (ih : ∀ x ∈ fs, ∀ m p, HasNode I (.root rid ro) (p ++ [stepOf m none]) (m.node x) →
      SubChild I regex p false (stepOf m none) (m.node x) (field I (subtree regex) x m)) {m : MemberInfo} {p : Path}
    {idx : Option Nat} (hn : HasNode I (.root rid ro) (p ++ [stepOf m idx]) (.item m (.obj ps k tag fs))) :
    SubChild I regex p idx.isSome (stepOf m idx) (.item m (.obj ps k tag fs))
      (object I (subtree regex) (.obj ps k tag fs) ps tag (walkAttrs I (subtree regex) fs) m idx) := by
  unfold object
  split
  · rename_i id ht
    obtain ⟨cs, h1, h2⟩ := sub_object hI ih hr hn (.item ht rfl)
    exact sub_compound h1 hn h2
  · rename_i ht
    refine sub_simple hn ?_
    intro id hc
    cases hc with
    | item ht' _ => exact ht id ht'

/-- the walk of a subtree with `_SubtreeRegexFilter` tells whether a path in it matches -/
theorem sub_value (hI : I.Numbered) (hr : Readable I (.root rid ro)) (v : Val) :
    (∀ m p, HasNode I (.root rid ro) (p ++ [stepOf m none]) (m.node v) →
      SubChild I regex p false (stepOf m none) (m.node v) (field I (subtree regex) v m)) ∧
    (∀ m p i, HasNode I (.root rid ro) (p ++ [.elem i]) (.item m v) →
      SubChild I regex p true (.elem i) (.item m v) (element I (subtree regex) v m i)) := by
  induction v using Val.induction with
  | h v ih =>
    cases v with
    | arr xs =>
      constructor
      · intro m p hn
        rw [field]
        unfold MemberInfo.node at hn ⊢
        simp only at hn ⊢
        split
        · rename_i ha
          rw [if_pos ha] at hn
          obtain ⟨cs, h1, h2⟩ := sub_elements (regex := regex) (fun x hx p i hn => (ih x hx).2 m p i hn) hn
          exact sub_array h1 hn h2
        · rename_i ha
          rw [if_neg ha] at hn
          exact sub_notObject (idx := none) hr hn (by simp)
      · intro m p i hn
        exact sub_notObject (idx := some i) hr hn (by simp)
    | obj ps k tag fs =>
      have ih' : ∀ x ∈ fs, ∀ m p, HasNode I (.root rid ro) (p ++ [stepOf m none]) (m.node x) →
          SubChild I regex p false (stepOf m none) (m.node x) (field I (subtree regex) x m) := fun x hx => (ih x hx).1
      exact ⟨fun m p hn => sub_item (idx := none) hI hr ih' hn, fun m p i hn => sub_item (idx := some i) hI hr ih' hn⟩
    | _ =>
      exact ⟨fun m p hn => sub_notObject (idx := none) hr hn (by simp),
        fun m p i hn => sub_notObject (idx := some i) hr hn (by simp)⟩

/-- `_match_subtree` of a compound: a path in it matches -/
theorem matchSubtree_compound (hI : I.Numbered) (hr : Readable I (.root rid ro)) {p : Path} {m : MemberInfo} {v : Val} {id : Nat}
    (hn : HasNode I (.root rid ro) p (.item m v)) (hc : (Node.item m v).IsCompound id v) :
    ∃ b, matchSubtree I regex (Path.comps p) v m = .ok b ∧
      (b = true ↔ ∃ s n', Child I (.item m v) s n' ∧ SomeMatch I regex (p ++ [s]) n') := by
  cases hc with
  | item ht hnn =>
    obtain ⟨ps, k, tag, fs, rfl⟩ := not_readable (hr.of_hasNode hn) ht hnn
    obtain ⟨cs, h1, h2⟩ := sub_object (regex := regex) hI (fun x _ => (sub_value hI hr x).1) hr hn (.item ht hnn)
    obtain ⟨b, st, es, hw, -, hb⟩ := h2 (Path.comps p) rfl
    refine ⟨b, ?_, by simpa [h1] using hb⟩
    have : walk I (subtree regex) (some (.compound id)) (.obj ps k tag fs) ⟨Path.comps p, false⟩ =
        (.ok (), ⟨st, b⟩, .beginRoot (.obj ps k tag fs) :: es ++ [.endRoot (.obj ps k tag fs)]) := by
      show root I (subtree regex) id _ _ = _
      unfold root
      rw [Walk.bind_ok (show Walk.emit (.beginRoot (.obj ps k tag fs)) _ = (.ok (), _, [.beginRoot (.obj ps k tag fs)]) from rfl),
        Walk.bind_ok (show rootFields I (subtree regex) id (.obj ps k tag fs) ⟨Path.comps p, false⟩ = (.ok (), ⟨st, b⟩, es) from hw)]
      rfl
    unfold matchSubtree
    rw [ht]
    simp only [this]

theorem matchSubtree_value {path : List PyStr} {m : MemberInfo} {v : Val} (hc : ∀ id, ¬ (Node.item m v).IsCompound id v) :
    matchSubtree I regex path v m = .ok (regex (joinPath path)) := by
  unfold matchSubtree
  split
  · rfl
  · rename_i v _ _ id ht hv
    have : v.isNone = false := by cases v <;> simp_all [Val.isNone]
    exact absurd (Node.IsCompound.item ht this) (hc id)
  · rfl

theorem regexAccepts_item {p : Path} {m : MemberInfo} {v : Val} :
    RegexAccepts I regex p (.item m v) ↔ SomeMatch I regex p (.item m v) := by
  simp [RegexAccepts, SomeMatch]

/-- an element which makes its array accepted -/
def ElementMatch (I : TypeInfos) (regex : PyStr → Bool) (p : Path) (m : MemberInfo) (x : Val) (i : Nat) : Prop :=
  (∃ s n', Child I (.item m x) s n' ∧ SomeMatch I regex (p ++ [.elem i] ++ [s]) n') ∨
    (∀ id, ¬ (Node.item m x).IsCompound id x) ∧ regex (Path.text (p ++ [.elem i])) = true

theorem regexAccepts_array {p : Path} {m : MemberInfo} {xs : List Val} :
    RegexAccepts I regex p (.array m xs) ↔
      regex (Path.text p) = true ∨ ∃ i x, xs[i]? = some x ∧ ElementMatch I regex p m x i := by
  constructor
  · rintro ⟨r, n', hn, hm, he⟩
    cases hn with
    | refl => exact .inl (by simpa using hm)
    | @step _ n₁ _ s r hc hn =>
      cases hc with
      | @elem _ _ i x hx =>
        refine .inr ⟨i, x, hx, ?_⟩
        cases hn with
        | refl =>
          refine .inr ⟨fun id hc => he ⟨m, xs, i, id, x, rfl, rfl, hc⟩, hm⟩
        | @step _ n₂ _ s r hc hn => exact .inl ⟨s, n₂, hc, r, n', hn, by simpa using hm⟩
      | field hc _ => cases hc
  · rintro (h | ⟨i, x, hx, ⟨s, n₂, hc, r, n', hn, hm⟩ | ⟨hc, hm⟩⟩)
    · exact ⟨[], _, .refl, by simpa using h, by simp⟩
    · exact ⟨.elem i :: s :: r, n', .step (.elem hx) (.step hc hn), by simpa using hm, by simp⟩
    · refine ⟨[.elem i], _, .step (.elem hx) .refl, hm, ?_⟩
      rintro ⟨m', xs', j, id, o, h1, h2, h3⟩
      cases h3 with
      | item ht hnn => exact hc id (.item ht hnn)

theorem matchSubtree_element (hI : I.Numbered) (hr : Readable I (.root rid ro)) {p : Path} {m : MemberInfo} {x : Val} {i : Nat}
    (hn : HasNode I (.root rid ro) (p ++ [.elem i]) (.item m x)) :
    ∃ b, matchSubtree I regex (Path.comps (p ++ [.elem i])) x m = .ok b ∧ (b = true ↔ ElementMatch I regex p m x i) := by
  by_cases hc : ∃ id, (Node.item m x).IsCompound id x
  · obtain ⟨id, hc⟩ := hc
    obtain ⟨b, hb, hi⟩ := matchSubtree_compound (regex := regex) hI hr hn hc
    refine ⟨b, hb, hi.trans ⟨fun h => .inl h, ?_⟩⟩
    rintro (h | ⟨h, _⟩)
    · exact h
    · exact absurd hc (h id)
  · have hc' : ∀ id, ¬ (Node.item m x).IsCompound id x := fun id h => hc ⟨id, h⟩
    refine ⟨_, matchSubtree_value hc', ?_⟩
    rw [joinPath_comps _ (no_elem hn)]
    constructor
    · exact fun h => .inr ⟨hc', h⟩
    · rintro (⟨s, n', h, _⟩ | ⟨_, h⟩)
      · exact absurd h (not_compound_no_child hc' s n')
      · exact h

theorem matchElements_ok (hI : I.Numbered) (hr : Readable I (.root rid ro)) {p : Path} {m : MemberInfo} {xs : List Val}
    (hn : HasNode I (.root rid ro) (p ++ [stepOf m none]) (.array m xs)) (ys : List Val) (k : Nat) (hk : xs.drop k = ys)
    {st : List PyStr} (hs : PathRep true (p ++ [stepOf m none]) st) :
    ∃ b st', matchElements I regex m k ys st = (.ok b, st') ∧ PathRep true (p ++ [stepOf m none]) st' ∧
      (b = true ↔ ∃ i x, k ≤ i ∧ xs[i]? = some x ∧ ElementMatch I regex (p ++ [stepOf m none]) m x i) := by
  induction ys generalizing k st with
  | nil =>
    obtain ⟨y, rfl⟩ := hs
    refine ⟨false, _, ?_, ⟨m.schemaName, rfl⟩, ?_⟩
    · simp [matchElements, setLast_append]
    · simp only [Bool.false_eq_true, false_iff]
      rintro ⟨i, x, hi, hx, _⟩
      have := List.drop_eq_nil_iff.mp hk
      have := (List.getElem?_eq_some_iff.mp hx).1
      omega
  | cons y ys ih =>
    have hx : xs[k]? = some y := by
      have := congrArg (fun l => l[0]?) hk
      simpa using this
    have hk' : xs.drop (k + 1) = ys := by
      have := congrArg List.tail hk
      simpa using this
    have hn' := hn.child (.elem hx)
    have h1 := appendPath_rep (idx := some k) hn' hs
    rw [appendPath] at h1
    obtain ⟨b, hb, hbi⟩ := matchSubtree_element (regex := regex) hI hr hn'
    rw [matchElements]
    simp only [h1, stepOf] at hb ⊢
    rw [hb]
    have hr' : PathRep true (p ++ [stepOf m none]) (Path.comps (p ++ [stepOf m none] ++ [.elem k])) := by
      rw [Path.comps_append]
      exact ⟨_, rfl⟩
    cases b with
    | true =>
      exact ⟨true, _, rfl, hr', fun _ => ⟨k, y, Nat.le_refl _, hx, hbi.mp rfl⟩, fun _ => rfl⟩
    | false =>
      obtain ⟨b, st', h2, hr₂, hb₂⟩ := ih (k + 1) hk' hr'
      refine ⟨b, st', h2, hr₂, hb₂.trans ⟨?_, ?_⟩⟩
      · rintro ⟨i, x, hi, h⟩
        exact ⟨i, x, by omega, h⟩
      · rintro ⟨i, x, hi, hx', he⟩
        refine ⟨i, x, ?_, hx', he⟩
        rcases Nat.lt_or_ge k i with h | h
        · exact h
        · have : i = k := by omega
          subst this
          rw [hx] at hx'
          simp only [Option.some.injEq] at hx'
          subst hx'
          exact absurd (hbi.mpr he) (by simp)

/-- the filter with a regular expression decides by the position -/
theorem regexFilter_path (hI : I.Numbered) (hr : Readable I (.root rid ro)) (regex : PyStr → Bool) :
    PathFilter I (.root rid ro) (regexFilter I regex) PathRep (RegexAccepts I regex) := by
  constructor
  · intro p m xs hn
    constructor
    · intro st hst
      simp only [PathRep] at hst
      subst hst
      have hcomp : Path.comps p ++ [m.schemaName] = Path.comps (p ++ [stepOf m none]) := by
        rw [Path.comps_append]
        rfl
      have hr0 : PathRep true (p ++ [stepOf m none]) (Path.comps (p ++ [stepOf m none])) := hcomp ▸ comps_rep_true p m
      simp only [regexFilter, hcomp, joinPath_comps _ (no_elem hn)]
      split
      · rename_i hm
        exact ⟨true, _, rfl, by simp [regexAccepts_array, hm], hr0⟩
      · rename_i hm
        obtain ⟨b, st', h1, h2, h3⟩ := matchElements_ok (regex := regex) hI hr hn xs 0 rfl hr0
        exact ⟨b, st', h1, by simpa [regexAccepts_array, hm] using h3, h2⟩
    · intro st hst
      exact ⟨true, Path.comps p, by simp [regexFilter, change, pop_rep hst], rfl, by simp⟩
  · intro p m v idx id hn hc
    constructor
    · intro st hst
      have h1 := appendPath_rep hn hst
      obtain ⟨b, hb, hbi⟩ := matchSubtree_compound (regex := regex) hI hr hn hc
      by_cases hm : regex (Path.text (p ++ [stepOf m idx])) = true
      · refine ⟨true, Path.comps (p ++ [stepOf m idx]), ?_, ?_, rfl⟩
        · simp [regexFilter, change, h1, matchCompound, joinPath_comps _ (no_elem hn), hm]
        · rw [regexAccepts_item, someMatch_iff]
          simp [hm]
      · refine ⟨b, Path.comps (p ++ [stepOf m idx]), ?_, ?_, rfl⟩
        · simp [regexFilter, change, h1, matchCompound, joinPath_comps _ (no_elem hn), hm, hb]
        · rw [hbi, regexAccepts_item, someMatch_iff]
          simp [hm]
    · intro st hst
      simp only [PathRep] at hst
      subst hst
      obtain ⟨st₂, h2, hr₂⟩ := popPath_rep hn
      exact ⟨true, st₂, by simp [regexFilter, change, h2], hr₂, by simp⟩
  · intro p m v idx hn hc
    refine ⟨PathRep false (p ++ [stepOf m idx]), ?_, ?_⟩
    · intro st hst
      have h1 := appendPath_rep hn hst
      refine ⟨regex (Path.text (p ++ [stepOf m idx])), Path.comps (p ++ [stepOf m idx]), ?_, ?_, rfl⟩
      · simp [regexFilter, change, h1, matchSubtree_value hc, joinPath_comps _ (no_elem hn)]
      · rw [regexAccepts_item, someMatch_iff]
        simp only [iff_self_or]
        rintro ⟨s, n', h, _⟩
        exact absurd h (not_compound_no_child hc s n')
    · intro st hst
      simp only [PathRep] at hst
      subst hst
      obtain ⟨st₂, h2, hr₂⟩ := popPath_rep hn
      exact ⟨true, st₂, by simp [regexFilter, change, h2], hr₂, by simp⟩

end Walker
end Zserio
