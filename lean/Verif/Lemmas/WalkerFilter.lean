import Verif.Lemmas.Walker
/-
What the walker reports with any filter, and with a filter which decides by the position.
-/
set_option linter.unusedSimpArgs false
namespace Zserio

/-- the order of the nodes of a report -/
abbrev Ordered (L : List (Path × Node)) : Prop := L.Pairwise (fun a b => Path.Before a.1 b.1)

/-- all nodes of `L` are the child `s` of the node with the path `p` or are below it -/
def Under (p : Path) (s : Step) (L : List (Path × Node)) : Prop := ∀ q n, (q, n) ∈ L → ∃ r, q = p ++ s :: r

theorem Ordered.branch {P : Path} {n : Node} {L : List (Path × Node)} (h : Ordered L)
    (hL : ∀ q n', (q, n') ∈ L → ∃ t r, q = P ++ t :: r) : Ordered ((P, n) :: L) := by
  refine .cons ?_ h
  rintro ⟨q, n'⟩ hq
  obtain ⟨t, r, rfl⟩ := hL q n' hq
  have := Path.Before.append P (Path.Before.nil t r)
  simpa using this

theorem Ordered.concat {p : Path} {s : Step} {L₁ L₂ : List (Path × Node)} (h₁ : Ordered L₁) (h₂ : Ordered L₂)
    (hu : Under p s L₁) (hL : ∀ q n', (q, n') ∈ L₂ → ∃ t r, q = p ++ t :: r ∧ s.index < t.index) : Ordered (L₁ ++ L₂) := by
  refine List.pairwise_append.mpr ⟨h₁, h₂, ?_⟩
  rintro ⟨q, n⟩ hq ⟨q', n'⟩ hq'
  obtain ⟨r, rfl⟩ := hu q n hq
  obtain ⟨t, r', rfl, ht⟩ := hL q' n' hq'
  exact Path.Before.append p (Path.Before.cons ht _ _)

namespace Walker
variable {σ : Type}

/-! ### Any filter -/

/-- with every reported node below `p ++ [s]` its parent is reported -/
def Closed (p : Path) (s : Step) (L : List (Path × Node)) : Prop :=
  ∀ r t n, (p ++ s :: (r ++ [t]), n) ∈ L → ∃ n', (p ++ s :: r, n') ∈ L

/-- what the walk of the child `n` may report -/
def AnyChild (I : TypeInfos) (p : Path) (a : Bool) (s : Step) (n : Node) (w : Walk σ Bool) : Prop :=
  ∀ st c st' es, w st = (.ok c, st', es) →
    ∃ L, Nested p a es L ∧ Ordered L ∧ Closed p s L ∧ ∀ q n', (q, n') ∈ L → ∃ r, q = p ++ s :: r ∧ HasNode I n r n'

/-- what the walk of several children may report -/
def AnyForest (I : TypeInfos) (p : Path) (a : Bool) (cs : Step → Node → Prop) (w : Walk σ Unit) : Prop :=
  ∀ st st' es, w st = (.ok (), st', es) →
    ∃ L, Nested p a es L ∧ Ordered L ∧ (∀ s n, cs s n → Closed p s L) ∧
      ∀ q n', (q, n') ∈ L → ∃ s n r, cs s n ∧ q = p ++ s :: r ∧ HasNode I n r n'

theorem append_cons_inj {p : Path} {s t : Step} {q r : Path} (h : p ++ s :: q = p ++ t :: r) : s = t ∧ q = r := by
  have := List.append_cancel_left h
  simpa using this

theorem anyForest_loop {I : TypeInfos} {p : Path} {a : Bool} {l : List (Step × Node × Walk σ Bool)}
    (hs : l.Pairwise (fun a b => a.1.index < b.1.index)) (h : ∀ c ∈ l, AnyChild I p a c.1 c.2.1 c.2.2) :
    AnyForest I p a (fun s n => ∃ w, (s, n, w) ∈ l) (loop l) := by
  induction l with
  | nil =>
    intro st st' es hw
    simp only [loop, Walk.pure_apply, Prod.mk.injEq] at hw
    rw [← hw.2.2]
    exact ⟨[], .nil, .nil, by simp, by simp⟩
  | cons c l ih =>
    intro st st' es hw
    rw [loop] at hw
    obtain ⟨b, st₁, es₁, es₂, hc, hr, rfl⟩ := Walk.bind_inv hw
    obtain ⟨L₁, hn₁, ho₁, hcl₁, hu₁⟩ := h c (by simp) st b st₁ es₁ hc
    have hs' := List.pairwise_cons.mp hs
    have hrest : ∃ L₂, Nested p a es₂ L₂ ∧ Ordered L₂ ∧ (∀ s n, (∃ w, (s, n, w) ∈ l) → Closed p s L₂) ∧
        ∀ q n', (q, n') ∈ L₂ → ∃ s n r, (∃ w, (s, n, w) ∈ l) ∧ q = p ++ s :: r ∧ HasNode I n r n' := by
      cases b with
      | true => exact ih hs'.2 (fun c' hc' => h c' (List.mem_cons_of_mem _ hc')) st₁ st' es₂ (by simpa using hr)
      | false =>
        simp only [Bool.false_eq_true, if_false, Walk.pure_apply, Prod.mk.injEq] at hr
        rw [← hr.2.2]
        exact ⟨[], .nil, .nil, by simp [Closed], by simp⟩
    obtain ⟨L₂, hn₂, ho₂, hcl₂, hu₂⟩ := hrest
    have hlt : ∀ q n', (q, n') ∈ L₂ → ∃ t r, q = p ++ t :: r ∧ c.1.index < t.index := by
      intro q n' hq
      obtain ⟨t, n, r, ⟨w, hm⟩, rfl, _⟩ := hu₂ q n' hq
      exact ⟨t, r, rfl, hs'.1 _ hm⟩
    refine ⟨L₁ ++ L₂, hn₁.append hn₂, ho₁.concat ho₂ (s := c.1) ?_ hlt, ?_, ?_⟩
    · intro q n hq
      obtain ⟨r, rfl, _⟩ := hu₁ q n hq
      exact ⟨r, rfl⟩
    · rintro s n ⟨w, hm⟩
      rintro r t n' hq
      rw [List.mem_append] at hq
      rcases hq with hq | hq
      · obtain ⟨r', he, _⟩ := hu₁ _ _ hq
        obtain ⟨rfl, rfl⟩ := append_cons_inj he
        obtain ⟨n'', hn''⟩ := hcl₁ r t n' hq
        exact ⟨n'', List.mem_append_left _ hn''⟩
      · obtain ⟨s', n₂, r', ⟨w', hm'⟩, he, _⟩ := hu₂ _ _ hq
        obtain ⟨rfl, rfl⟩ := append_cons_inj he
        obtain ⟨n'', hn''⟩ := hcl₂ s n₂ ⟨w', hm'⟩ r t n' hq
        exact ⟨n'', List.mem_append_right _ hn''⟩
    · intro q n' hq
      rw [List.mem_append] at hq
      rcases hq with hq | hq
      · obtain ⟨r, rfl, hh⟩ := hu₁ q n' hq
        exact ⟨c.1, c.2.1, r, ⟨c.2.2, by simp⟩, rfl, hh⟩
      · obtain ⟨s, n, r, ⟨w, hm⟩, rfl, hh⟩ := hu₂ q n' hq
        exact ⟨s, n, r, ⟨w, List.mem_cons_of_mem _ hm⟩, rfl, hh⟩

/-- the report of a node with children -/
theorem any_branch {I : TypeInfos} {P : Path} {p : Path} {s : Step} {n : Node} {L : List (Path × Node)} {cs : Step → Node → Prop}
    (hP : P = p ++ [s]) (hcs : ∀ t n', cs t n' → Child I n t n') (ho : Ordered L) (hcl : ∀ t n', cs t n' → Closed P t L)
    (hL : ∀ q n', (q, n') ∈ L → ∃ t n₁ r, cs t n₁ ∧ q = P ++ t :: r ∧ HasNode I n₁ r n') :
    Ordered ((P, n) :: L) ∧ Closed p s ((P, n) :: L) ∧
      ∀ q n', (q, n') ∈ (P, n) :: L → ∃ r, q = p ++ s :: r ∧ HasNode I n r n' := by
  subst hP
  refine ⟨ho.branch ?_, ?_, ?_⟩
  · intro q n' hq
    obtain ⟨t, _, r, _, rfl, _⟩ := hL q n' hq
    exact ⟨t, r, rfl⟩
  · intro r t n' hq
    rw [List.mem_cons] at hq
    rcases hq with he | hq
    · simp at he
    · obtain ⟨t', n₁, r', hc, he, _⟩ := hL _ _ hq
      rw [show p ++ [s] ++ t' :: r' = p ++ s :: (t' :: r') by simp] at he
      have he := (append_cons_inj he).2
      cases r with
      | nil => exact ⟨n, by simp⟩
      | cons u r =>
        simp only [List.cons_append, List.cons.injEq] at he
        obtain ⟨rfl, rfl⟩ := he
        obtain ⟨n'', hn''⟩ := hcl u n₁ hc r t n' (by simpa using hq)
        exact ⟨n'', List.mem_cons_of_mem _ (by simpa using hn'')⟩
  · intro q n' hq
    rw [List.mem_cons] at hq
    rcases hq with he | hq
    · simp only [Prod.mk.injEq] at he
      rw [he.1, he.2]
      exact ⟨[], rfl, .refl⟩
    · obtain ⟨t, n₁, r, hc, rfl, hh⟩ := hL q n' hq
      exact ⟨t :: r, by simp, .step (hcs t n₁ hc) hh⟩

theorem any_simple {I : TypeInfos} {F : WalkFilter σ} {p : Path} {v : Val} {m : MemberInfo} {idx : Option Nat} :
    AnyChild I p idx.isSome (stepOf m idx) (.item m v) (simple F v m idx) := by
  intro st c st' es hw
  unfold simple at hw
  obtain ⟨b, st₁, es₁, es₂, h1, h2, rfl⟩ := Walk.bind_inv hw
  simp only [Walk.filter, Prod.mk.injEq] at h1
  cases b with
  | false =>
    simp only [Bool.false_eq_true, if_false, Walk.filter, Prod.mk.injEq] at h2
    rw [← h1.2.2, ← h2.2.2]
    exact ⟨[], .nil, .nil, by simp [Closed], by simp⟩
  | true =>
    simp only [if_true] at h2
    obtain ⟨u, st₂, es₃, es₄, h3, h4, rfl⟩ := Walk.bind_inv h2
    simp only [Walk.filter, Walk.emit, Prod.mk.injEq] at h3 h4
    rw [← h1.2.2, ← h3.2.2, ← h4.2.2]
    have := any_branch (I := I) (p := p) (s := stepOf m idx) (n := .item m v) (L := []) (cs := fun _ _ => False) rfl (by simp) .nil
      (by simp) (by simp)
    exact ⟨_, .value .nil, this⟩

theorem any_compound {I : TypeInfos} {F : WalkFilter σ} {p : Path} {v : Val} {m : MemberInfo} {idx : Option Nat}
    {w : Walk σ Unit} {cs : Step → Node → Prop} (hcs : ∀ t n', cs t n' → Child I (.item m v) t n')
    (h : AnyForest I (p ++ [stepOf m idx]) false cs w) :
    AnyChild I p idx.isSome (stepOf m idx) (.item m v) (compound F v m idx w) := by
  intro st c st' es hw
  unfold compound at hw
  obtain ⟨b, st₁, es₁, es₂, h1, h2, rfl⟩ := Walk.bind_inv hw
  simp only [Walk.filter, Prod.mk.injEq] at h1
  cases b with
  | false =>
    simp only [Bool.false_eq_true, if_false, Walk.filter, Prod.mk.injEq] at h2
    rw [← h1.2.2, ← h2.2.2]
    exact ⟨[], .nil, .nil, by simp [Closed], by simp⟩
  | true =>
    simp only [if_true] at h2
    obtain ⟨_, st₂, es₃, es₄, h3, h4, rfl⟩ := Walk.bind_inv h2
    obtain ⟨_, st₃, es₅, es₆, h5, h6, rfl⟩ := Walk.bind_inv h4
    obtain ⟨_, st₄, es₇, es₈, h7, h8, rfl⟩ := Walk.bind_inv h6
    simp only [Walk.filter, Walk.emit, Prod.mk.injEq] at h3 h7 h8
    rw [← h1.2.2, ← h3.2.2, ← h7.2.2, ← h8.2.2]
    obtain ⟨L, hn, ho, hcl, hL⟩ := h st₂ st₃ es₅ h5
    have hn' := Nested.compound (v := v) hn (Nested.nil (p := p) (a := idx.isSome))
    refine ⟨_, by simpa using hn', any_branch rfl hcs ho hcl hL⟩

theorem any_array {I : TypeInfos} {F : WalkFilter σ} {p : Path} {xs : List Val} {m : MemberInfo}
    {w : Walk σ Unit} {cs : Step → Node → Prop} (hcs : ∀ t n', cs t n' → Child I (.array m xs) t n')
    (h : AnyForest I (p ++ [stepOf m none]) true cs w) :
    AnyChild I p false (stepOf m none) (.array m xs) (array F xs m w) := by
  intro st c st' es hw
  unfold array at hw
  obtain ⟨b, st₁, es₁, es₂, h1, h2, rfl⟩ := Walk.bind_inv hw
  simp only [Walk.filter, Prod.mk.injEq] at h1
  cases b with
  | false =>
    simp only [Bool.false_eq_true, if_false, Walk.filter, Prod.mk.injEq] at h2
    rw [← h1.2.2, ← h2.2.2]
    exact ⟨[], .nil, .nil, by simp [Closed], by simp⟩
  | true =>
    simp only [if_true] at h2
    obtain ⟨_, st₂, es₃, es₄, h3, h4, rfl⟩ := Walk.bind_inv h2
    obtain ⟨_, st₃, es₅, es₆, h5, h6, rfl⟩ := Walk.bind_inv h4
    obtain ⟨_, st₄, es₇, es₈, h7, h8, rfl⟩ := Walk.bind_inv h6
    simp only [Walk.filter, Walk.emit, Prod.mk.injEq] at h3 h7 h8
    rw [← h1.2.2, ← h3.2.2, ← h7.2.2, ← h8.2.2]
    obtain ⟨L, hn, ho, hcl, hL⟩ := h st₂ st₃ es₅ h5
    have hn' := Nested.array (xs := xs) hn (Nested.nil (p := p) (a := false))
    refine ⟨_, by simpa using hn', any_branch rfl hcs ho hcl hL⟩

/-- the node of a value which is not an array -/
theorem node_item (m : MemberInfo) {x : Val} (h : ∀ xs, x ≠ .arr xs) : m.node x = .item m x := by
  unfold MemberInfo.node
  split
  · exact absurd rfl (h _)
  · rfl

theorem fieldChildren_sorted {I : TypeInfos} {F : WalkFilter σ} {l : List (MemberInfo × Val)}
    (h : l.Pairwise (fun a b => a.1.prop < b.1.prop)) :
    (fieldChildren I F l).Pairwise (fun a b => a.1.index < b.1.index) := by
  unfold fieldChildren
  rw [List.pairwise_map]
  exact h

theorem mem_fieldChildren {I : TypeInfos} {F : WalkFilter σ} {l : List (MemberInfo × Val)} {c : Step × Node × Walk σ Bool} :
    c ∈ fieldChildren I F l ↔ ∃ m x, (m, x) ∈ l ∧ c = (stepOf m none, m.node x, field I F x m) := by
  unfold fieldChildren
  rw [List.mem_map]
  constructor
  · rintro ⟨⟨m, x⟩, h, rfl⟩
    exact ⟨m, x, h, rfl⟩
  · rintro ⟨m, x, h, rfl⟩
    exact ⟨(m, x), h, rfl⟩

/-- the fields of an object, given what is known of their values -/
theorem any_object {I : TypeInfos} (hI : I.Numbered) {F : WalkFilter σ} {ps : List Int} {k : Nat} {tag : Int} {fs : List Val}
    (ih : ∀ x ∈ fs, ∀ m p, Readable I (m.node x) → AnyChild I p false (stepOf m none) (m.node x) (field I F x m)) {n : Node}
    {id : Nat} (hr : Readable I n) (hc : n.IsCompound id (.obj ps k tag fs)) (p : Path) :
    ∃ cs : Step → Node → Prop, (∀ t n', cs t n' → Child I n t n') ∧
      AnyForest I p false cs (fields (I id) ps tag (walkAttrs I F fs)) := by
  obtain ⟨l, ⟨hl, hso⟩, he⟩ := fields_eq hI (F := F) (hr _ _ id _ .refl hc)
  refine ⟨fun s n => ∃ w, (s, n, w) ∈ fieldChildren I F l, ?_, ?_⟩
  · rintro t n' ⟨w, hm⟩
    obtain ⟨m, x, hm', he'⟩ := mem_fieldChildren.mp hm
    simp only [Prod.mk.injEq] at he'
    rw [he'.1, he'.2.1]
    exact .field hc ((hl m x).mp hm')
  · rw [he]
    refine anyForest_loop (fieldChildren_sorted hso) ?_
    intro c hm
    obtain ⟨m, x, hm', rfl⟩ := mem_fieldChildren.mp hm
    have hf := (hl m x).mp hm'
    exact ih x (fieldOf_mem hf).1 m p (hr.of_hasNode (.step (.field hc hf) .refl))

theorem any_elements {I : TypeInfos} {F : WalkFilter σ} {xs : List Val} {m : MemberInfo}
    (ih : ∀ x ∈ xs, ∀ p i, Readable I (.item m x) → AnyChild I p true (.elem i) (.item m x) (element I F x m i))
    (hr : Readable I (.array m xs)) (p : Path) :
    ∃ cs : Step → Node → Prop, (∀ t n', cs t n' → Child I (.array m xs) t n') ∧ AnyForest I p true cs (elements I F xs m 0) := by
  refine ⟨fun s n => ∃ w, (s, n, w) ∈ arrayChildren I F m xs 0, ?_, ?_⟩
  · rintro t n' ⟨w, hm⟩
    obtain ⟨i, x, hx, he⟩ := mem_arrayChildren.mp hm
    simp only [Prod.mk.injEq] at he
    rw [he.1, he.2.1]
    exact .elem (by simpa using hx)
  · rw [elements_eq]
    refine anyForest_loop (arrayChildren_sorted I F m xs 0) ?_
    intro c hm
    obtain ⟨i, x, hx, rfl⟩ := mem_arrayChildren.mp hm
    exact ih x (List.mem_of_getElem? hx) p _ (hr.of_hasNode (.step (.elem hx) .refl))

theorem not_readable {I : TypeInfos} {m : MemberInfo} {v : Val} {id : Nat} (hr : Readable I (.item m v)) (ht : m.type = .compound id)
    (hn : v.isNone = false) : ∃ ps k tag fs, v = .obj ps k tag fs := by
  cases hr _ _ id v .refl (.item ht hn) <;> exact ⟨_, _, _, _, rfl⟩

theorem any_notObject {I : TypeInfos} {F : WalkFilter σ} {p : Path} {v : Val} {m : MemberInfo} {idx : Option Nat}
    (hr : Readable I (.item m v)) (hv : ∀ ps k tag fs, v ≠ .obj ps k tag fs) :
    AnyChild I p idx.isSome (stepOf m idx) (.item m v) (notObject F v m idx) := by
  unfold notObject
  split
  · exact any_simple
  · rename_i v _ _ n ht hne
    obtain ⟨_, _, _, _, he⟩ := not_readable hr ht (by cases v <;> simp_all [Val.isNone])
    exact absurd he (hv _ _ _ _)
  · exact any_simple

theorem any_item {I : TypeInfos} (hI : I.Numbered) {F : WalkFilter σ} {ps : List Int} {k : Nat} {tag : Int} {fs : List Val}
    (ih : ∀ x ∈ fs, ∀ m p, Readable I (m.node x) → AnyChild I p false (stepOf m none) (m.node x) (field I F x m)) {m : MemberInfo}
    (hr : Readable I (.item m (.obj ps k tag fs))) (p : Path) (idx : Option Nat) :
    AnyChild I p idx.isSome (stepOf m idx) (.item m (.obj ps k tag fs))
      (object I F (.obj ps k tag fs) ps tag (walkAttrs I F fs) m idx) := by
  unfold object
  split
  · rename_i id ht
    obtain ⟨cs, h1, h2⟩ := any_object hI ih hr (.item ht rfl) (p ++ [stepOf m idx])
    exact any_compound h1 h2
  · exact any_simple

/-- whatever the filter does, the events of the walk of a readable value are well nested, in order, and report nodes of the
value only -/
theorem any_value {I : TypeInfos} (hI : I.Numbered) (F : WalkFilter σ) (v : Val) :
    (∀ m p, Readable I (m.node v) → AnyChild I p false (stepOf m none) (m.node v) (field I F v m)) ∧
    (∀ m p i, Readable I (.item m v) → AnyChild I p true (.elem i) (.item m v) (element I F v m i)) := by
  induction v using Val.induction with
  | h v ih =>
    cases v with
    | arr xs =>
      constructor
      · intro m p hr
        rw [field]
        unfold MemberInfo.node at hr ⊢
        simp only at hr ⊢
        split
        · rename_i ha
          rw [if_pos ha] at hr
          obtain ⟨cs, h1, h2⟩ := any_elements (F := F) (fun x hx p i hr => (ih x hx).2 m p i hr) hr (p ++ [stepOf m none])
          exact any_array h1 h2
        · rename_i ha
          rw [if_neg ha] at hr
          exact any_notObject (idx := none) hr (by simp)
      · intro m p i hr
        exact any_notObject (idx := some i) hr (by simp)
    | obj ps k tag fs =>
      have ih' : ∀ x ∈ fs, ∀ m p, Readable I (m.node x) → AnyChild I p false (stepOf m none) (m.node x) (field I F x m) :=
        fun x hx => (ih x hx).1
      exact ⟨fun m p hr => any_item hI ih' hr p none, fun m p i hr => any_item hI ih' hr p (some i)⟩
    | _ => exact ⟨fun m p hr => any_notObject (idx := none) hr (by simp), fun m p i hr => any_notObject (idx := some i) hr (by simp)⟩

end Walker
end Zserio
