import Verif.Lemmas.WalkerFilter
/-
What the walker reports with a filter which decides by the position.
-/
set_option linter.unusedSimpArgs false
namespace Zserio
namespace Walker
variable {σ : Type}

section
variable (I : TypeInfos) (root : Node) (acc : Path → Node → Prop) (rep : Bool → Path → σ → Prop)

/-- the walk of the child `n` reports exactly what is accepted -/
def PathChild (p : Path) (a : Bool) (s : Step) (n : Node) (w : Walk σ Bool) : Prop :=
  ∀ st, rep a p st → ∃ c st' es L, w st = (.ok c, st', es) ∧ rep a p st' ∧ (c = false → NoneAfter I root acc p s) ∧
    Nested p a es L ∧ Ordered L ∧ ∀ q n', (q, n') ∈ L ↔ ∃ r, q = p ++ s :: r ∧ Visited I acc (p ++ [s]) n r n'

/-- the walk of several children reports exactly what is accepted -/
def PathForest (p : Path) (a : Bool) (cs : Step → Node → Prop) (w : Walk σ Unit) : Prop :=
  ∀ st, rep a p st → ∃ st' es L, w st = (.ok (), st', es) ∧ rep a p st' ∧ Nested p a es L ∧ Ordered L ∧
    ∀ q n', (q, n') ∈ L ↔ ∃ s n r, cs s n ∧ q = p ++ s :: r ∧ Visited I acc (p ++ [s]) n r n'

end

variable {I : TypeInfos} {root : Node} {acc : Path → Node → Prop} {rep : Bool → Path → σ → Prop}

theorem pathForest_loop {p : Path} {a : Bool} {l : List (Step × Node × Walk σ Bool)}
    (hs : l.Pairwise (fun a b => a.1.index < b.1.index)) (hn : ∀ c ∈ l, HasNode I root (p ++ [c.1]) c.2.1)
    (h : ∀ c ∈ l, PathChild I root acc rep p a c.1 c.2.1 c.2.2) :
    PathForest I acc rep p a (fun s n => ∃ w, (s, n, w) ∈ l) (loop l) := by
  induction l with
  | nil => exact fun st hr => ⟨st, [], [], rfl, hr, .nil, .nil, by simp⟩
  | cons c l ih =>
    intro st hr
    have hs' := List.pairwise_cons.mp hs
    obtain ⟨b, st₁, es₁, L₁, hw, hr₁, hb, hn₁, ho₁, hm₁⟩ := h c (by simp) st hr
    have hrest : ∃ st' es₂ L₂, (if b then loop l else pure () : Walk σ Unit) st₁ = (.ok (), st', es₂) ∧ rep a p st' ∧
        Nested p a es₂ L₂ ∧ Ordered L₂ ∧
        ∀ q n', (q, n') ∈ L₂ ↔ ∃ s n r, (∃ w, (s, n, w) ∈ l) ∧ q = p ++ s :: r ∧ Visited I acc (p ++ [s]) n r n' := by
      cases b with
      | true =>
        exact ih hs'.2 (fun c hc => hn c (List.mem_cons_of_mem _ hc)) (fun c hc => h c (List.mem_cons_of_mem _ hc)) st₁ hr₁
      | false =>
        refine ⟨st₁, [], [], rfl, hr₁, .nil, .nil, ?_⟩
        intro q n'
        simp only [List.not_mem_nil, false_iff]
        rintro ⟨s, n, r, ⟨w, hm⟩, _, hv⟩
        exact hb rfl s n (hs'.1 _ hm) (hn _ (List.mem_cons_of_mem _ hm)) hv.accepted
    obtain ⟨st', es₂, L₂, hw₂, hr₂, hn₂, ho₂, hm₂⟩ := hrest
    refine ⟨st', es₁ ++ es₂, L₁ ++ L₂, ?_, hr₂, hn₁.append hn₂, ho₁.concat (p := p) (s := c.1) ho₂ ?_ ?_, ?_⟩
    · rw [loop, Walk.bind_ok hw, hw₂]
    · intro q n hq
      obtain ⟨r, rfl, _⟩ := (hm₁ q n).mp hq
      exact ⟨r, rfl⟩
    · intro q n hq
      obtain ⟨s, n₁, r, ⟨w, hm⟩, rfl, _⟩ := (hm₂ q n).mp hq
      exact ⟨s, r, rfl, hs'.1 _ hm⟩
    · intro q n'
      rw [List.mem_append, hm₁, hm₂]
      constructor
      · rintro (⟨r, rfl, hv⟩ | ⟨s, n, r, ⟨w, hm⟩, rfl, hv⟩)
        · exact ⟨c.1, c.2.1, r, ⟨c.2.2, by simp⟩, rfl, hv⟩
        · exact ⟨s, n, r, ⟨w, List.mem_cons_of_mem _ hm⟩, rfl, hv⟩
      · rintro ⟨s, n, r, ⟨w, hm⟩, rfl, hv⟩
        rw [List.mem_cons] at hm
        rcases hm with he | hm
        · left
          rw [← he]
          exact ⟨r, rfl, hv⟩
        · exact .inr ⟨s, n, r, ⟨w, hm⟩, rfl, hv⟩

/-- the report of an accepted node with children -/
theorem path_branch {p : Path} {s : Step} {n : Node} {L : List (Path × Node)} {cs : Step → Node → Prop}
    (hcs : ∀ t n', cs t n' ↔ Child I n t n') (ho : Ordered L) (hacc : acc (p ++ [s]) n)
    (hL : ∀ q n', (q, n') ∈ L ↔ ∃ t n₁ r, cs t n₁ ∧ q = p ++ [s] ++ t :: r ∧ Visited I acc (p ++ [s] ++ [t]) n₁ r n') :
    Ordered ((p ++ [s], n) :: L) ∧
      ∀ q n', (q, n') ∈ (p ++ [s], n) :: L ↔ ∃ r, q = p ++ s :: r ∧ Visited I acc (p ++ [s]) n r n' := by
  refine ⟨ho.branch ?_, ?_⟩
  · intro q n' hq
    obtain ⟨t, _, r, _, rfl, _⟩ := (hL q n').mp hq
    exact ⟨t, r, rfl⟩
  · intro q n'
    rw [List.mem_cons, hL]
    constructor
    · rintro (he | ⟨t, n₁, r, hc, rfl, hv⟩)
      · simp only [Prod.mk.injEq] at he
        rw [he.1, he.2]
        exact ⟨[], rfl, .refl hacc⟩
      · exact ⟨t :: r, by simp, .step hacc ((hcs t n₁).mp hc) hv⟩
    · rintro ⟨r, rfl, hv⟩
      cases hv with
      | refl _ => exact .inl rfl
      | step _ hc hv => exact .inr ⟨_, _, _, (hcs _ _).mpr hc, by simp, hv⟩

theorem not_compound_no_child {m : MemberInfo} {x : Val} (h : ∀ id, ¬ (Node.item m x).IsCompound id x) (s : Step) (n' : Node) :
    ¬ Child I (.item m x) s n' := by
  intro hc
  cases hc with
  | field hi _ =>
    cases hi with
    | item ht hn => exact h _ (.item ht hn)

theorem path_rejected {p : Path} {s : Step} {n : Node} {L : List (Path × Node)} (hacc : ¬ acc (p ++ [s]) n) (hL : L = []) :
    ∀ q n', (q, n') ∈ L ↔ ∃ r, q = p ++ s :: r ∧ Visited I acc (p ++ [s]) n r n' := by
  subst hL
  intro q n'
  simp only [List.not_mem_nil, false_iff]
  rintro ⟨r, _, hv⟩
  exact hacc hv.accepted

theorem path_simple {F : WalkFilter σ} (hF : PathFilter I root F rep acc) {p : Path} {v : Val} {m : MemberInfo} {idx : Option Nat}
    (hn : HasNode I root (p ++ [stepOf m idx]) (.item m v)) (hv : ∀ id, ¬ (Node.item m v).IsCompound id v) :
    PathChild I root acc rep p idx.isSome (stepOf m idx) (.item m v) (simple F v m idx) := by
  intro st hr
  obtain ⟨_, hc⟩ := hF.value p m v idx hn hv
  obtain ⟨b, st₁, h1, hacc, hr₁⟩ := hc.before st hr
  obtain ⟨c, st₂, h2, hr₂, hc₂⟩ := hc.after st₁ hr₁
  have hb : Walk.filter (F.beforeValue v m idx) st = (.ok b, st₁, []) := by simp [Walk.filter, h1]
  have ha : Walk.filter (F.afterValue v m idx) st₁ = (.ok c, st₂, []) := by simp [Walk.filter, h2]
  unfold simple
  cases b with
  | false =>
    refine ⟨c, st₂, [], [], ?_, hr₂, hc₂, .nil, .nil, path_rejected (by simpa using hacc) rfl⟩
    rw [Walk.bind_ok hb]
    simp [ha]
  | true =>
    refine ⟨c, st₂, [.visitValue v m idx], [(p ++ [stepOf m idx], .item m v)], ?_, hr₂, hc₂, .value .nil, ?_⟩
    · rw [Walk.bind_ok hb]
      simp only [if_true]
      rw [Walk.bind_ok (show Walk.emit (.visitValue v m idx) st₁ = (.ok (), st₁, [.visitValue v m idx]) from rfl), ha]
      simp
    · exact path_branch (cs := fun _ _ => False) (L := []) (fun t n' => by simpa using not_compound_no_child hv t n') .nil
        (by simpa using hacc) (by simp)

theorem path_compound {F : WalkFilter σ} (hF : PathFilter I root F rep acc) {p : Path} {v : Val} {m : MemberInfo} {idx : Option Nat}
    {id : Nat} {w : Walk σ Unit} {cs : Step → Node → Prop} (hcs : ∀ t n', cs t n' ↔ Child I (.item m v) t n')
    (hn : HasNode I root (p ++ [stepOf m idx]) (.item m v)) (hv : (Node.item m v).IsCompound id v)
    (h : PathForest I acc rep (p ++ [stepOf m idx]) false cs w) :
    PathChild I root acc rep p idx.isSome (stepOf m idx) (.item m v) (compound F v m idx w) := by
  intro st hr
  have hc := hF.compound p m v idx id hn hv
  obtain ⟨b, st₁, h1, hacc, hr₁⟩ := hc.before st hr
  have hb : Walk.filter (F.beforeCompound v m idx) st = (.ok b, st₁, []) := by simp [Walk.filter, h1]
  unfold compound
  cases b with
  | false =>
    obtain ⟨c, st₂, h2, hr₂, hc₂⟩ := hc.after st₁ hr₁
    have ha : Walk.filter (F.afterCompound v m idx) st₁ = (.ok c, st₂, []) := by simp [Walk.filter, h2]
    refine ⟨c, st₂, [], [], ?_, hr₂, hc₂, .nil, .nil, path_rejected (by simpa using hacc) rfl⟩
    rw [Walk.bind_ok hb]
    simp [ha]
  | true =>
    obtain ⟨st₂, es, L, hw, hr₂, hne, ho, hm⟩ := h st₁ hr₁
    obtain ⟨c, st₃, h3, hr₃, hc₃⟩ := hc.after st₂ hr₂
    have ha : Walk.filter (F.afterCompound v m idx) st₂ = (.ok c, st₃, []) := by simp [Walk.filter, h3]
    have hn' := Nested.compound (v := v) hne (Nested.nil (p := p) (a := idx.isSome))
    refine ⟨c, st₃, .beginCompound v m idx :: es ++ [.endCompound v m idx], (p ++ [stepOf m idx], .item m v) :: L, ?_, hr₃, hc₃,
      by simpa using hn', path_branch hcs ho (by simpa using hacc) hm⟩
    rw [Walk.bind_ok hb]
    simp only [if_true]
    rw [Walk.bind_ok (show Walk.emit (.beginCompound v m idx) st₁ = (.ok (), st₁, [.beginCompound v m idx]) from rfl),
      Walk.bind_ok hw, Walk.bind_ok (show Walk.emit (.endCompound v m idx) st₂ = (.ok (), st₂, [.endCompound v m idx]) from rfl), ha]
    simp

theorem path_array {F : WalkFilter σ} (hF : PathFilter I root F rep acc) {p : Path} {xs : List Val} {m : MemberInfo}
    {w : Walk σ Unit} {cs : Step → Node → Prop} (hcs : ∀ t n', cs t n' ↔ Child I (.array m xs) t n')
    (hn : HasNode I root (p ++ [stepOf m none]) (.array m xs)) (h : PathForest I acc rep (p ++ [stepOf m none]) true cs w) :
    PathChild I root acc rep p false (stepOf m none) (.array m xs) (array F xs m w) := by
  intro st hr
  have hc := hF.array p m xs hn
  obtain ⟨b, st₁, h1, hacc, hr₁⟩ := hc.before st hr
  have hb : Walk.filter (F.beforeArray xs m) st = (.ok b, st₁, []) := by simp [Walk.filter, h1]
  unfold array
  cases b with
  | false =>
    obtain ⟨c, st₂, h2, hr₂, hc₂⟩ := hc.after st₁ hr₁
    have ha : Walk.filter (F.afterArray xs m) st₁ = (.ok c, st₂, []) := by simp [Walk.filter, h2]
    refine ⟨c, st₂, [], [], ?_, hr₂, hc₂, .nil, .nil, path_rejected (by simpa using hacc) rfl⟩
    rw [Walk.bind_ok hb]
    simp [ha]
  | true =>
    obtain ⟨st₂, es, L, hw, hr₂, hne, ho, hm⟩ := h st₁ hr₁
    obtain ⟨c, st₃, h3, hr₃, hc₃⟩ := hc.after st₂ hr₂
    have ha : Walk.filter (F.afterArray xs m) st₂ = (.ok c, st₃, []) := by simp [Walk.filter, h3]
    have hn' := Nested.array (xs := xs) hne (Nested.nil (p := p) (a := false))
    refine ⟨c, st₃, .beginArray xs m :: es ++ [.endArray xs m], (p ++ [stepOf m none], .array m xs) :: L, ?_, hr₃, hc₃,
      by simpa using hn', path_branch hcs ho (by simpa using hacc) hm⟩
    rw [Walk.bind_ok hb]
    simp only [if_true]
    rw [Walk.bind_ok (show Walk.emit (.beginArray xs m) st₁ = (.ok (), st₁, [.beginArray xs m]) from rfl),
      Walk.bind_ok hw, Walk.bind_ok (show Walk.emit (.endArray xs m) st₂ = (.ok (), st₂, [.endArray xs m]) from rfl), ha]
    simp

theorem path_object (hI : I.Numbered) {F : WalkFilter σ} {ps : List Int} {k : Nat} {tag : Int} {fs : List Val}
    (ih : ∀ x ∈ fs, ∀ m p, HasNode I root (p ++ [stepOf m none]) (m.node x) →
      PathChild I root acc rep p false (stepOf m none) (m.node x) (field I F x m)) {n : Node}
    {id : Nat} (hr : Readable I root) {p : Path} (hn : HasNode I root p n) (hc : n.IsCompound id (.obj ps k tag fs)) :
    ∃ cs : Step → Node → Prop, (∀ t n', cs t n' ↔ Child I n t n') ∧
      PathForest I acc rep p false cs (fields (I id) ps tag (walkAttrs I F fs)) := by
  obtain ⟨l, ⟨hl, hso⟩, he⟩ := fields_eq hI (F := F) (hr _ _ id _ hn hc)
  have hmem : ∀ t n', (∃ w, (t, n', w) ∈ fieldChildren I F l) ↔ Child I n t n' := by
    intro t n'
    constructor
    · rintro ⟨w, hm⟩
      obtain ⟨m, x, hm', he'⟩ := mem_fieldChildren.mp hm
      simp only [Prod.mk.injEq] at he'
      rw [he'.1, he'.2.1]
      exact .field hc ((hl m x).mp hm')
    · intro hch
      cases hch with
      | elem _ => cases hc
      | @field _ id' o' m x hc' hf =>
        have : id' = id ∧ o' = .obj ps k tag fs := by
          cases hc with
          | root => cases hc'; exact ⟨rfl, rfl⟩
          | item ht _ =>
            cases hc' with
            | item ht' _ =>
              rw [ht] at ht'
              simp only [TypeInfo.compound.injEq] at ht'
              exact ⟨ht'.symm, rfl⟩
        obtain ⟨rfl, rfl⟩ := this
        exact ⟨_, mem_fieldChildren.mpr ⟨m, x, (hl m x).mpr hf, rfl⟩⟩
  refine ⟨fun s n => ∃ w, (s, n, w) ∈ fieldChildren I F l, hmem, ?_⟩
  have hnode : ∀ c ∈ fieldChildren I F l, HasNode I root (p ++ [c.1]) c.2.1 := fun c hm => hn.child ((hmem _ _).mp ⟨c.2.2, hm⟩)
  rw [he]
  refine pathForest_loop (root := root) (fieldChildren_sorted hso) hnode ?_
  intro c hm
  obtain ⟨m, x, hm', rfl⟩ := mem_fieldChildren.mp hm
  exact ih x (fieldOf_mem ((hl m x).mp hm')).1 m p (hnode _ hm)

theorem path_elements {F : WalkFilter σ} {xs : List Val} {m : MemberInfo}
    (ih : ∀ x ∈ xs, ∀ p i, HasNode I root (p ++ [.elem i]) (.item m x) →
      PathChild I root acc rep p true (.elem i) (.item m x) (element I F x m i)) {p : Path} (hn : HasNode I root p (.array m xs)) :
    ∃ cs : Step → Node → Prop, (∀ t n', cs t n' ↔ Child I (.array m xs) t n') ∧
      PathForest I acc rep p true cs (elements I F xs m 0) := by
  have hmem : ∀ t n', (∃ w, (t, n', w) ∈ arrayChildren I F m xs 0) ↔ Child I (.array m xs) t n' := by
    intro t n'
    constructor
    · rintro ⟨w, hm⟩
      obtain ⟨i, x, hx, he⟩ := mem_arrayChildren.mp hm
      simp only [Prod.mk.injEq] at he
      rw [he.1, he.2.1]
      exact .elem (by simpa using hx)
    · intro hc
      cases hc with
      | elem hx => exact ⟨_, mem_arrayChildren.mpr ⟨_, _, hx, by rw [Nat.zero_add]⟩⟩
      | field hc _ => cases hc
  refine ⟨fun s n => ∃ w, (s, n, w) ∈ arrayChildren I F m xs 0, hmem, ?_⟩
  have hnode : ∀ c ∈ arrayChildren I F m xs 0, HasNode I root (p ++ [c.1]) c.2.1 := fun c hm => hn.child ((hmem _ _).mp ⟨c.2.2, hm⟩)
  rw [elements_eq]
  refine pathForest_loop (root := root) (arrayChildren_sorted I F m xs 0) hnode ?_
  intro c hm
  obtain ⟨i, x, hx, rfl⟩ := mem_arrayChildren.mp hm
  exact ih x (List.mem_of_getElem? hx) p _ (hnode _ hm)

theorem path_notObject {F : WalkFilter σ} (hF : PathFilter I root F rep acc) (hr : Readable I root) {p : Path} {v : Val}
    {m : MemberInfo} {idx : Option Nat} (hn : HasNode I root (p ++ [stepOf m idx]) (.item m v))
    (hv : ∀ ps k tag fs, v ≠ .obj ps k tag fs) :
    PathChild I root acc rep p idx.isSome (stepOf m idx) (.item m v) (notObject F v m idx) := by
  have hs : notObject F v m idx = simple F v m idx := by
    unfold notObject
    split
    · rfl
    · rename_i v _ _ n ht hne
      obtain ⟨_, _, _, _, he⟩ := not_readable (hr.of_hasNode hn) ht (by cases v <;> simp_all [Val.isNone])
      exact absurd he (hv _ _ _ _)
    · rfl
  rw [hs]
  refine path_simple hF hn ?_
  intro id hc
  cases hc with
  | item ht hnn =>
    obtain ⟨_, _, _, _, he⟩ := not_readable (hr.of_hasNode hn) ht hnn
    exact hv _ _ _ _ he

theorem path_item (hI : I.Numbered) {F : WalkFilter σ} (hF : PathFilter I root F rep acc) (hr : Readable I root) {ps : List Int}
    {k : Nat} {tag : Int} {fs : List Val}
    (ih : ∀ x ∈ fs, ∀ m p, HasNode I root (p ++ [stepOf m none]) (m.node x) →
      PathChild I root acc rep p false (stepOf m none) (m.node x) (field I F x m)) {m : MemberInfo} {p : Path} {idx : Option Nat}
    (hn : HasNode I root (p ++ [stepOf m idx]) (.item m (.obj ps k tag fs))) :
    PathChild I root acc rep p idx.isSome (stepOf m idx) (.item m (.obj ps k tag fs))
      (object I F (.obj ps k tag fs) ps tag (walkAttrs I F fs) m idx) := by
  unfold object
  split
  · rename_i id ht
    obtain ⟨cs, h1, h2⟩ := path_object hI ih hr hn (.item ht rfl)
    exact path_compound hF h1 hn (.item ht rfl) h2
  · rename_i ht
    refine path_simple hF hn ?_
    intro id hc
    cases hc with
    | item ht' _ => exact ht id ht'

/-- a filter which decides by the position selects exactly the nodes it accepts -/
theorem path_value (hI : I.Numbered) {F : WalkFilter σ} (hF : PathFilter I root F rep acc) (hr : Readable I root) (v : Val) :
    (∀ m p, HasNode I root (p ++ [stepOf m none]) (m.node v) →
      PathChild I root acc rep p false (stepOf m none) (m.node v) (field I F v m)) ∧
    (∀ m p i, HasNode I root (p ++ [.elem i]) (.item m v) →
      PathChild I root acc rep p true (.elem i) (.item m v) (element I F v m i)) := by
  induction v using Val.induction with
  | h v ih =>
    cases v with
    | arr xs =>
      constructor
      · intro m p hn
        rw [field]
        unfold MemberInfo.node at hn ⊢
        simp only at hn ⊢
        split
        · rename_i ha
          rw [if_pos ha] at hn
          obtain ⟨cs, h1, h2⟩ := path_elements (F := F) (fun x hx p i hn => (ih x hx).2 m p i hn) hn
          exact path_array hF h1 hn h2
        · rename_i ha
          rw [if_neg ha] at hn
          exact path_notObject (idx := none) hF hr hn (by simp)
      · intro m p i hn
        exact path_notObject (idx := some i) hF hr hn (by simp)
    | obj ps k tag fs =>
      have ih' : ∀ x ∈ fs, ∀ m p, HasNode I root (p ++ [stepOf m none]) (m.node x) →
          PathChild I root acc rep p false (stepOf m none) (m.node x) (field I F x m) := fun x hx => (ih x hx).1
      exact ⟨fun m p hn => path_item (idx := none) hI hF hr ih' hn, fun m p i hn => path_item (idx := some i) hI hF hr ih' hn⟩
    | _ =>
      exact ⟨fun m p hn => path_notObject (idx := none) hF hr hn (by simp),
        fun m p i hn => path_notObject (idx := some i) hF hr hn (by simp)⟩

theorem rootFields_path (hI : I.Numbered) {F : WalkFilter σ} {id : Nat} {o : Val} (hr : Readable I (.root id o))
    (hF : PathFilter I (.root id o) F rep acc) {st : σ} (hs : rep false [] st) :
    ∃ st' es L, rootFields I F id o st = (.ok (), st', es) ∧ rep false [] st' ∧ Nested [] false es L ∧ Ordered L ∧
      Selects I (.root id o) acc L := by
  obtain ⟨ps, k, tag, fs, rfl⟩ : ∃ ps k tag fs, o = .obj ps k tag fs := by
    cases hr _ _ id o .refl .root <;> exact ⟨_, _, _, _, rfl⟩
  obtain ⟨cs, h1, h2⟩ := path_object (F := F) (rep := rep) hI (fun x _ => (path_value hI hF hr x).1) hr .refl .root
  obtain ⟨st', es, L, hw, hr', hn, ho, hm⟩ := h2 st hs
  refine ⟨st', es, L, hw, hr', hn, ho, ?_⟩
  intro q n
  rw [hm]
  constructor
  · rintro ⟨s, n₁, r, hc, rfl, hv⟩
    exact ⟨s, r, n₁, rfl, (h1 s n₁).mp hc, hv⟩
  · rintro ⟨s, r, n₁, rfl, hc, hv⟩
    exact ⟨s, n₁, r, (h1 s n₁).mpr hc, rfl, hv⟩

theorem walk_path (hI : I.Numbered) {F : WalkFilter σ} {id : Nat} {o : Val} (hr : Readable I (.root id o))
    (hF : PathFilter I (.root id o) F rep acc) {st : σ} (hs : rep false [] st) :
    ∃ st' es L, walk I F (some (.compound id)) o st = (.ok (), st', es) ∧ rep false [] st' ∧ Reports o es L ∧
      Selects I (.root id o) acc L := by
  obtain ⟨st', es, L, hw, hr', hn, ho, hm⟩ := rootFields_path hI hr hF hs
  refine ⟨st', .beginRoot o :: es ++ [.endRoot o], L, ?_, hr', ⟨es, rfl, hn, ho⟩, hm⟩
  show root I F id o st = _
  unfold root
  rw [Walk.bind_ok (show Walk.emit (.beginRoot o) st = (.ok (), st, [.beginRoot o]) from rfl), Walk.bind_ok hw]
  rfl

theorem walk_any (hI : I.Numbered) {F : WalkFilter σ} {id : Nat} {o : Val} (hr : Readable I (.root id o)) {st st' : σ}
    {es : List Event} (h : walk I F (some (.compound id)) o st = (.ok (), st', es)) :
    ∃ L, Reports o es L ∧ (∀ p n, (p, n) ∈ L → p ≠ [] ∧ HasNode I (.root id o) p n) ∧
      ∀ p s n, (p ++ [s], n) ∈ L → p ≠ [] → ∃ n', (p, n') ∈ L := by
  obtain ⟨ps, k, tag, fs, rfl⟩ : ∃ ps k tag fs, o = .obj ps k tag fs := by
    cases hr _ _ id o .refl .root <;> exact ⟨_, _, _, _, rfl⟩
  obtain ⟨cs, h1, h2⟩ := any_object (F := F) hI (fun x _ => (any_value hI F x).1) hr .root []
  change root I F id _ st = _ at h
  unfold root at h
  obtain ⟨_, st₂, es₁, es₂, h3, h4, rfl⟩ := Walk.bind_inv h
  obtain ⟨_, st₃, es₃, es₄, h5, h6, rfl⟩ := Walk.bind_inv h4
  simp only [Walk.emit, Prod.mk.injEq] at h3 h6
  obtain ⟨L, hn, ho, hcl, hm⟩ := h2 st₂ st₃ es₃ h5
  rw [← h3.2.2, ← h6.2.2]
  refine ⟨L, ⟨es₃, by simp, hn, ho⟩, ?_, ?_⟩
  · intro p n hp
    obtain ⟨s, n₁, r, hc, rfl, hh⟩ := hm p n hp
    exact ⟨by simp, .step (h1 s n₁ hc) hh⟩
  · intro p s n hp hne
    obtain ⟨s', n₁, r, hc, he, hh⟩ := hm _ n hp
    cases p with
    | nil => exact absurd rfl hne
    | cons t p =>
      simp only [List.cons_append, List.nil_append, List.cons.injEq] at he
      obtain ⟨rfl, rfl⟩ := he
      exact hcl t n₁ hc p s n hp

end Walker
end Zserio
