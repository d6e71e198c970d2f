import Verif.Lemmas.WalkerPath
/-
The filters of the runtime library as filters which decide by the position.
-/
set_option linter.unusedSimpArgs false
namespace Zserio

theorem defaultFilter_path (I : TypeInfos) (root : Node) :
    PathFilter I root defaultFilter (fun _ _ _ => True) (fun _ _ => True) := by
  constructor
  · intro p m xs _
    exact ⟨fun st _ => ⟨true, st, rfl, by simp, trivial⟩, fun st _ => ⟨true, st, rfl, trivial, by simp⟩⟩
  · intro p m x idx id _ _
    exact ⟨fun st _ => ⟨true, st, rfl, by simp, trivial⟩, fun st _ => ⟨true, st, rfl, trivial, by simp⟩⟩
  · intro p m x idx _ _
    exact ⟨fun _ => True, fun st _ => ⟨true, st, rfl, by simp, trivial⟩, fun st _ => ⟨true, st, rfl, trivial, by simp⟩⟩

theorem depthFilter_path (I : TypeInfos) (root : Node) (d : Int) :
    PathFilter I root (depthFilter d) (fun _ p st => st = p.length + 1) (fun p _ => (p.length : Int) ≤ d) := by
  constructor
  · intro p m xs _
    refine ⟨fun st h => ⟨decide (st ≤ d), st + 1, rfl, ?_, ?_⟩, fun st h => ⟨true, st - 1, rfl, ?_, by simp⟩⟩
    · simp [h]
    · simp [h]
    · simp only [List.length_append, List.length_cons, List.length_nil] at h
      omega
  · intro p m x idx id _ _
    refine ⟨fun st h => ⟨decide (st ≤ d), st + 1, rfl, ?_, ?_⟩, fun st h => ⟨true, st - 1, rfl, ?_, by simp⟩⟩
    · simp [h]
    · simp [h]
    · simp only [List.length_append, List.length_cons, List.length_nil] at h
      omega
  · intro p m x idx _ _
    refine ⟨fun st => st = p.length + 1, fun st h => ⟨decide (st ≤ d), st, rfl, ?_, h⟩, fun st h => ⟨true, st, rfl, h, by simp⟩⟩
    simp [h]

/-- the last step of the path is not an array element with an index of `n` or more -/
def ShortIndex (n : Int) (p : Path) : Prop := ∀ i, p.getLast? = some (.elem i) → (i : Int) < n

theorem shortIndex_append {n : Int} {p : Path} {m : MemberInfo} {idx : Option Nat} :
    filterArrayElement n idx = true ↔ ShortIndex n (p ++ [stepOf m idx]) := by
  cases idx with
  | none => simp [filterArrayElement, ShortIndex, stepOf]
  | some i => simp [filterArrayElement, ShortIndex, stepOf]

theorem isCompound_unique {n : Node} {id id' : Nat} {o o' : Val} (h : n.IsCompound id o) (h' : n.IsCompound id' o') :
    id = id' ∧ o = o' := by
  cases h with
  | root => cases h'; exact ⟨rfl, rfl⟩
  | item ht _ =>
    cases h' with
    | item ht' _ =>
      rw [ht] at ht'
      simp only [TypeInfo.compound.injEq] at ht'
      exact ⟨ht', rfl⟩

theorem numbered_inj {I : TypeInfos} (hI : I.Numbered) {id : Nat} {m m' : MemberInfo} (h : m ∈ (I id).fields)
    (h' : m' ∈ (I id).fields) (he : m.prop = m'.prop) : m = m' := by
  obtain ⟨k, hk⟩ := List.getElem?_of_mem h
  obtain ⟨k', hk'⟩ := List.getElem?_of_mem h'
  have h1 := hI id k m hk
  have h2 := hI id k' m' hk'
  have : k = k' := by omega
  subst this
  rw [hk] at hk'
  simpa using hk'

theorem fieldOf_unique {I : TypeInfos} (hI : I.Numbered) {id : Nat} {o : Val} {m m' : MemberInfo} {x x' : Val}
    (h : FieldOf I id o m x) (h' : FieldOf I id o m' x') (he : m.prop = m'.prop) : m = m' ∧ x = x' := by
  cases h with
  | struct hk hm hv hg =>
    cases h' with
    | struct _ hm' hv' hg' =>
      have := numbered_inj hI hm hm' he
      subst this
      rw [hv] at hv'
      simp only [Option.some.injEq] at hv'
      subst hv'
      rw [hg] at hg'
      exact ⟨rfl, by simpa using hg'⟩
    | chosen hc _ _ => exact absurd hk (Walker.kind_of_choiceTag hc)
  | chosen hc hm hg =>
    cases h' with
    | struct hk _ _ _ => exact absurd hk (Walker.kind_of_choiceTag hc)
    | chosen hc' hm' hg' =>
      have := numbered_inj hI (List.mem_of_getElem? hm) (List.mem_of_getElem? hm') he
      subst this
      rw [hg] at hg'
      exact ⟨rfl, by simpa using hg'⟩

theorem child_unique {I : TypeInfos} (hI : I.Numbered) {n n₁ n₂ : Node} {s : Step} (h : Child I n s n₁) (h' : Child I n s n₂) :
    n₁ = n₂ := by
  generalize hs : s = t at h'
  cases h with
  | elem hx =>
    cases h' with
    | elem hx' =>
      simp only [Step.elem.injEq] at hs
      subst hs
      rw [hx] at hx'
      simp only [Option.some.injEq] at hx'
      rw [hx']
    | field hc _ => cases hc
  | field hc hf =>
    cases h' with
    | elem _ => cases hc
    | field hc' hf' =>
      obtain ⟨rfl, rfl⟩ := isCompound_unique hc hc'
      simp only [Step.field.injEq] at hs
      obtain ⟨rfl, rfl⟩ := fieldOf_unique hI hf hf' hs.1
      rfl

theorem hasNode_unique {I : TypeInfos} (hI : I.Numbered) {n n₁ n₂ : Node} {p : Path} (h : HasNode I n p n₁) (h' : HasNode I n p n₂) :
    n₁ = n₂ := by
  induction h with
  | refl => cases h'; rfl
  | step hc _ ih =>
    cases h' with
    | step hc' h' =>
      have := child_unique hI hc hc'
      subst this
      exact ih h'

theorem shortIndex_none {I : TypeInfos} (hI : I.Numbered) {root : Node} {n : Int} {p : Path} {m : MemberInfo} {x : Val}
    {idx : Option Nat} (hn : HasNode I root (p ++ [stepOf m idx]) (.item m x)) (h : filterArrayElement n idx = false) :
    NoneAfter I root (fun p _ => ShortIndex n p) p (stepOf m idx) := by
  intro s' n' hi hn' hs
  cases idx with
  | none => simp [filterArrayElement] at h
  | some i =>
    simp only [filterArrayElement, decide_eq_false_iff_not, stepOf, Step.index] at h hi
    obtain ⟨n₁, h1, h2⟩ := hn.unsnoc
    cases s' with
    | elem j =>
      have := hs j (by simp)
      simp only [Step.index] at hi
      omega
    | field k name =>
      obtain ⟨n₂, h3, h4⟩ := hn'.unsnoc
      have := hasNode_unique hI h1 h3
      subst this
      cases h2 with
      | elem _ =>
        cases h4 with
        | field hc _ => cases hc

theorem arrayLengthFilter_path {I : TypeInfos} (hI : I.Numbered) (root : Node) (n : Int) :
    PathFilter I root (arrayLengthFilter n) (fun _ _ _ => True) (fun p _ => ShortIndex n p) := by
  constructor
  · intro p m xs _
    exact ⟨fun st _ => ⟨true, st, rfl, by simp [ShortIndex, stepOf], trivial⟩, fun st _ => ⟨true, st, rfl, trivial, by simp⟩⟩
  · intro p m x idx id hn _
    exact ⟨fun st _ => ⟨filterArrayElement n idx, st, rfl, shortIndex_append, trivial⟩,
      fun st _ => ⟨filterArrayElement n idx, st, rfl, trivial, shortIndex_none hI hn⟩⟩
  · intro p m x idx hn _
    exact ⟨fun _ => True, fun st _ => ⟨filterArrayElement n idx, st, rfl, shortIndex_append, trivial⟩,
      fun st _ => ⟨filterArrayElement n idx, st, rfl, trivial, shortIndex_none hI hn⟩⟩

theorem pathFilterCall_cons {σ τ : Type} {I : TypeInfos} {root : Node} {acc : Path → Node → Prop} {accs : List (Path → Node → Prop)}
    {p : Path} {s : Step} {n : Node} {out ins : σ → Prop} {outs inss : τ → Prop} {b a : {τ : Type} → WalkFilter τ → M τ Bool}
    {F : WalkFilter σ} {Fs : Filters τ} (h : PathFilterCall I root acc p s n out ins (b F) (a F))
    (hs : ∀ x : Bool, (∀ st, outs st → ∃ c st', Fs.apply b x st = (.ok c, st') ∧
        (c = true ↔ x = true ∧ allOf accs (p ++ [s]) n) ∧ inss st') ∧
      ∀ st, inss st → ∃ c st', Fs.apply a x st = (.ok c, st') ∧ outs st' ∧
        (c = false → x = false ∨ NoneAfter I root (allOf accs) p s)) :
    ∀ x : Bool, (∀ st, out st.1 ∧ outs st.2 → ∃ c st', (Filters.cons F Fs).apply b x st = (.ok c, st') ∧
        (c = true ↔ x = true ∧ allOf (acc :: accs) (p ++ [s]) n) ∧ ins st'.1 ∧ inss st'.2) ∧
      ∀ st, ins st.1 ∧ inss st.2 → ∃ c st', (Filters.cons F Fs).apply a x st = (.ok c, st') ∧ (out st'.1 ∧ outs st'.2) ∧
        (c = false → x = false ∨ NoneAfter I root (allOf (acc :: accs)) p s) := by
  intro x
  constructor
  · rintro ⟨s₁, s₂⟩ ⟨h1, h2⟩
    obtain ⟨c₁, s₁', e₁, i₁, r₁⟩ := h.before s₁ h1
    obtain ⟨c₂, s₂', e₂, i₂, r₂⟩ := (hs (x && c₁)).1 s₂ h2
    refine ⟨c₂, (s₁', s₂'), by simp [Filters.apply, e₁, e₂], ?_, r₁, r₂⟩
    rw [i₂]
    simp [allOf, i₁, and_assoc]
  · rintro ⟨s₁, s₂⟩ ⟨h1, h2⟩
    obtain ⟨c₁, s₁', e₁, r₁, i₁⟩ := h.after s₁ h1
    obtain ⟨c₂, s₂', e₂, r₂, i₂⟩ := (hs (x && c₁)).2 s₂ h2
    refine ⟨c₂, (s₁', s₂'), by simp [Filters.apply, e₁, e₂], ⟨r₁, r₂⟩, ?_⟩
    intro hc
    rcases i₂ hc with h3 | h3
    · simp only [Bool.and_eq_false_iff] at h3
      rcases h3 with h3 | h3
      · exact .inl h3
      · exact .inr fun s' n' hi hn ha => i₁ h3 s' n' hi hn (ha acc (by simp))
    · exact .inr fun s' n' hi hn ha => h3 s' n' hi hn fun acc hacc => ha acc (by simp [hacc])

theorem filters_path {σ : Type} {I : TypeInfos} {root : Node} {Fs : Filters σ} {rep : Bool → Path → σ → Prop}
    {accs : List (Path → Node → Prop)} (h : Filters.Path I root Fs rep accs) :
    (∀ p m xs, HasNode I root (p ++ [stepOf m none]) (.array m xs) → ∀ x : Bool,
      (∀ st, rep false p st → ∃ c st', Fs.apply (fun F => F.beforeArray xs m) x st = (.ok c, st') ∧
        (c = true ↔ x = true ∧ allOf accs (p ++ [stepOf m none]) (.array m xs)) ∧ rep true (p ++ [stepOf m none]) st') ∧
      ∀ st, rep true (p ++ [stepOf m none]) st → ∃ c st', Fs.apply (fun F => F.afterArray xs m) x st = (.ok c, st') ∧
        rep false p st' ∧ (c = false → x = false ∨ NoneAfter I root (allOf accs) p (stepOf m none))) ∧
    (∀ p m v idx id, HasNode I root (p ++ [stepOf m idx]) (.item m v) → (Node.item m v).IsCompound id v → ∀ x : Bool,
      (∀ st, rep idx.isSome p st → ∃ c st', Fs.apply (fun F => F.beforeCompound v m idx) x st = (.ok c, st') ∧
        (c = true ↔ x = true ∧ allOf accs (p ++ [stepOf m idx]) (.item m v)) ∧ rep false (p ++ [stepOf m idx]) st') ∧
      ∀ st, rep false (p ++ [stepOf m idx]) st → ∃ c st', Fs.apply (fun F => F.afterCompound v m idx) x st = (.ok c, st') ∧
        rep idx.isSome p st' ∧ (c = false → x = false ∨ NoneAfter I root (allOf accs) p (stepOf m idx))) ∧
    (∀ p m v idx, HasNode I root (p ++ [stepOf m idx]) (.item m v) → (∀ id, ¬ (Node.item m v).IsCompound id v) →
      ∃ inside : σ → Prop, ∀ x : Bool,
      (∀ st, rep idx.isSome p st → ∃ c st', Fs.apply (fun F => F.beforeValue v m idx) x st = (.ok c, st') ∧
        (c = true ↔ x = true ∧ allOf accs (p ++ [stepOf m idx]) (.item m v)) ∧ inside st') ∧
      ∀ st, inside st → ∃ c st', Fs.apply (fun F => F.afterValue v m idx) x st = (.ok c, st') ∧
        rep idx.isSome p st' ∧ (c = false → x = false ∨ NoneAfter I root (allOf accs) p (stepOf m idx))) := by
  induction h with
  | nil =>
    refine ⟨?_, ?_, ?_⟩
    · intro p m xs _ x
      exact ⟨fun st _ => ⟨x, st, rfl, by simp [allOf], trivial⟩, fun st _ => ⟨x, st, rfl, trivial, fun h => .inl h⟩⟩
    · intro p m v idx id _ _ x
      exact ⟨fun st _ => ⟨x, st, rfl, by simp [allOf], trivial⟩, fun st _ => ⟨x, st, rfl, trivial, fun h => .inl h⟩⟩
    · intro p m v idx _ _
      exact ⟨fun _ => True, fun x => ⟨fun st _ => ⟨x, st, rfl, by simp [allOf], trivial⟩,
        fun st _ => ⟨x, st, rfl, trivial, fun h => .inl h⟩⟩⟩
  | cons hF _ ih =>
    obtain ⟨ih1, ih2, ih3⟩ := ih
    refine ⟨?_, ?_, ?_⟩
    · intro p m xs hn
      exact pathFilterCall_cons (b := fun F => F.beforeArray xs m) (a := fun F => F.afterArray xs m) (hF.array p m xs hn)
        (ih1 p m xs hn)
    · intro p m v idx id hn hc
      exact pathFilterCall_cons (b := fun F => F.beforeCompound v m idx) (a := fun F => F.afterCompound v m idx)
        (hF.compound p m v idx id hn hc) (ih2 p m v idx id hn hc)
    · intro p m v idx hn hc
      obtain ⟨ins, h1⟩ := hF.value p m v idx hn hc
      obtain ⟨inss, h2⟩ := ih3 p m v idx hn hc
      exact ⟨fun st => ins st.1 ∧ inss st.2, pathFilterCall_cons (b := fun F => F.beforeValue v m idx)
        (a := fun F => F.afterValue v m idx) h1 h2⟩

theorem andFilter_path {σ : Type} {I : TypeInfos} {root : Node} {Fs : Filters σ} {rep : Bool → Path → σ → Prop}
    {accs : List (Path → Node → Prop)} (h : Filters.Path I root Fs rep accs) :
    PathFilter I root (andFilter Fs) rep (allOf accs) := by
  obtain ⟨h1, h2, h3⟩ := filters_path h
  constructor
  · intro p m xs hn
    exact ⟨fun st hs => by simpa [andFilter] using (h1 p m xs hn true).1 st hs, fun st hs => by simpa [andFilter] using (h1 p m xs hn true).2 st hs⟩
  · intro p m v idx id hn hc
    exact ⟨fun st hs => by simpa [andFilter] using (h2 p m v idx id hn hc true).1 st hs,
      fun st hs => by simpa [andFilter] using (h2 p m v idx id hn hc true).2 st hs⟩
  · intro p m v idx hn hc
    obtain ⟨ins, hh⟩ := h3 p m v idx hn hc
    exact ⟨ins, fun st hs => by simpa [andFilter] using (hh true).1 st hs, fun st hs => by simpa [andFilter] using (hh true).2 st hs⟩

theorem visited_allOf {I : TypeInfos} (hI : I.Numbered) {accs : List (Path → Node → Prop)} {p r : Path} {n n' : Node}
    (hn : HasNode I n r n') : Visited I (allOf accs) p n r n' ↔ ∀ acc ∈ accs, Visited I acc p n r n' := by
  constructor
  · intro h acc hacc
    clear hn
    induction h with
    | refl h => exact .refl (h acc hacc)
    | step h hc _ ih => exact .step (h acc hacc) hc ih
  · intro h
    induction hn generalizing p with
    | refl =>
      refine .refl fun acc hacc => ?_
      exact (h acc hacc).accepted
    | @step n n₁ n' s r hc hn ih =>
      refine .step (fun acc hacc => ?_) hc (ih fun acc hacc => ?_)
      · cases h acc hacc with
        | step ha _ _ => exact ha
      · cases h acc hacc with
        | step _ hc' hv =>
          have := child_unique hI hc hc'
          subst this
          exact hv

end Zserio
