import Verif.Lemmas.WalkerInstances
/-
The walker succeeds only if all fields can be read.
-/
set_option linter.unusedSimpArgs false
namespace Zserio

theorem readable_intro {I : TypeInfos} {n : Node} (h : ∀ id o, n.IsCompound id o → ReadableObject I id o)
    (hc : ∀ s n', Child I n s n' → Readable I n') : Readable I n := by
  intro p n' id o hn hco
  cases hn with
  | refl => exact h id o hco
  | step hch hn => exact hc _ _ hch _ _ id o hn hco

namespace Walker

/-- a walk with the default filter never stops a loop -/
def Goes (w : Walk Unit Bool) : Prop := ∀ st c st' es, w st = (.ok c, st', es) → c = true

theorem goes_simple (v : Val) (m : MemberInfo) (idx : Option Nat) : Goes (simple defaultFilter v m idx) := by
  intro st c st' es h
  simp only [simple, Walk.filter, defaultFilter] at h
  obtain ⟨b, s₁, e₁, e₂, h1, h2, _⟩ := Walk.bind_inv h
  cases b with
  | false =>
    cases h2
    rfl
  | true =>
    simp only [if_true] at h2
    obtain ⟨_, s₁, e₁, e₂, h3, h4, _⟩ := Walk.bind_inv h2
    cases h4
    rfl

theorem compound_inv {v : Val} {m : MemberInfo} {idx : Option Nat} {w : Walk Unit Unit} {st st' : Unit} {c : Bool} {es : List Event}
    (h : compound defaultFilter v m idx w st = (.ok c, st', es)) : c = true ∧ ∃ es', w () = (.ok (), (), es') := by
  simp only [compound, Walk.filter, defaultFilter] at h
  obtain ⟨b, s₁, e₁, e₂, h1, h2, _⟩ := Walk.bind_inv h
  cases h1
  simp only [if_true] at h2
  obtain ⟨_, s₁, e₁, e₂, h3, h4, _⟩ := Walk.bind_inv h2
  obtain ⟨_, s₂, e₃, e₄, h5, h6, _⟩ := Walk.bind_inv h4
  obtain ⟨_, s₂, e₃, e₄, h7, h8, _⟩ := Walk.bind_inv h6
  cases h8
  exact ⟨rfl, _, h5⟩

theorem array_inv {xs : List Val} {m : MemberInfo} {w : Walk Unit Unit} {st st' : Unit} {c : Bool} {es : List Event}
    (h : array defaultFilter xs m w st = (.ok c, st', es)) : c = true ∧ ∃ es', w () = (.ok (), (), es') := by
  simp only [array, Walk.filter, defaultFilter] at h
  obtain ⟨b, s₁, e₁, e₂, h1, h2, _⟩ := Walk.bind_inv h
  cases h1
  simp only [if_true] at h2
  obtain ⟨_, s₁, e₁, e₂, h3, h4, _⟩ := Walk.bind_inv h2
  obtain ⟨_, s₂, e₃, e₄, h5, h6, _⟩ := Walk.bind_inv h4
  obtain ⟨_, s₂, e₃, e₄, h7, h8, _⟩ := Walk.bind_inv h6
  cases h8
  exact ⟨rfl, _, h5⟩

/-- the walk succeeds in some way -/
def Done {α : Type} (w : Walk Unit α) : Prop := ∃ c es, w () = (.ok c, (), es)

theorem walkAttr_inv {I : TypeInfos} {fs : List Val} {k : Nat} {m : MemberInfo}
    (h : Done (walkAttr (walkAttrs I defaultFilter fs)[k]? m)) :
    ∃ v x, fs[k]? = some v ∧ m.get v = .ok x ∧ walkAttr (walkAttrs I defaultFilter fs)[k]? m = field I defaultFilter v m := by
  obtain ⟨c, es, h⟩ := h
  rw [walkAttrs_get] at h ⊢
  cases hv : fs[k]? with
  | none =>
    rw [hv] at h
    simp [walkAttr, Walk.throw] at h
  | some v =>
    rw [hv] at h
    simp only [walkAttr, Option.map_some] at h
    obtain ⟨x, _, _, _, h1, h2, _⟩ := Walk.bind_inv h
    simp only [Walk.lift, Prod.mk.injEq] at h1
    have := get_eq h1.1
    subst this
    exact ⟨v, v, rfl, h1.1, walkAttr_ok h1.1⟩

theorem structFields_inv {I : TypeInfos} {fs : List Val} {ms : List MemberInfo}
    (hg : ∀ v ∈ fs, ∀ m, Goes (field I defaultFilter v m))
    (h : Done (structFields (walkAttrs I defaultFilter fs) ms)) :
    ∀ m ∈ ms, ∃ v x, fs[m.prop]? = some v ∧ m.get v = .ok x ∧ Done (field I defaultFilter v m) := by
  induction ms with
  | nil => simp
  | cons m ms ih =>
    obtain ⟨_, es, h⟩ := h
    rw [structFields] at h
    obtain ⟨c, s, e₁, e₂, h1, h2, _⟩ := Walk.bind_inv h
    obtain ⟨v, x, hv, hx, he⟩ := walkAttr_inv ⟨c, e₁, h1⟩
    rw [he] at h1
    have := hg v (List.mem_of_getElem? hv) m _ _ _ _ h1
    subst this
    simp only [if_true] at h2
    intro m' hm'
    rw [List.mem_cons] at hm'
    rcases hm' with rfl | hm'
    · exact ⟨v, x, hv, hx, _, _, h1⟩
    · exact ih ⟨_, _, h2⟩ m' hm'

theorem fields_readable {I : TypeInfos} {ps : List Int} {k : Nat} {tag : Int} {fs : List Val} {id : Nat}
    (hg : ∀ v ∈ fs, ∀ m, Goes (field I defaultFilter v m)) (h : Done (fields (I id) ps tag (walkAttrs I defaultFilter fs))) :
    ReadableObject I id (.obj ps k tag fs) ∧
      ∀ m x, FieldOf I id (.obj ps k tag fs) m x → x ∈ fs ∧ Done (field I defaultFilter x m) := by
  obtain ⟨_, es, h⟩ := h
  rw [fields] at h
  obtain ⟨c, s, e₁, e₂, h1, h2, _⟩ := Walk.bind_inv h
  simp only [Walk.lift, Prod.mk.injEq] at h1
  cases c with
  | none =>
    have hk : (I id).kind = .struct := by
      have := h1.1
      unfold CompoundInfo.choiceTag at this
      split at this
      · assumption
      · simp at this
      · rename_i f _
        cases hf : f ps <;> rw [hf] at this <;> simp [Bind.bind, Except.bind] at this
    have hall := structFields_inv hg ⟨_, _, h2⟩
    refine ⟨.struct hk fun m hm => ?_, ?_⟩
    · obtain ⟨v, x, h3, h4, _⟩ := hall m hm
      exact ⟨v, x, h3, h4⟩
    · intro m x hf
      cases hf with
      | struct _ hm hv hx =>
        obtain ⟨v', x', h3, h4, h5⟩ := hall m hm
        rw [hv] at h3
        simp only [Option.some.injEq] at h3
        subst h3
        have := get_eq hx
        subst this
        exact ⟨List.mem_of_getElem? hv, h5⟩
      | chosen hc _ _ => exact absurd hk (kind_of_choiceTag hc)
  | some t =>
    have hnk := kind_of_choiceTag h1.1
    simp only at h2
    rcases Classical.em (t = UNDEFINED_CHOICE) with rfl | ht
    · refine ⟨.undefined h1.1, ?_⟩
      intro m x hf
      cases hf with
      | struct hk _ _ _ => exact absurd hk hnk
      | @chosen _ _ _ _ _ _ i _ hc _ _ =>
        rw [h1.1] at hc
        simp only [Except.ok.injEq, Option.some.injEq] at hc
        exact absurd hc.symm (undefined_ne i)
    · rw [if_neg ht] at h2
      obtain ⟨i, rfl⟩ : ∃ i : Nat, t = (i : Int) := by
        rcases lt_or_ge t 0 with h0 | h0
        · simp [CompoundInfo.fieldAt, h0, Walk.throw] at h2
        · exact ⟨t.toNat, by omega⟩
      rw [fieldAt_natCast] at h2
      cases hm : (I id).fields[i]? with
      | none =>
        rw [hm] at h2
        simp [Walk.throw] at h2
      | some m =>
        rw [hm] at h2
        simp only at h2
        obtain ⟨c, s', e₃, e₄, h3, h4, _⟩ := Walk.bind_inv h2
        obtain ⟨v, x, hv, hx, he⟩ := walkAttr_inv ⟨c, e₃, h3⟩
        rw [he] at h3
        cases fs with
        | nil => simp at hv
        | cons v' vs =>
          simp only [List.getElem?_cons_zero, Option.some.injEq] at hv
          subst hv
          refine ⟨.chosen h1.1 hm hx, ?_⟩
          intro m' x' hf
          cases hf with
          | struct hk _ _ _ => exact absurd hk hnk
          | @chosen _ _ _ _ _ _ j _ hc hm' hx' =>
            rw [h1.1] at hc
            simp only [Except.ok.injEq, Option.some.injEq, Int.natCast_inj, Int.ofNat_eq_natCast] at hc
            subst hc
            rw [hm] at hm'
            simp only [Option.some.injEq] at hm'
            subst hm'
            have := get_eq hx'
            subst this
            exact ⟨by simp, _, _, h3⟩

theorem notObject_inv {I : TypeInfos} {v : Val} {m : MemberInfo} {idx : Option Nat} {st st' : Unit} {c : Bool} {es : List Event}
    (h : notObject defaultFilter v m idx st = (.ok c, st', es)) : c = true ∧ Readable I (.item m v) := by
  have hno : ∀ (hc : ∀ id, ¬ (Node.item m v).IsCompound id v), Readable I (.item m v) := by
    intro hc
    refine readable_intro ?_ ?_
    · intro id o h
      cases h with
      | item ht hn => exact absurd (.item ht hn) (hc id)
    · intro s n' h
      exact absurd h (not_compound_no_child hc s n')
  by_cases hc : ∃ id, (Node.item m v).IsCompound id v
  · obtain ⟨id, hc⟩ := hc
    cases hc with
    | item ht hn =>
      have : notObject defaultFilter v m idx = compound defaultFilter v m idx (Walk.throw .type) := by
        unfold notObject
        rw [ht]
        cases v <;> simp_all [Val.isNone]
      rw [this] at h
      obtain ⟨_, _, hw⟩ := compound_inv h
      simp [Walk.throw] at hw
  · have hc' : ∀ id, ¬ (Node.item m v).IsCompound id v := fun id h => hc ⟨id, h⟩
    have : notObject defaultFilter v m idx = simple defaultFilter v m idx := by
      unfold notObject
      split
      · rfl
      · rename_i v _ _ id ht hne
        exact absurd (Node.IsCompound.item ht (by cases v <;> simp_all [Val.isNone])) (hc' id)
      · rfl
    rw [this] at h
    exact ⟨goes_simple _ _ _ _ _ _ _ h, hno hc'⟩

theorem child_field {I : TypeInfos} {n n' : Node} {s : Step} {id : Nat} {o : Val} (h : Child I n s n') (hc : n.IsCompound id o) :
    ∃ m x, FieldOf I id o m x ∧ n' = m.node x := by
  cases h with
  | elem _ => cases hc
  | field hc' hf =>
    obtain ⟨rfl, rfl⟩ := isCompound_unique hc hc'
    exact ⟨_, _, hf, rfl⟩

/-- the fields of an object which has been walked are readable -/
theorem object_readable {I : TypeInfos} {ps : List Int} {k : Nat} {tag : Int} {fs : List Val} {id : Nat} {n : Node}
    (hc : n.IsCompound id (.obj ps k tag fs))
    (ih : ∀ v ∈ fs, ∀ m, Goes (field I defaultFilter v m) ∧ (Done (field I defaultFilter v m) → Readable I (m.node v)))
    (h : Done (fields (I id) ps tag (walkAttrs I defaultFilter fs))) : Readable I n := by
  obtain ⟨h1, h2⟩ := fields_readable (k := k) (fun v hv m => (ih v hv m).1) h
  refine readable_intro ?_ ?_
  · intro id' o hc'
    obtain ⟨rfl, rfl⟩ := isCompound_unique hc hc'
    exact h1
  · intro s n' hch
    obtain ⟨m, x, hf, rfl⟩ := child_field hch hc
    obtain ⟨hx, hd⟩ := h2 m x hf
    exact (ih x hx m).2 hd

theorem elements_readable {I : TypeInfos} {m : MemberInfo} {xs : List Val}
    (ih : ∀ v ∈ xs, ∀ i, Goes (element I defaultFilter v m i) ∧ (Done (element I defaultFilter v m i) → Readable I (.item m v)))
    {i : Nat} (h : Done (elements I defaultFilter xs m i)) : ∀ x ∈ xs, Readable I (.item m x) := by
  induction xs generalizing i with
  | nil => simp
  | cons x xs ihx =>
    obtain ⟨_, es, h⟩ := h
    rw [elements] at h
    obtain ⟨c, s, e₁, e₂, h1, h2, _⟩ := Walk.bind_inv h
    have := (ih x (by simp) i).1 _ _ _ _ h1
    subst this
    simp only [if_true] at h2
    intro y hy
    rw [List.mem_cons] at hy
    rcases hy with rfl | hy
    · exact (ih y (by simp) i).2 ⟨_, _, h1⟩
    · exact ihx (fun v hv => ih v (List.mem_cons_of_mem _ hv)) ⟨_, _, h2⟩ y hy

theorem item_readable {I : TypeInfos} {ps : List Int} {k : Nat} {tag : Int} {fs : List Val}
    (ih : ∀ v ∈ fs, ∀ m, Goes (field I defaultFilter v m) ∧ (Done (field I defaultFilter v m) → Readable I (m.node v)))
    (m : MemberInfo) (idx : Option Nat) :
    Goes (object I defaultFilter (.obj ps k tag fs) ps tag (walkAttrs I defaultFilter fs) m idx) ∧
      (Done (object I defaultFilter (.obj ps k tag fs) ps tag (walkAttrs I defaultFilter fs) m idx) →
        Readable I (.item m (.obj ps k tag fs))) := by
  unfold object
  split
  · rename_i id ht
    constructor
    · intro st c st' es h
      exact (compound_inv h).1
    · rintro ⟨c, es, h⟩
      obtain ⟨_, es', hw⟩ := compound_inv h
      exact object_readable (.item ht rfl) ih ⟨_, _, hw⟩
  · rename_i ht
    refine ⟨goes_simple _ _ _, fun _ => ?_⟩
    have hc : ∀ id, ¬ (Node.item m (.obj ps k tag fs)).IsCompound id (.obj ps k tag fs) := by
      intro id hc
      cases hc with
      | item ht' _ => exact ht id ht'
    refine readable_intro ?_ ?_
    · intro id o h
      cases h with
      | item ht' _ => exact absurd ht' (ht id)
    · intro s n' h
      exact absurd h (not_compound_no_child hc s n')

theorem value_readable (I : TypeInfos) (v : Val) :
    (∀ m, Goes (field I defaultFilter v m) ∧ (Done (field I defaultFilter v m) → Readable I (m.node v))) ∧
    (∀ m i, Goes (element I defaultFilter v m i) ∧ (Done (element I defaultFilter v m i) → Readable I (.item m v))) := by
  induction v using Val.induction with
  | h v ih =>
    have hno : ∀ m idx, Goes (notObject defaultFilter v m idx) ∧ (Done (notObject defaultFilter v m idx) → Readable I (.item m v)) := by
      intro m idx
      refine ⟨fun st c st' es h => (notObject_inv (I := I) h).1, ?_⟩
      rintro ⟨c, es, h⟩
      exact (notObject_inv h).2
    cases v with
    | arr xs =>
      refine ⟨?_, fun m i => hno m (some i)⟩
      intro m
      rw [field]
      unfold MemberInfo.node
      simp only
      split
      · constructor
        · intro st c st' es h
          exact (array_inv h).1
        · rintro ⟨c, es, h⟩
          obtain ⟨_, es', hw⟩ := array_inv h
          have hall := elements_readable (fun v hv i => (ih v hv).2 m i) ⟨_, _, hw⟩
          refine readable_intro ?_ ?_
          · intro id o h
            cases h
          · intro s n' h
            cases h with
            | elem hx => exact hall _ (List.mem_of_getElem? hx)
            | field hc _ => cases hc
      · exact hno m none
    | obj ps k tag fs =>
      have ih' : ∀ v ∈ fs, ∀ m, Goes (field I defaultFilter v m) ∧ (Done (field I defaultFilter v m) → Readable I (m.node v)) :=
        fun v hv => (ih v hv).1
      exact ⟨fun m => item_readable ih' m none, fun m i => item_readable ih' m (some i)⟩
    | _ => exact ⟨fun m => hno m none, fun m i => hno m (some i)⟩

theorem walk_readable {I : TypeInfos} {id : Nat} {o : Val} {es : List Event}
    (h : walk I defaultFilter (some (.compound id)) o () = (.ok (), (), es)) : Readable I (.root id o) := by
  change root I defaultFilter id o () = _ at h
  unfold root at h
  obtain ⟨_, st₂, es₁, es₂, h3, h4, rfl⟩ := Walk.bind_inv h
  obtain ⟨_, st₃, es₃, es₄, h5, h6, rfl⟩ := Walk.bind_inv h4
  unfold rootFields at h5
  split at h5
  · exact object_readable .root (fun v _ => (value_readable I v).1) ⟨_, _, h5⟩
  · simp [Walk.throw] at h5

end Walker
end Zserio
