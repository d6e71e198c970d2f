import Verif.Lemmas.CodecMono
import Verif.Lemmas.ValidInit
import Verif.Spec.Depth
set_option linter.unusedSimpArgs false
/-
Setting offsets does not nest objects deeper, and objects which are not nested deeper than the limit do not meet it.
-/
namespace Zserio

theorem depth_mem {v : Val} : ∀ {vs : List Val}, v ∈ vs → v.depth ≤ Val.depthList vs
  | u :: us, h => by
    rcases List.mem_cons.1 h with rfl | h
    · simp only [Val.depthList]; omega
    · have := depth_mem h
      simp only [Val.depthList]; omega

theorem depthList_le {n : Nat} : ∀ {vs : List Val}, (∀ v ∈ vs, v.depth ≤ n) → Val.depthList vs ≤ n
  | [], _ => by simp [Val.depthList]
  | v :: vs, h => by
    have h1 := h v (by simp)
    have h2 := depthList_le fun u hu => h u (List.mem_cons_of_mem v hu)
    simp only [Val.depthList]; omega

theorem depthList_append (vs us : List Val) : Val.depthList (vs ++ us) = max (Val.depthList vs) (Val.depthList us) := by
  induction vs with
  | nil => simp [Val.depthList]
  | cons v vs ih => simp only [List.cons_append, Val.depthList, ih]; omega

theorem depthList_set {u : Val} {n : Nat} {vs : List Val} {i : Nat} (h : Val.depthList vs ≤ n) (hu : u.depth ≤ n) :
    Val.depthList (vs.set i u) ≤ n := by
  refine depthList_le fun v hv => ?_
  rcases List.mem_or_eq_of_mem_set hv with hv | rfl
  · exact Nat.le_trans (depth_mem hv) h
  · exact hu

theorem setOffset_depth {field p : Nat} {fs fs' : List Val} (h : setOffset field fs p = .ok fs') : Val.depthList fs' ≤ Val.depthList fs := by
  obtain ⟨v, -, h⟩ := except_bind_ok h
  split at h
  · cases h
    exact depthList_set (Nat.le_refl _) (by simp [Val.depth])
  · cases h

theorem setOffsetAt_depth {field i p : Nat} {fs fs' : List Val} (h : setOffsetAt field i p fs = .ok fs') :
    Val.depthList fs' ≤ Val.depthList fs := by
  obtain ⟨v, -, h⟩ := except_bind_ok h
  split at h
  · rename_i u hu
    obtain ⟨xs, hx, h⟩ := except_bind_ok h
    split at h
    · cases h
      have hm := depth_mem (List.mem_of_getElem? hu)
      rw [Mono.asArr_ok hx] at hm
      simp only [Val.depth] at hm
      refine depthList_set (Nat.le_refl _) ?_
      simp only [Val.depth]
      exact depthList_set hm (by simp [Val.depth])
    · cases h
  · cases h

/-- `initialize_offsets` does not nest deeper -/
def Methods.Flat (m : Methods) : Prop := ∀ mode c p v e v' c', m.initOffsets mode c p v = .ok (e, v', c') → v'.depth ≤ v.depth

def Codec.Flat (k : Codec) : Prop := ∀ mode c p v e v' c', k.initOffsets mode c p v = .ok (e, v', c') → v'.depth ≤ v.depth

theorem methods_flat {codecs : Nat → Codec} (hk : ∀ id, (codecs id).Flat) {env : Env} {t : ElemType} {m : Methods}
    (h : t.methods codecs env = .ok m) : m.Flat := by
  intro mode c p v e v' c' hi
  by_cases hc : ∃ id args, t = .compound id args
  · obtain ⟨id, args, rfl⟩ := hc
    cases h
    exact hk id mode c p v e v' c' hi
  · have h' : t.methods (fun _ => Codec.limit) env = .ok m := by
      cases t with
      | compound id args => exact absurd ⟨id, args, rfl⟩ hc
      | _ => exact h
    have hu : ∀ id : Nat, ((fun _ => Codec.limit) id : Codec).Unchanged := by
      intro id mode c p v e v' c' h
      cases h
    rw [methods_unchanged hu h' _ _ _ _ _ _ _ hi]

/-- the setter of an array does not nest deeper -/
def FlatSetter (set : Option (Nat → Nat → List Val → Except Err (List Val))) : Prop :=
  ∀ s, set = some s → ∀ i p fs fs', s i p fs = .ok fs' → Val.depthList fs' ≤ Val.depthList fs

theorem offsetStep_flat {set : Option (Nat → Nat → List Val → Except Err (List Val))} (hs : FlatSetter set) {p i p' : Nat} {s s' : List Val}
    (h : Array'.offsetStep set p i s = .ok (p', s')) : Val.depthList s' ≤ Val.depthList s := by
  unfold Array'.offsetStep at h
  split at h
  · obtain ⟨s1, h1, h2⟩ := except_bind_ok h
    cases h2
    exact hs _ rfl _ _ _ _ h1
  · cases h
    exact Nat.le_refl _

theorem initLoop_flat {m : Methods} (hm : m.Flat) {set : Option (Nat → Nat → List Val → Except Err (List Val))} (hs : FlatSetter set) :
    ∀ (xs : List Val) (p i : Nat) (s : List Val) (e : Nat) (ys : List Val) (s' : List Val),
    Array'.initOffsetsLoop m.traits set p i xs s = .ok (e, ys, s') → Val.depthList ys ≤ Val.depthList xs ∧ Val.depthList s' ≤ Val.depthList s
  | [], p, i, s, e, ys, s', h => by
    simp only [Array'.initOffsetsLoop, Except.ok.injEq, Prod.mk.injEq] at h
    obtain ⟨-, rfl, rfl⟩ := h
    exact ⟨Nat.le_refl _, Nat.le_refl _⟩
  | x :: xs, p, i, s, e, ys, s', h => by
    obtain ⟨⟨p1, s1⟩, h1, g1⟩ := except_bind_ok h
    have e1 := offsetStep_flat hs h1
    obtain ⟨⟨p2, x2⟩, h2, g2⟩ := except_bind_ok g1
    obtain ⟨⟨p3, v3, c3⟩, h4, h5⟩ := except_bind_ok h2
    cases h5
    have e2 := hm _ _ _ _ _ _ _ h4
    obtain ⟨⟨p6, ys', s6⟩, h6, g3⟩ := except_bind_ok g2
    obtain ⟨e3, e4⟩ := initLoop_flat hm hs xs _ _ _ _ _ _ h6
    cases g3
    simp only [Val.depthList]
    exact ⟨by omega, by omega⟩

theorem initPackedLoop_flat {m : Methods} (hm : m.Flat) {set : Option (Nat → Nat → List Val → Except Err (List Val))} (hs : FlatSetter set) :
    ∀ (xs : List Val) (c : Ctx) (p i : Nat) (s : List Val) (e : Nat) (ys : List Val) (s' : List Val),
    Array'.initOffsetsPackedLoop m.packedTraits set c p i xs s = .ok (e, ys, s') →
      Val.depthList ys ≤ Val.depthList xs ∧ Val.depthList s' ≤ Val.depthList s
  | [], c, p, i, s, e, ys, s', h => by
    simp only [Array'.initOffsetsPackedLoop, Except.ok.injEq, Prod.mk.injEq] at h
    obtain ⟨-, rfl, rfl⟩ := h
    exact ⟨Nat.le_refl _, Nat.le_refl _⟩
  | x :: xs, c, p, i, s, e, ys, s', h => by
    obtain ⟨⟨p1, s1⟩, h1, g1⟩ := except_bind_ok h
    have e1 := offsetStep_flat hs h1
    obtain ⟨⟨p2, x2, c2⟩, h2, g2⟩ := except_bind_ok g1
    have e2 := hm _ _ _ _ _ _ _ h2
    obtain ⟨⟨p6, ys', s6⟩, h6, g3⟩ := except_bind_ok g2
    obtain ⟨e3, e4⟩ := initPackedLoop_flat hm hs xs _ _ _ _ _ _ _ h6
    cases g3
    simp only [Val.depthList]
    exact ⟨by omega, by omega⟩

namespace FieldDef
variable {codecs : Nat → Codec} {f : FieldDef}

theorem flatSetter (a : ArrayDef) : FlatSetter (f.arrayCfg a).setOffset := by
  intro s hs i p fs fs' h
  simp only [arrayCfg] at hs
  split at hs
  · split at hs
    · cases hs
      exact setOffsetAt_depth h
    · cases hs
  · cases hs

theorem initOffsets_flat (hk : ∀ id, (codecs id).Flat) {env : Env} {slot : Nat} {present : Bool}
    {mode : Mode} {c : Ctx} {p : Nat} {v : Val} {e : Nat} {fields : List Val} {v' : Val} {c' : Ctx}
    (h : f.initOffsets codecs env slot present mode c p v = .ok (e, fields, v', c')) :
    Val.depthList fields ≤ Val.depthList env.fields ∧ v'.depth ≤ v.depth := by
  have hval : ∀ (env : Env) p c, f.initOffsetsValue codecs env slot mode c p v = .ok (e, fields, v', c') →
      Val.depthList fields ≤ Val.depthList env.fields ∧ v'.depth ≤ v.depth := by
    intro env p c h
    obtain ⟨m, hm, h1⟩ := except_bind_ok h
    clear h
    have hu := methods_flat hk hm
    cases ha : f.array with
    | none =>
      rw [ha] at h1
      obtain ⟨⟨p1, v1, c1⟩, h2, h3⟩ := except_bind_ok h1
      have := hu _ _ _ _ _ _ _ h2
      cases h3
      exact ⟨Nat.le_refl _, this⟩
    | some a =>
      rw [ha] at h1
      obtain ⟨xs, h2, h3⟩ := except_bind_ok h1
      clear h1
      obtain ⟨⟨p1, xs1, fs1⟩, h4, h5⟩ := except_bind_ok h3
      cases h5
      have hx : Val.depthList xs1 ≤ Val.depthList xs ∧ Val.depthList fields ≤ Val.depthList env.fields := by
        unfold initOffsetsArray at h4
        split at h4
        · obtain ⟨q, -, h6⟩ := except_bind_ok h4
          split at h6
          · obtain ⟨c2, -, h7⟩ := except_bind_ok h6
            exact initPackedLoop_flat hu (flatSetter a) _ _ _ _ _ _ _ _ h7
          · simp only [Except.ok.injEq, Prod.mk.injEq] at h6
            obtain ⟨-, rfl, rfl⟩ := h6
            exact ⟨Nat.le_refl _, Nat.le_refl _⟩
        · obtain ⟨q, -, h6⟩ := except_bind_ok h4
          exact initLoop_flat hu (flatSetter a) _ _ _ _ _ _ _ h6
      refine ⟨hx.2, ?_⟩
      rw [Mono.asArr_ok h2]
      simpa only [Val.depth] using hx.1
  have hopt : ∀ p, f.initOffsetsOptional codecs env slot mode c p v = .ok (e, fields, v', c') →
      Val.depthList fields ≤ Val.depthList env.fields ∧ v'.depth ≤ v.depth := by
    intro p h
    obtain ⟨used, -, h1⟩ := except_bind_ok h
    split at h1
    · obtain ⟨fs, h2, h3⟩ := except_bind_ok h1
      have hfs : Val.depthList fs ≤ Val.depthList env.fields := by
        unfold initOwnOffset at h2
        split at h2
        · exact setOffset_depth h2
        · cases h2; exact Nat.le_refl _
      obtain ⟨e1, e2⟩ := hval _ _ _ h3
      exact ⟨Nat.le_trans e1 hfs, e2⟩
    · simp only [Except.ok.injEq, Prod.mk.injEq] at h1
      obtain ⟨-, rfl, rfl, -⟩ := h1
      exact ⟨Nat.le_refl _, Nat.le_refl _⟩
  unfold initOffsets at h
  split at h
  · split at h
    · exact hopt _ h
    · simp only [Except.ok.injEq, Prod.mk.injEq] at h
      obtain ⟨-, rfl, rfl, -⟩ := h
      exact ⟨Nat.le_refl _, Nat.le_refl _⟩
  · exact hopt _ h

end FieldDef

theorem Struct.initOffsets_flat {codecs : Nat → Codec} (hk : ∀ id, (codecs id).Flat) {ps : List Int} {k base : Nat}
    {mode : Mode} : ∀ (fs : List FieldDef) (prior vs : List Val) (c : Ctx) (p e : Nat)
    (vs' : List Val) (c' : Ctx), Struct.initOffsets codecs ps k base mode fs prior vs c p = .ok (e, vs', c') →
    Val.depthList vs' ≤ Val.depthList (prior ++ vs)
  | [], prior, vs, c, p, e, vs', c', h => by
    cases vs with
    | nil =>
      simp only [Struct.initOffsets, Except.ok.injEq, Prod.mk.injEq] at h
      rw [List.append_nil, h.2.1]
    | cons v vs => cases h
  | f :: fs, prior, vs, c, p, e, vs', c', h => by
    cases vs with
    | nil => cases h
    | cons v vs =>
      obtain ⟨⟨p1, prior1, v1, c1⟩, h1, h2⟩ := except_bind_ok h
      obtain ⟨e1, e2⟩ := FieldDef.initOffsets_flat hk h1
      have e3 := Struct.initOffsets_flat hk fs _ _ _ _ _ _ _ h2
      dsimp only at e1
      simp only [depthList_append, Val.depthList] at e3 ⊢
      omega

theorem Branch.initOffsets_flat {codecs : Nat → Codec} (hk : ∀ id, (codecs id).Flat) {f : Option FieldDef}
    {ps : List Int} {slot : Nat} {mode : Mode} {c : Ctx} {p : Nat} {v : Val} {e : Nat}
    {v' : Val} {c' : Ctx} (h : Branch.initOffsets codecs f ps slot mode c p v = .ok (e, v', c')) : v'.depth ≤ v.depth := by
  cases f with
  | none =>
    simp only [Branch.initOffsets, Except.ok.injEq, Prod.mk.injEq] at h
    rw [h.2.1]
  | some f =>
    obtain ⟨⟨p1, fs, v1, c1⟩, h1, h2⟩ := except_bind_ok h
    have := (FieldDef.initOffsets_flat hk h1).2
    simp only [Except.ok.injEq, Prod.mk.injEq] at h2
    rw [← h2.2.1]
    exact this

theorem Schema.flat (defs : Schema) : ∀ n id, (defs.codec n id).Flat
  | 0, id => by
    intro mode c p v e v' c' h
    cases h
  | n + 1, id => by
    intro mode c p v e v' c' h
    have hk := Schema.flat defs n
    unfold Schema.codec at h
    cases hd : defs id with
    | struct fs =>
      rw [hd] at h
      cases v <;> try cases h
      rename_i ps k tag vs
      obtain ⟨⟨e1, vs1, c1⟩, h1, h2⟩ := except_bind_ok h
      cases h2
      have := Struct.initOffsets_flat hk fs _ _ _ _ _ _ _ h1
      simp only [List.nil_append] at this
      simp only [Val.depth]
      omega
    | union fs =>
      rw [hd] at h
      match v, h with
      | .obj ps k tag [v], h =>
        obtain ⟨⟨n1, c1⟩, -, h1⟩ := except_bind_ok h
        obtain ⟨f, -, h2⟩ := except_bind_ok h1
        obtain ⟨⟨e3, v3, c3⟩, h3, h4⟩ := except_bind_ok h2
        cases h4
        have := Branch.initOffsets_flat hk h3
        simp only [Val.depth, Val.depthList]
        omega
    | choice selector cases default =>
      rw [hd] at h
      match v, h with
      | .obj ps k tag [v], h =>
        obtain ⟨⟨f, slot⟩, -, h2⟩ := except_bind_ok h
        obtain ⟨⟨e3, v3, c3⟩, h3, h4⟩ := except_bind_ok h2
        cases h4
        have := Branch.initOffsets_flat hk h3
        simp only [Val.depth, Val.depthList]
        omega

/-- a limit above the depth of the object is not met -/
theorem Mono.codec_depth (defs : Schema) : ∀ n m, n ≤ m → ∀ id,
    Mono.CodecLe False (fun v => v.depth < n) (defs.codec n id) (defs.codec m id)
  | 0, m, _, id => ⟨fun _ _ _ h => absurd h (by simp), fun _ _ _ _ h => absurd h (by simp), fun _ _ _ _ h => absurd h (by simp),
      fun _ _ _ h => absurd h (by simp), fun h => h.elim⟩
  | n + 1, m + 1, hle, id => by
    refine Mono.compound (Mono.codec_depth defs n m (by omega)) _ (fun ps k tag vs h v hv => ?_) (defs id)
    have hd := depth_mem hv
    simp only [Val.depth] at h
    refine ⟨by omega, ?_⟩
    rintro xs rfl x hx
    have := depth_mem hx
    simp only [Val.depth] at hd
    show x.depth < n
    omega

end Zserio
