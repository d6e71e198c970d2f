import Verif.Lemmas.OffsetWrite
import Verif.Lemmas.InitArray
set_option linter.unusedSimpArgs false
/-
Helper lemmas on extended fields.
-/
namespace Zserio
open Writer Array'

/-! ### `initialize_offsets` sets offsets but adds no fields -/

theorem offsetStep_length {o : Option Nat} {p i p1 : Nat} {s s1 : List Val}
    (h : offsetStep (o.map setOffsetAt) p i s = .ok (p1, s1)) : s1.length = s.length := by
  rcases o with _ | o
  · simp only [Option.map_none, offsetStep, Except.ok.injEq, Prod.mk.injEq] at h
    rw [h.2]
  · simp only [Option.map_some, offsetStep] at h
    obtain ⟨s2, h1, h2⟩ := except_bind_ok h
    obtain ⟨_, _, _, _, _, rfl⟩ := setOffsetAt_ok h1
    simp only [Except.ok.injEq, Prod.mk.injEq] at h2
    simp [← h2.2]

theorem initOffsetsLoop_length {α : Type} {tr : Traits α} {o : Option Nat} : ∀ {xs xs1 : List α} {p i p1 : Nat} {s s1 : List Val},
    initOffsetsLoop tr (o.map setOffsetAt) p i xs s = .ok (p1, xs1, s1) → s1.length = s.length
  | [], _, _, _, _, _, _, h => by
    simp only [initOffsetsLoop, Except.ok.injEq, Prod.mk.injEq] at h
    rw [h.2.2]
  | x :: xs, _, _, _, _, _, _, h => by
    simp only [initOffsetsLoop] at h
    obtain ⟨⟨p2, s2⟩, h1, h⟩ := except_bind_ok h
    obtain ⟨⟨p3, x3⟩, h2, h⟩ := except_bind_ok h
    obtain ⟨⟨p4, xs4, s4⟩, h3, h⟩ := except_bind_ok h
    simp only [Except.ok.injEq, Prod.mk.injEq] at h
    rw [← h.2.2, initOffsetsLoop_length h3, offsetStep_length h1]

theorem initOffsetsPackedLoop_length {κ α : Type} {pt : PackedTraits κ α} {o : Option Nat} :
    ∀ {xs xs1 : List α} {c : κ} {p i p1 : Nat} {s s1 : List Val},
    initOffsetsPackedLoop pt (o.map setOffsetAt) c p i xs s = .ok (p1, xs1, s1) → s1.length = s.length
  | [], _, _, _, _, _, _, _, h => by
    simp only [initOffsetsPackedLoop, Except.ok.injEq, Prod.mk.injEq] at h
    rw [h.2.2]
  | x :: xs, _, _, _, _, _, _, _, h => by
    simp only [initOffsetsPackedLoop] at h
    obtain ⟨⟨p2, s2⟩, h1, h⟩ := except_bind_ok h
    obtain ⟨⟨p3, x3, c3⟩, h2, h⟩ := except_bind_ok h
    obtain ⟨⟨p4, xs4, s4⟩, h3, h⟩ := except_bind_ok h
    simp only [Except.ok.injEq, Prod.mk.injEq] at h
    rw [← h.2.2, initOffsetsPackedLoop_length h3, offsetStep_length h1]

namespace FieldDef
variable {codecs : Nat → Codec}

theorem initOffsetsArray_length {f : FieldDef} {a : ArrayDef} {m : Methods} {mode : Mode} {p p1 : Nat} {xs xs1 s s1 : List Val}
    (h : f.initOffsetsArray a m mode p xs s = .ok (p1, xs1, s1)) : s1.length = s.length := by
  have hcfg : ∃ o : Option Nat, (f.arrayCfg a).setOffset = o.map setOffsetAt := by
    unfold arrayCfg
    rcases f.offset with _ | ⟨o, _ | _⟩
    · exact ⟨none, rfl⟩
    · exact ⟨none, rfl⟩
    · exact ⟨some o, rfl⟩
  obtain ⟨o, ho⟩ := hcfg
  unfold initOffsetsArray at h
  split at h
  · unfold initOffsetsPacked at h
    obtain ⟨e, h1, h⟩ := except_bind_ok h
    split at h
    · obtain ⟨c, h2, h⟩ := except_bind_ok h
      rw [ho] at h
      exact initOffsetsPackedLoop_length h
    · simp only [Except.ok.injEq, Prod.mk.injEq] at h
      rw [h.2.2]
  · unfold Array'.initOffsets at h
    obtain ⟨e, h1, h⟩ := except_bind_ok h
    rw [ho] at h
    exact initOffsetsLoop_length h

theorem initOffsets_length {f : FieldDef} {env : Env} {slot : Nat} {present : Bool} {mode : Mode} {c c1 : Ctx} {p p1 : Nat}
    {v v1 : Val} {s1 : List Val} (h : f.initOffsets codecs env slot present mode c p v = .ok (p1, s1, v1, c1)) :
    s1.length = env.fields.length := by
  have hval : ∀ {env : Env} {p : Nat}, f.initOffsetsValue codecs env slot mode c p v = .ok (p1, s1, v1, c1) →
      s1.length = env.fields.length := by
    intro env p h
    unfold initOffsetsValue at h
    obtain ⟨m, -, h⟩ := except_bind_ok h
    rcases ha : f.array with _ | a
    · rw [ha] at h
      simp only at h
      obtain ⟨⟨p2, v2, c2⟩, -, h⟩ := except_bind_ok h
      simp only [Except.ok.injEq, Prod.mk.injEq] at h
      rw [h.2.1]
    · rw [ha] at h
      simp only at h
      obtain ⟨xs, -, h⟩ := except_bind_ok h
      obtain ⟨⟨p2, xs2, s2⟩, h2, h⟩ := except_bind_ok h
      simp only [Except.ok.injEq, Prod.mk.injEq] at h
      rw [← h.2.1]
      exact initOffsetsArray_length h2
  have hin : ∀ {p : Nat}, f.initOffsetsInner codecs env slot mode c p v = .ok (p1, s1, v1, c1) →
      s1.length = env.fields.length := by
    intro p h
    unfold initOffsetsInner at h
    obtain ⟨s, hs, h⟩ := except_bind_ok h
    rw [hval h]
    unfold initOwnOffset at hs
    split at hs
    · unfold setOffset at hs
      obtain ⟨_, -, hs⟩ := except_bind_ok hs
      split at hs
      · rw [← Except.ok.inj hs]; simp
      · simp at hs
    · rw [Except.ok.inj hs]
  have hopt : ∀ {p : Nat}, f.initOffsetsOptional codecs env slot mode c p v = .ok (p1, s1, v1, c1) →
      s1.length = env.fields.length := by
    intro p h
    unfold initOffsetsOptional at h
    obtain ⟨used, -, h⟩ := except_bind_ok h
    split at h
    · exact hin h
    · simp only [Except.ok.injEq, Prod.mk.injEq] at h
      rw [h.2.1]
  unfold FieldDef.initOffsets at h
  split at h
  · split at h
    · exact hopt h
    · simp only [Except.ok.injEq, Prod.mk.injEq] at h
      rw [h.2.1]
  · exact hopt h

end FieldDef

namespace Struct
variable {codecs : Nat → Codec} {stored : Nat → Val → Val → Prop} {closed : Nat → Bool}

theorem numExtended_append (fs fs' : List FieldDef) : numExtended (fs ++ fs') = numExtended fs + numExtended fs' := by
  simp [numExtended]

theorem numExtended_all {fs : List FieldDef} (h : ∀ f ∈ fs, f.extended = true) : numExtended fs = fs.length := by
  unfold numExtended
  rw [List.filter_eq_self.2 (by simpa using h)]

theorem numExtended_le (fs : List FieldDef) : numExtended fs ≤ fs.length := List.length_filter_le _ _

theorem base_extend {old ext : List FieldDef} (h : ∀ f ∈ ext, f.extended = true) : base (old ++ ext) = base old := by
  unfold base
  rw [numExtended_append, numExtended_all h, List.length_append]
  have := numExtended_le old
  omega

/-! ### Writing -/

theorem write_append (ps : List Int) (k base : Nat) (mode : Mode) : ∀ (fs1 fs2 : List FieldDef) (prior vs1 vs2 : List Val) (c : Ctx),
    vs1.length = fs1.length → write codecs ps k base mode (fs1 ++ fs2) prior (vs1 ++ vs2) c =
      (write codecs ps k base mode fs1 prior vs1 c >>= fun c => write codecs ps k base mode fs2 (prior ++ vs1) vs2 c)
  | [], fs2, prior, [], vs2, c, _ => by
    funext w
    simp [write, M.bind_apply]
  | [], _, _, _ :: _, _, _, h => by simp at h
  | _ :: _, _, _, [], _, _, h => by simp at h
  | f :: fs1, fs2, prior, v :: vs1, vs2, c, h => by
    funext w
    simp only [List.cons_append, write]
    rw [M.bind_apply, M.bind_apply, M.bind_apply]
    rcases f.write codecs ⟨ps, prior, 0⟩ (prior.length + 1) (isPresent k base prior.length) mode c v w with ⟨e | c1, w1⟩
    · rfl
    · simp only
      rw [write_append ps k base mode fs1 fs2 (prior ++ [v]) vs1 vs2 c1 (by simpa using h)]
      rw [M.bind_apply, List.append_assoc]
      rfl

/-- absent extended fields are not written -/
theorem write_absent (ps : List Int) (k base : Nat) (mode : Mode) : ∀ (fs : List FieldDef) (prior vs : List Val) (c : Ctx),
    vs.length = fs.length → (∀ f ∈ fs, f.extended = true) → base + k ≤ prior.length →
    write codecs ps k base mode fs prior vs c = pure c
  | [], prior, [], c, _, _, _ => rfl
  | [], _, _ :: _, _, h, _, _ => by simp at h
  | _ :: _, _, [], _, h, _, _ => by simp at h
  | f :: fs, prior, v :: vs, c, h, he, hk => by
    funext w
    have hp : isPresent k base prior.length = false := by simp [isPresent]; omega
    simp only [write]
    have : f.write codecs ⟨ps, prior, 0⟩ (prior.length + 1) (isPresent k base prior.length) mode c v w = (.ok c, w) := by
      unfold FieldDef.write
      rw [he f (by simp), hp]
      rfl
    rw [M.bind_ok this, write_absent ps k base mode fs (prior ++ [v]) vs c (by simpa using h) (fun g hg => he g (by simp [hg]))
      (by simp; omega)]

theorem write_length (ps : List Int) (k base : Nat) (mode : Mode) : ∀ (fs : List FieldDef) (prior vs : List Val) (c c' : Ctx) (w w' : Writer),
    write codecs ps k base mode fs prior vs c w = (.ok c', w') → vs.length = fs.length
  | [], _, [], _, _, _, _, _ => rfl
  | [], _, _ :: _, _, _, _, _, h => by simp [write] at h
  | _ :: _, _, [], _, _, _, _, h => by simp [write] at h
  | f :: fs, prior, v :: vs, c, c', w, w', h => by
    simp only [write] at h
    obtain ⟨c1, w1, _, h2⟩ := M.bind_inv h
    have := write_length ps k base mode fs (prior ++ [v]) vs c1 c' w1 w' h2
    simp [this]

/-! ### Sizes and offsets -/

theorem bitsizeof_extend (ps : List Int) (k base : Nat) (mode : Mode) : ∀ (fs ext : List FieldDef) (prior vs es : List Val) (c : Ctx) (p : Nat),
    vs.length = fs.length → es.length = ext.length → (∀ f ∈ ext, f.extended = true) → base + k ≤ prior.length + fs.length →
    bitsizeof codecs ps k base mode (fs ++ ext) prior (vs ++ es) c p = bitsizeof codecs ps k base mode fs prior vs c p
  | [], [], prior, [], [], c, p, _, _, _, _ => rfl
  | [], f :: ext, prior, [], v :: es, c, p, h1, h2, he, hk => by
    have hp : isPresent k base prior.length = false := by
      simp at hk
      simp [isPresent]; omega
    simp only [List.nil_append, bitsizeof]
    have : f.bitsizeof codecs ⟨ps, prior, 0⟩ (prior.length + 1) (isPresent k base prior.length) mode c p v = .ok (p, c) := by
      unfold FieldDef.bitsizeof
      rw [he f (by simp), hp]
      rfl
    rw [this, ok_bind]
    have := bitsizeof_extend ps k base mode [] ext (prior ++ [v]) [] es c p rfl (by simpa using h2) (fun g hg => he g (by simp [hg]))
      (by simp at hk ⊢; omega)
    simpa [bitsizeof] using this
  | [], [], _, [], _ :: _, _, _, _, h, _, _ => by simp at h
  | [], _ :: _, _, [], [], _, _, _, h, _, _ => by simp at h
  | [], _, _, _ :: _, _, _, _, h, _, _, _ => by simp at h
  | _ :: _, _, _, [], _, _, _, h, _, _, _ => by simp at h
  | f :: fs, ext, prior, v :: vs, es, c, p, h1, h2, he, hk => by
    simp only [List.cons_append, bitsizeof]
    congr 1
    funext pc
    exact bitsizeof_extend ps k base mode fs ext (prior ++ [v]) vs es pc.2 pc.1 (by simpa using h1) h2 he (by simp at hk ⊢; omega)

theorem initOffsets_extend (ps : List Int) (k base : Nat) (mode : Mode) : ∀ (fs ext : List FieldDef) (prior vs es : List Val) (c : Ctx) (p : Nat),
    vs.length = fs.length → es.length = ext.length → (∀ f ∈ ext, f.extended = true) → base + k ≤ prior.length + fs.length →
    initOffsets codecs ps k base mode (fs ++ ext) prior (vs ++ es) c p = (do
      let (e, vs, c) ← initOffsets codecs ps k base mode fs prior vs c p
      .ok (e, vs ++ es, c))
  | [], [], prior, [], [], c, p, _, _, _, _ => by simp [initOffsets, ok_bind]
  | [], f :: ext, prior, [], v :: es, c, p, h1, h2, he, hk => by
    have hp : isPresent k base prior.length = false := by
      simp at hk
      simp [isPresent]; omega
    simp only [List.nil_append, initOffsets]
    have : f.initOffsets codecs ⟨ps, prior, 0⟩ (prior.length + 1) (isPresent k base prior.length) mode c p v = .ok (p, prior, v, c) := by
      unfold FieldDef.initOffsets
      rw [he f (by simp), hp]
      rfl
    rw [this, ok_bind]
    have := initOffsets_extend ps k base mode [] ext (prior ++ [v]) [] es c p rfl (by simpa using h2) (fun g hg => he g (by simp [hg]))
      (by simp at hk ⊢; omega)
    simpa [initOffsets, ok_bind] using this
  | [], [], _, [], _ :: _, _, _, _, h, _, _ => by simp at h
  | [], _ :: _, _, [], [], _, _, _, h, _, _ => by simp at h
  | [], _, _, _ :: _, _, _, _, h, _, _, _ => by simp at h
  | _ :: _, _, _, [], _, _, _, h, _, _, _ => by simp at h
  | f :: fs, ext, prior, v :: vs, es, c, p, h1, h2, he, hk => by
    simp only [List.cons_append, initOffsets]
    rcases hf : f.initOffsets codecs ⟨ps, prior, 0⟩ (prior.length + 1) (isPresent k base prior.length) mode c p v with e | ⟨p1, prior1, v1, c1⟩
    · rfl
    · simp only [ok_bind]
      have hlen : prior1.length = prior.length := FieldDef.initOffsets_length hf
      exact initOffsets_extend ps k base mode fs ext (prior1 ++ [v1]) vs es c1 p1 (by simpa using h1) h2 he
        (by simp [hlen] at hk ⊢; omega)

/-! ### Reading -/

theorem read_append (ps : List Int) (mode : Mode) : ∀ (fs1 fs2 : List FieldDef) (prior : List Val) (k : Nat) (c : Ctx),
    read codecs ps mode (fs1 ++ fs2) prior k c =
      (read codecs ps mode fs1 prior k c >>= fun y => read codecs ps mode fs2 y.1 y.2.1 y.2.2)
  | [], fs2, prior, k, c => by
    funext r
    simp [read, M.bind_apply]
  | f :: fs1, fs2, prior, k, c => by
    funext r
    simp only [List.cons_append, read]
    rw [M.bind_apply, M.bind_apply, M.bind_apply]
    rcases readField codecs f ⟨ps, prior, 0⟩ (prior.length + 1) mode k c r with ⟨e | ⟨v, k1, c1⟩, r1⟩
    · rfl
    · simp only
      rw [read_append ps mode fs1 fs2 (prior ++ [v]) k1 c1, M.bind_apply]

/-- extended fields are absent if the stream ends (up to the alignment) -/
theorem read_absent (ps : List Int) (mode : Mode) (r : Reader) (hr : r.bitsize ≤ (align8 r.pos : Int)) :
    ∀ (fs : List FieldDef) (prior : List Val) (k : Nat) (c : Ctx), (∀ f ∈ fs, f.extended = true) →
    read codecs ps mode fs prior k c r = (.ok (prior ++ fs.map (·.default), k, c), r)
  | [], prior, k, c, _ => by simp [read]
  | f :: fs, prior, k, c, h => by
    simp only [read]
    have : readField codecs f ⟨ps, prior, 0⟩ (prior.length + 1) mode k c r = (.ok (f.default, k, c), r) := by
      unfold readField
      rw [if_pos (h f (by simp)), M.bind_ok (M.get_apply _), if_pos hr]
      rfl
    rw [M.bind_ok this, read_absent ps mode r hr fs (prior ++ [f.default]) k c (fun g hg => h g (by simp [hg]))]
    simp

/-! ### What is read back -/

theorem stored_split (ps : List Int) (k base : Nat) : ∀ (fs : List FieldDef) (m : Nat) (prior prior' vs vs' : List Val),
    Struct.Stored codecs stored ps k base fs prior prior' vs vs' →
    Struct.Stored codecs stored ps k base (fs.take m) prior prior' (vs.take m) (vs'.take m) ∧
    vs.length = fs.length ∧ vs'.length = fs.length ∧
    ((∀ i (f : FieldDef), m ≤ i → fs[i]? = some f → f.extended = true ∧ isPresent k base (prior.length + i) = false) →
      vs'.drop m = (fs.drop m).map (·.default))
  | [], m, prior, prior', [], [], h => by simp [Struct.Stored]
  | [], _, _, _, _ :: _, _, h => h.elim
  | [], _, _, _, [], _ :: _, h => h.elim
  | _ :: _, _, _, _, [], _, h => h.elim
  | _ :: _, _, _, _, _ :: _, [], h => h.elim
  | f :: fs, m, prior, prior', v :: vs, v' :: vs', h => by
    obtain ⟨h1, h2, h3⟩ := h
    rcases m with _ | m
    · obtain ⟨-, e2, e3, e4⟩ := stored_split ps k base fs 0 _ _ _ _ h3
      refine ⟨by simp [Struct.Stored], by simp [e2], by simp [e3], ?_⟩
      intro hab
      have h0 := hab 0 f (by omega) rfl
      have h4 := e4 (fun i g hi hg => by
        have := hab (i + 1) g (by omega) (by simpa using hg)
        simpa [Nat.add_assoc, Nat.add_comm 1] using this)
      simp only [List.drop_zero, List.map_cons] at h4 ⊢
      rw [← h4]
      congr 1
      unfold FieldDef.Stored at h1
      rw [Nat.add_zero] at h0
      rw [if_pos (by simp [h0.1, h0.2])] at h1
      exact h1
    · obtain ⟨e1, e2, e3, e4⟩ := stored_split ps k base fs m _ _ _ _ h3
      refine ⟨⟨h1, h2, e1⟩, by simp [e2], by simp [e3], ?_⟩
      intro hab
      simp only [List.drop_succ_cons]
      refine e4 (fun i g hi hg => ?_)
      have := hab (i + 1) g (by omega) (by simpa using hg)
      simpa [Nat.add_assoc, Nat.add_comm 1] using this

/-- Reading a structure with extended fields appended: what the shorter structure wrote is read as it is, and the fields after it
are absent. -/
theorem read_extended (hlaw : ∀ id, (codecs id).Lawful (stored id) (closed id))
    (hP : ∀ id x x', stored id x x' → ∃ ps, x.params = .ok ps) (old ext : List FieldDef)
    (hok : ∀ f ∈ old, f.ArrayOk closed) (hcl : ∀ f ∈ old, f.Closed closed)
    (hx : ∀ i f, old[i]? = some f → (f.extended = true ↔ base old ≤ i)) (he : ∀ f ∈ ext, f.extended = true)
    (ps : List Int) (k : Nat) (vs vs' : List Val) (hst : Struct.Stored codecs stored ps k (base old) old [] [] vs vs')
    (b0 : List Bool) (c' : Ctx) (w' : Writer)
    (h : write codecs ps k (base old) none old [] vs Ctx.empty (ofBits b0) = (.ok c', w')) :
    ∃ bs, w' = ofBits (b0 ++ bs) ∧ ∀ s (r : Reader), r.WF → r.pos = b0.length → r.rest = bs ++ s →
      (k < numExtended old ∨ ext ≠ [] → r.bitsize ≤ (align8 (b0.length + bs.length) : Int)) →
      ∃ c'', read codecs ps none (old ++ ext) [] 0 Ctx.empty r =
        (.ok (vs' ++ ext.map (·.default), min k (numExtended old), c''), r.advance bs.length) := by
  have hb : base old = old.length - numExtended old := rfl
  have hn := numExtended_le old
  generalize hm : min old.length (base old + k) = m
  have hlen := write_length ps k (base old) none _ _ _ _ _ _ _ h
  obtain ⟨s1, s2, s3, s4⟩ := stored_split ps k (base old) old m _ _ _ _ hst
  -- the fields from `m` on are absent
  have hdrop : ∀ f ∈ old.drop m, f.extended = true := by
    intro f hf
    obtain ⟨i, hi⟩ := List.getElem?_of_mem hf
    rw [List.getElem?_drop] at hi
    have : m + i < old.length := by
      rcases Nat.lt_or_ge (m + i) old.length with hlt | hge
      · exact hlt
      · rw [List.getElem?_eq_none hge] at hi
        exact absurd hi (by simp)
    exact (hx _ _ hi).2 (by omega)
  have hwabs : ∀ c, write codecs ps k (base old) none (old.drop m) ([] ++ vs.take m) (vs.drop m) c = pure c := by
    intro c
    rcases Nat.lt_or_ge m old.length with hlt | hge
    · refine write_absent ps k (base old) none _ _ _ c (by simp [hlen]) hdrop ?_
      simp [hlen]; omega
    · rw [List.drop_eq_nil_of_le hge, List.drop_eq_nil_of_le (by omega)]
      rfl
  have hw1 : write codecs ps k (base old) none (old.take m) [] (vs.take m) Ctx.empty (ofBits b0) = (.ok c', w') := by
    have h2 := write_append (codecs := codecs) ps k (base old) none (old.take m) (old.drop m) [] (vs.take m) (vs.drop m) Ctx.empty
      (by simp [hlen])
    rw [List.take_append_drop, List.take_append_drop] at h2
    rw [h2] at h
    obtain ⟨c1, w1, g1, g2⟩ := M.bind_inv h
    rw [hwabs] at g2
    simp only [M.pure_apply, Prod.mk.injEq, Except.ok.injEq] at g2
    rw [g1, g2.1, g2.2]
  have hsub : ∀ f ∈ old.take m, f ∈ old := fun f hf => (List.take_sublist m old).subset hf
  have hget : ∀ i f, (old.take m)[i]? = some f → i < m ∧ old[i]? = some f := by
    intro i f hi
    rw [List.getElem?_take] at hi
    split at hi
    · exact ⟨by assumption, hi⟩
    · simp at hi
  obtain ⟨es, e1, -, e3⟩ := fields_passes hlaw hP ps k (base old) none (old.take m) (fun f hf => hok f (hsub f hf)) [] (vs.take m)
  obtain rfl := e1 rfl
  obtain ⟨bs, cs', cr', rfl, -, -, hparse, -⟩ := e3 [] Ctx.empty Ctx.empty Ctx.empty (by simpa using Ctx.allSync_empty) b0 c' w' hw1
  refine ⟨bs, rfl, ?_⟩
  intro s r hwf hpos hrest hend
  have hp := hparse [] (vs'.take m) rfl s1 (fun f hf => hcl f (hsub f (List.dropLast_subset _ hf)))
    (fun i f hi => by simpa using hx i f (hget i f hi).2) 0 s (.inl (fun f hf => hcl f (hsub f hf)))
    (fun i f hi hfx => ⟨rfl, fun habs => by
      have h1 := hget i f hi
      have h2 := (hx i f h1.2).1 hfx
      simp only [isPresent, List.length_nil, Nat.zero_add, decide_eq_false_iff_not] at habs
      omega⟩) r hwf hpos hrest
  have hcount : count k (base old) (old.take m) 0 = min k (numExtended old) := by
    have := count_eq k (base old) (old.take m) 0 (fun i f hi => by simpa using hx i f (hget i f hi).2)
    simp only [List.length_take] at this
    omega
  rw [List.nil_append, Nat.zero_add, List.length_nil, hcount] at hp
  refine ⟨cr', ?_⟩
  have hsplit : old ++ ext = old.take m ++ (old.drop m ++ ext) := by
    rw [← List.append_assoc, List.take_append_drop]
  rw [hsplit, read_append, M.bind_ok hp]
  simp only
  have hval : vs' ++ ext.map (·.default) = vs'.take m ++ (old.drop m ++ ext).map (·.default) := by
    have h4 := s4 (fun i f hi hf => by
      have hlt : i < old.length := by
        rcases Nat.lt_or_ge i old.length with hlt | hge
        · exact hlt
        · rw [List.getElem?_eq_none hge] at hf
          exact absurd hf (by simp)
      refine ⟨(hx i f hf).2 (by omega), ?_⟩
      simp only [isPresent, List.length_nil, Nat.zero_add, decide_eq_false_iff_not]
      omega)
    rw [List.map_append, ← h4, ← List.append_assoc, List.take_append_drop]
  rw [hval]
  by_cases hne : old.drop m ++ ext = []
  · rw [hne]
    simp [read]
  · refine read_absent ps none _ ?_ _ _ _ _ ?_
    · simp only [Reader.advance_bitsize, Reader.advance_pos, hpos]
      refine hend ?_
      by_cases hd : old.drop m = []
      · right
        intro hx0
        exact hne (by rw [hd, hx0]; rfl)
      · left
        have : m < old.length := by
          rcases Nat.lt_or_ge m old.length with hlt | hge
          · exact hlt
          · exact absurd (List.drop_eq_nil_of_le hge) hd
        omega
    · intro f hf
      rcases List.mem_append.1 hf with hf | hf
      · exact hdrop f hf
      · exact he f hf

end Struct
end Zserio
