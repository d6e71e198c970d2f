import Verif.Lemmas.RangeCheck
set_option linter.unusedSimpArgs false
/-
What has been read can be written again: fields.
-/
namespace Zserio
open Writer
variable {codecs : Nat → Codec} {rewritable canonical : Nat → Val → Prop}

/-- A value of the field can be written at every position, and initialising offsets changes neither it nor the other fields. -/
structure FieldDef.RewritesValue (codecs : Nat → Codec) (f : FieldDef) (env : Env) (slot : Nat) (v : Val) : Prop where
  write : ∀ c b0, ∃ bs, Runs (f.writeValue codecs env slot none c v) b0 bs c
  init : ∀ c p, ∃ e, f.initOffsetsValue codecs env slot none c p v = .ok (e, env.fields, v, c)

theorem readValue_reread (hk : ∀ id, (codecs id).Rereads (rewritable id) (canonical id))
    (hs : ∀ id, (codecs id).SafeRead) {f : FieldDef} (hf : f.Direct) {env : Env} (hi : env.index = 0) {slot : Nat}
    {c c' : Ctx} {v : Val} {r r' : Reader} (hr : r.WF) (h : f.readValue codecs env slot none c r = (.ok (v, c'), r')) :
    c' = c ∧ v.isNone = false ∧ (f.RewritableValue rewritable env v →
      f.RewritesValue codecs env slot v ∧ f.CanonicalValue canonical env v ∧ f.checkLength env v = .ok () ∧
        f.checkParams env v = .ok () ∧ f.checkRange env v = .ok ()) := by
  unfold FieldDef.readValue at h
  obtain ⟨m, r1, h1, h2⟩ := M.bind_inv h
  rw [M.lift_apply] at h1
  simp only [Prod.mk.injEq] at h1
  obtain ⟨hm, rfl⟩ := h1
  obtain ⟨hoff, hpk⟩ := hf
  rcases ha : f.array with _ | a
  · rw [ha] at h2
    simp only [FieldDef.fieldMode] at h2
    obtain ⟨g1, g2, g3, g4⟩ := methods_reread hk hm hr h2
    refine ⟨g1, g2, fun hrw => ?_⟩
    simp only [FieldDef.RewritableValue, ha] at hrw
    obtain ⟨k1, k2⟩ := g4 hrw
    have hrg := methods_read_range hm hr h2
    refine ⟨⟨fun c b0 => ?_, fun c p => ?_⟩, ?_, ?_, ?_, FieldDef.checkRange_ok (fun k _ => hrg.1 k) fun s l _ => hrg.2 s l⟩
    · unfold FieldDef.writeValue
      refine runs_lift_bind hm ?_
      simp only [ha, FieldDef.fieldMode]
      exact k1.write c b0
    · obtain ⟨e, he⟩ := k1.init c p
      exact ⟨e, by simp only [FieldDef.initOffsetsValue, hm, ok_bind, ha, FieldDef.fieldMode, he]⟩
    · simp only [FieldDef.CanonicalValue, ha]
      exact k2
    · simp only [FieldDef.checkLength, ha]
    · unfold FieldDef.checkParams
      rw [ha]
      rcases ht : f.type with _ | _ | _ | _ | _ | ⟨id, args⟩
      case compound =>
        obtain ⟨ps, e1, e2⟩ := g3 id args ht
        have : ({ env with index := 0 } : Env) = env := by rw [← hi]
        rw [this] at e2
        simp only [e1, e2, ok_bind, ne_eq, not_true_eq_false, if_false]
        split <;> rfl
      all_goals rfl
  · rw [ha] at h2
    obtain ⟨size, r2, h3, h4⟩ := M.bind_inv h2
    rw [M.lift_apply] at h3
    simp only [Prod.mk.injEq] at h3
    obtain ⟨hsize, rfl⟩ := h3
    obtain ⟨xs, r3, h5, h6⟩ := M.bind_inv h4
    simp only [M.pure_apply, Prod.mk.injEq, Except.ok.injEq] at h6
    obtain ⟨⟨rfl, rfl⟩, -⟩ := h6
    have hnp : f.arrayPacked a none = false := by
      unfold FieldDef.arrayPacked
      rcases hp : f.packable with _ | _
      · rfl
      · rw [hpk a ha hp]; rfl
    have hck : (f.arrayCfg a).checkOffset = none := by simp only [FieldDef.arrayCfg, hoff]
    have hst : (f.arrayCfg a).setOffset = none := by simp only [FieldDef.arrayCfg, hoff]
    unfold FieldDef.readArray at h5
    rw [hnp] at h5
    simp only [Bool.false_eq_true, if_false] at h5
    obtain ⟨l1, l2, l3⟩ := arrayRead_inv (P := fun i x => f.type.Rewritable rewritable x →
        m.Rewrites x ∧ f.type.Canonical canonical env i x) (fun i x r r' hr h => by
      obtain ⟨⟨y, c1⟩, r1, h1, h2⟩ := M.bind_inv (show (m.read none Ctx.empty i >>= fun p => pure p.1) r = _ from h)
      simp only [M.pure_apply, Prod.mk.injEq, Except.ok.injEq] at h2
      obtain ⟨rfl, rfl⟩ := h2
      have hsafe := safe_methods hs hm none Ctx.empty i r hr
      rw [h1] at hsafe
      exact ⟨hsafe.1, (methods_reread hk hm hr h1).2.2.2⟩) hck hr h5
    refine ⟨rfl, rfl, fun hrw => ?_⟩
    simp only [FieldDef.RewritableValue, ha] at hrw
    obtain ⟨hlen, hel⟩ := hrw
    have hall := allIndexed_mono l3 (Q := fun i x => m.Rewrites x ∧ f.type.Canonical canonical env i x)
      (fun j x hx hp => hp (hel xs rfl x hx))
    have hrws : ∀ x ∈ xs, m.Rewrites x := allIndexed_mem (allIndexed_mono hall (fun j x _ hp => hp.1))
    have himp : (f.arrayCfg a).isAuto = true → (f.arrayCfg a).isImplicit = false := by
      simp only [FieldDef.arrayCfg]
      rcases a.kind <;> simp
    have hn : (f.arrayCfg a).isAuto = true → xs.length < 2 ^ 31 := fun h => l1 (himp h) h
    refine ⟨⟨fun c b0 => ?_, fun c p => ?_⟩, ?_, ?_, ?_,
      FieldDef.checkRange_ok (fun k h _ => absurd (ha.symm.trans h) (by simp)) fun s l h _ => absurd (ha.symm.trans h) (by simp)⟩
    · unfold FieldDef.writeValue
      refine runs_lift_bind hm ?_
      simp only [ha]
      refine runs_lift_bind (show (Val.arr xs).asArr = .ok xs from rfl) ?_
      simp only [FieldDef.writeArray, hnp, Bool.false_eq_true, if_false]
      exact runs_bind (write_runs hrws hck hn b0) fun _ => ⟨_, runs_pure _ _⟩
    · obtain ⟨e, he⟩ := init_ok (s := env.fields) hrws hst hn p
      exact ⟨e, by simp only [FieldDef.initOffsetsValue, hm, ok_bind, ha, Val.asArr, FieldDef.initOffsetsArray, hnp,
        Bool.false_eq_true, if_false, he]⟩
    · simp only [FieldDef.CanonicalValue, ha]
      exact ⟨xs, rfl, allIndexed_mono hall (fun j x _ hp => hp.2)⟩
    · unfold FieldDef.checkLength
      rw [ha]
      obtain ⟨kind, pk⟩ := a
      rcases kind with _ | _ | length
      · rfl
      · rfl
      · simp only [FieldDef.arraySize] at hsize
        obtain ⟨n, e1, e2⟩ := except_bind_ok hsize
        simp only [Except.ok.injEq] at e2
        have := hlen length n rfl e1
        have hl := l2 rfl rfl
        simp only [Val.asArr, e1, ok_bind]
        rw [if_neg (by omega)]
    · simp only [FieldDef.checkParams, ha]

/-- The field can be written at every position, and initialising offsets changes neither it nor the other fields. -/
structure FieldDef.Rewrites (codecs : Nat → Codec) (f : FieldDef) (env : Env) (slot : Nat) (v : Val) : Prop where
  write : ∀ c b0, ∃ bs, Runs (f.writeOptional codecs env slot none c v) b0 bs c
  init : ∀ c p, ∃ e, f.initOffsetsOptional codecs env slot none c p v = .ok (e, env.fields, v, c)

theorem readInner_reread (hk : ∀ id, (codecs id).Rereads (rewritable id) (canonical id))
    (hs : ∀ id, (codecs id).SafeRead) {f : FieldDef} (hf : f.Direct) {env : Env} (hi : env.index = 0) {slot : Nat}
    {c c' : Ctx} {v : Val} {r r' : Reader} (hr : r.WF) (h : f.readInner codecs env slot none c r = (.ok (v, c'), r')) :
    c' = c ∧ v.isNone = false ∧ (f.RewritableValue rewritable env v →
      (∀ c b0, ∃ bs, Runs (f.writeInner codecs env slot none c v) b0 bs c) ∧
      (∀ c p, ∃ e, f.initOffsetsInner codecs env slot none c p v = .ok (e, env.fields, v, c)) ∧
      f.CanonicalValue canonical env v) := by
  have hoff := hf.1
  have hown : f.ownOffset = none := by simp only [FieldDef.ownOffset, hoff]
  unfold FieldDef.readInner at h
  obtain ⟨_, r1, h1, h2⟩ := M.bind_inv h
  obtain ⟨_, r2, h3, h4⟩ := M.bind_inv h2
  obtain ⟨⟨v1, c1⟩, r3, h5, h6⟩ := M.bind_inv h4
  obtain ⟨_, r4, h7, h8⟩ := M.bind_inv h6
  simp only [M.pure_apply, Prod.mk.injEq, Except.ok.injEq] at h8
  obtain ⟨⟨rfl, rfl⟩, -⟩ := h8
  rw [M.lift_apply] at h7
  simp only [Prod.mk.injEq] at h7
  simp only [FieldDef.readOffset, hown, M.pure_apply, Prod.mk.injEq, true_and] at h3
  subst h3
  have hal : r1.WF ∧ ∀ a, f.alignment = some a → a ≠ 0 := by
    unfold FieldDef.readAlign at h1
    rcases hal : f.alignment with _ | a
    · rw [hal] at h1
      simp only [M.pure_apply, Prod.mk.injEq, true_and] at h1
      subst h1
      exact ⟨hr, by simp⟩
    · rw [hal] at h1
      simp only at h1
      have := Reader.safe_alignto a r hr
      rw [h1] at this
      refine ⟨this.1, ?_⟩
      rintro a' ⟨⟩ rfl
      unfold Reader.alignto at h1
      rw [M.bind_ok (M.get_apply _)] at h1
      simp at h1
  obtain ⟨g1, g2, g3⟩ := readValue_reread hk hs hf hi hal.1 h5
  refine ⟨g1, g2, fun hrw => ?_⟩
  obtain ⟨k1, k2, k3, k4, k5⟩ := g3 hrw
  refine ⟨fun c b0 => ?_, fun c p => ?_, k2⟩
  · unfold FieldDef.writeInner
    refine runs_bind (a := ()) ?_ fun b1 => runs_bind (a := ()) ?_ fun b2 => runs_lift_bind (a := ()) ?_ (k1.write c b2)
    · unfold FieldDef.writeAlign
      rcases hf2 : f.alignment with _ | a
      · exact ⟨_, runs_pure _ _⟩
      · have ha := hal.2 a hf2
        exact ⟨_, (emits_alignto a b0.length (by omega)).runs rfl⟩
    · simp only [FieldDef.writeOffset, hown]
      exact ⟨_, runs_pure _ _⟩
    · simp only [FieldDef.writeChecks, h7.1, k3, k4, k5, ok_bind]
  · obtain ⟨e, he⟩ := k1.init c (f.alignField p)
    exact ⟨e, by simp only [FieldDef.initOffsetsInner, FieldDef.initOwnOffset, hown, ok_bind, he]⟩

theorem field_reread (hk : ∀ id, (codecs id).Rereads (rewritable id) (canonical id))
    (hs : ∀ id, (codecs id).SafeRead) {f : FieldDef} (hf : f.Direct) {env : Env} (hi : env.index = 0) {slot : Nat}
    {c c' : Ctx} {v : Val} {r r' : Reader} (hr : r.WF) (h : f.read codecs env slot none c r = (.ok (v, c'), r')) :
    c' = c ∧ (f.Rewritable rewritable env v → f.Rewrites codecs env slot v ∧
      (f.isUsed env v = .ok true → f.CanonicalValue canonical env v) ∧ (f.isUsed env v = .ok false → v = .none)) := by
  unfold FieldDef.read at h
  obtain ⟨used, r1, h1, h2⟩ := M.bind_inv h
  have hr1 : r1.WF := by
    have : Reader.Safe (f.readUsed env) := by
      unfold FieldDef.readUsed
      split
      · exact Reader.safe_pure _
      · exact (Reader.safe_readBitsUnchecked _).bind (fun _ => Reader.safe_pure _)
      · exact Reader.safe_lift _
    have := this r hr
    rw [h1] at this
    exact this.1
  have hauto : ∀ b b0, ∃ bs, Runs (f.writeAutoBit b) b0 bs () := by
    intro b b0
    unfold FieldDef.writeAutoBit
    split
    · exact ⟨_, ((WCall.bool b).runs_iff b0 _).2 rfl⟩
    · exact ⟨_, runs_pure _ _⟩
  cases used with
  | true =>
    simp only [if_true] at h2
    obtain ⟨g1, g2, g3⟩ := readInner_reread hk hs hf hi hr1 h2
    have hused : f.isUsed env v = .ok true := by
      unfold FieldDef.readUsed at h1
      unfold FieldDef.isUsed
      rcases ho : f.optional with _ | _ | e
      · rfl
      · simp [g2]
      · rw [ho] at h1
        simp only [M.lift_apply, Prod.mk.injEq] at h1
        exact h1.1
    refine ⟨g1, fun hrw => ?_⟩
    obtain ⟨k1, k2, k3⟩ := g3 (hrw hused)
    refine ⟨⟨fun c b0 => ?_, fun c p => ?_⟩, fun _ => k3, fun hc => ?_⟩
    · exact runs_lift_bind hused (runs_bind (hauto true b0) fun b1 => by simpa using k1 c b1)
    · obtain ⟨e, he⟩ := k2 c (p + f.autoBit)
      exact ⟨e, by simp only [FieldDef.initOffsetsOptional, hused, ok_bind, if_true, he]⟩
    · rw [hused] at hc; simp at hc
  | false =>
    simp only [Bool.false_eq_true, if_false, M.pure_apply, Prod.mk.injEq, Except.ok.injEq] at h2
    obtain ⟨⟨rfl, rfl⟩, -⟩ := h2
    have hused : f.isUsed env .none = .ok false := by
      unfold FieldDef.readUsed at h1
      unfold FieldDef.isUsed
      rcases ho : f.optional with _ | _ | e
      · rw [ho] at h1
        simp at h1
      · rfl
      · rw [ho] at h1
        simp only [M.lift_apply, Prod.mk.injEq] at h1
        exact h1.1
    refine ⟨rfl, fun _ => ⟨⟨fun c b0 => ?_, fun c p => ?_⟩, fun hc => ?_, fun _ => rfl⟩⟩
    · exact runs_lift_bind hused (runs_bind (hauto false b0) fun b1 => by simpa using ⟨_, runs_pure c b1⟩)
    · exact ⟨p + f.autoBit, by simp only [FieldDef.initOffsetsOptional, hused, ok_bind, Bool.false_eq_true, if_false]⟩
    · rw [hused] at hc; simp at hc

end Zserio
