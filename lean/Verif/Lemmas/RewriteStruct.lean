import Verif.Lemmas.RewriteField
set_option linter.unusedSimpArgs false
/-
What has been read can be written again: structures, unions and choices.
-/
namespace Zserio
open Writer
variable {codecs : Nat → Codec} {rewritable canonical : Nat → Val → Prop} {mode : Mode}

namespace Struct

theorem readField_inv {f : FieldDef} {env : Env} {slot k k' : Nat} {c c' : Ctx} {v : Val} {r r' : Reader}
    (h : readField codecs f env slot mode k c r = (.ok (v, k', c'), r')) :
    (f.extended = true ∧ (Array'.align8 r.pos : Int) ≥ r.bitsize ∧ v = f.default ∧ k' = k ∧ c' = c ∧ r' = r) ∨
    (f.extended = true ∧ ¬ (Array'.align8 r.pos : Int) ≥ r.bitsize ∧ k' = k + 1 ∧
      ∃ r1, Reader.alignto 8 r = (.ok (), r1) ∧ f.read codecs env slot mode c r1 = (.ok (v, c'), r')) ∨
    (f.extended = false ∧ k' = k ∧ f.read codecs env slot mode c r = (.ok (v, c'), r')) := by
  unfold readField at h
  split at h
  · rename_i he
    rw [M.bind_ok (M.get_apply _)] at h
    split at h
    · rename_i hend
      simp only [M.pure_apply, Prod.mk.injEq, Except.ok.injEq] at h
      obtain ⟨⟨rfl, rfl, rfl⟩, rfl⟩ := h
      exact .inl ⟨he, hend, rfl, rfl, rfl, rfl⟩
    · rename_i hend
      obtain ⟨_, r1, h1, h2⟩ := M.bind_inv h
      obtain ⟨⟨v1, c1⟩, r2, h3, h4⟩ := M.bind_inv h2
      simp only [M.pure_apply, Prod.mk.injEq, Except.ok.injEq] at h4
      obtain ⟨⟨rfl, rfl, rfl⟩, rfl⟩ := h4
      exact .inr (.inl ⟨he, hend, rfl, r1, h1, h3⟩)
  · rename_i he
    obtain ⟨⟨v1, c1⟩, r2, h3, h4⟩ := M.bind_inv h
    simp only [M.pure_apply, Prod.mk.injEq, Except.ok.injEq] at h4
    obtain ⟨⟨rfl, rfl, rfl⟩, rfl⟩ := h4
    exact .inr (.inr ⟨by simpa using he, rfl, h3⟩)

theorem read_cons_inv {params : List Int} {f : FieldDef} {fs : List FieldDef} {prior vs : List Val} {k K : Nat} {c c' : Ctx}
    {r r' : Reader} (h : read codecs params mode (f :: fs) prior k c r = (.ok (vs, K, c'), r')) :
    ∃ v k1 c1 r1, readField codecs f ⟨params, prior, 0⟩ (prior.length + 1) mode k c r = (.ok (v, k1, c1), r1) ∧
      read codecs params mode fs (prior ++ [v]) k1 c1 r1 = (.ok (vs, K, c'), r') := by
  rw [read] at h
  obtain ⟨⟨v, k1, c1⟩, r1, h1, h2⟩ := M.bind_inv h
  exact ⟨v, k1, c1, r1, h1, h2⟩

/-- the counter never decreases -/
theorem read_numExt {params : List Int} : ∀ {fs : List FieldDef} {prior vs : List Val} {k K : Nat} {c c' : Ctx} {r r' : Reader},
    read codecs params mode fs prior k c r = (.ok (vs, K, c'), r') → k ≤ K
  | [], prior, vs, k, K, c, c', r, r', h => by
    simp only [read, M.pure_apply, Prod.mk.injEq, Except.ok.injEq] at h
    omega
  | f :: fs, prior, vs, k, K, c, c', r, r', h => by
    obtain ⟨v, k1, c1, r1, h1, h2⟩ := read_cons_inv h
    have := read_numExt h2
    rcases readField_inv h1 with ⟨_, _, _, rfl, _⟩ | ⟨_, _, rfl, _⟩ | ⟨_, rfl, _⟩ <;> omega

/-- once the stream has ended no further extended field is read -/
theorem read_at_end {params : List Int} : ∀ {fs : List FieldDef} {prior vs : List Val} {k K : Nat} {c c' : Ctx} {r r' : Reader},
    (∀ f ∈ fs, f.extended = true) → (Array'.align8 r.pos : Int) ≥ r.bitsize →
    read codecs params mode fs prior k c r = (.ok (vs, K, c'), r') → K = k
  | [], prior, vs, k, K, c, c', r, r', _, _, h => by
    simp only [read, M.pure_apply, Prod.mk.injEq, Except.ok.injEq] at h
    omega
  | f :: fs, prior, vs, k, K, c, c', r, r', he, hend, h => by
    obtain ⟨v, k1, c1, r1, h1, h2⟩ := read_cons_inv h
    rcases readField_inv h1 with ⟨_, _, _, rfl, _, rfl⟩ | ⟨_, hn, _⟩ | ⟨hn, _⟩
    · exact read_at_end (fun g hg => he g (by simp [hg])) hend h2
    · exact absurd hend hn
    · rw [he f (by simp)] at hn; simp at hn

theorem reread (hk : ∀ id, (codecs id).Rereads (rewritable id) (canonical id)) (hs : ∀ id, (codecs id).SafeRead)
    (params : List Int) (base : Nat) : ∀ (fs : List FieldDef) (prior vs : List Val) (k K : Nat) (c c' : Ctx) (r r' : Reader),
    (∀ f ∈ fs, f.Direct) → (∀ i f, fs[i]? = some f → (f.extended = true ↔ base ≤ prior.length + i)) →
    (k = prior.length - base ∨ (k ≤ prior.length - base ∧ base ≤ prior.length ∧ (Array'.align8 r.pos : Int) ≥ r.bitsize)) →
    r.WF → read codecs params none fs prior k c r = (.ok (vs, K, c'), r') →
    c' = c ∧ K ≤ prior.length + fs.length - base ∧ ∃ ws, vs = prior ++ ws ∧
      (Struct.Rewritable codecs rewritable params K base fs prior ws →
        (∀ c b0, ∃ bs, Runs (write codecs params K base none fs prior ws c) b0 bs c) ∧
        (∀ c p, ∃ e, initOffsets codecs params K base none fs prior ws c p = .ok (e, prior ++ ws, c)) ∧
        Struct.Canonical codecs canonical params K base fs prior ws)
  | [], prior, vs, k, K, c, c', r, r', _, _, hkk, _, h => by
    simp only [read, M.pure_apply, Prod.mk.injEq, Except.ok.injEq] at h
    obtain ⟨⟨rfl, rfl, rfl⟩, -⟩ := h
    refine ⟨rfl, ?_, [], by simp, fun _ => ⟨fun c b0 => ⟨_, runs_pure c b0⟩, fun c p => ⟨p, by simp [initOffsets]⟩, trivial⟩⟩
    simp only [List.length_nil, Nat.add_zero]
    rcases hkk with h | h <;> omega
  | f :: fs, prior, vs, k, K, c, c', r, r', hpl, hext, hkk, hr, h => by
    obtain ⟨v, k1, c1, r1, h1, h2⟩ := read_cons_inv h
    have hf := hpl f (by simp)
    have he : f.extended = true ↔ base ≤ prior.length := by simpa using hext 0 f (by simp)
    have hext' : ∀ i g, fs[i]? = some g → (g.extended = true ↔ base ≤ (prior ++ [v]).length + i) := by
      intro i g hg
      have := hext (i + 1) g (by simpa using hg)
      rw [this, List.length_append, List.length_singleton]
      omega
    have hlen : (prior ++ [v]).length = prior.length + 1 := by simp
    have hr1 : r1.WF := by
      have hsf : Reader.Safe (readField codecs f ⟨params, prior, 0⟩ (prior.length + 1) none k c) := by
        unfold readField
        refine Reader.safe_ite (Reader.safe_get_bind fun _ => Reader.safe_ite (Reader.safe_pure _)
          ((Reader.safe_alignto 8).bind fun _ => (FieldDef.safe_read hs f _ _ _ _).bind fun _ => Reader.safe_pure _))
          ((FieldDef.safe_read hs f _ _ _ _).bind fun _ => Reader.safe_pure _)
      have := hsf r hr
      rw [h1] at this
      exact this.1
    rcases readField_inv h1 with ⟨e1, e2, rfl, rfl, rfl, rfl⟩ | ⟨e1, e2, rfl, r2, e3, e4⟩ | ⟨e1, rfl, e4⟩
    · -- not present
      have hb := he.1 e1
      have hle : k1 ≤ prior.length - base := by rcases hkk with h | h <;> omega
      have hK : K = k1 := read_at_end (fun g hg => by
        obtain ⟨i, hi⟩ := List.getElem?_of_mem hg
        exact (hext' i g hi).2 (by rw [hlen]; omega)) e2 h2
      have hnp : isPresent K base prior.length = false := by
        unfold isPresent
        rw [hK]
        exact decide_eq_false (by omega)
      obtain ⟨g1, g2, ws, g3, g4⟩ := reread hk hs params base fs _ vs k1 K c1 c' r1 r'
        (fun g hg => hpl g (by simp [hg])) hext' (.inr ⟨by rw [hlen]; omega, by rw [hlen]; omega, e2⟩) hr h2
      refine ⟨g1, by simp only [hlen, List.length_cons] at *; omega, f.default :: ws, by rw [g3]; simp, fun hrw => ?_⟩
      obtain ⟨-, -, hrw⟩ := hrw
      obtain ⟨q1, k2, k3⟩ := g4 hrw
      refine ⟨fun c b0 => ?_, fun c p => ?_, ?_, ?_, k3⟩
      · rw [write]
        refine runs_bind (a := c) ?_ fun b1 => q1 c b1
        simp only [FieldDef.write, e1, if_true, hnp, Bool.false_eq_true, if_false]
        exact ⟨_, runs_pure _ _⟩
      · obtain ⟨e, hh⟩ := k2 c p
        refine ⟨e, ?_⟩
        rw [initOffsets]
        simp only [FieldDef.initOffsets, e1, if_true, hnp, Bool.false_eq_true, if_false, ok_bind, hh]
        simp
      · simp only [FieldDef.Canonical, e1, hnp, Bool.not_false, Bool.and_self, if_true]
      · intro _ hp
        rw [hnp] at hp; simp at hp
    · -- present
      have hb := he.1 e1
      have hkeq : k = prior.length - base := by
        rcases hkk with h | h
        · exact h
        · exact absurd h.2.2 e2
      have hK := read_numExt h2
      have hp : isPresent K base prior.length = true := decide_eq_true (by omega)
      have hr2 : r2.WF := by
        have := Reader.safe_alignto 8 r hr
        rw [e3] at this
        exact this.1
      obtain ⟨rfl, hfield⟩ := field_reread hk hs hf rfl hr2 e4
      obtain ⟨g1, g2, ws, g3, g4⟩ := reread hk hs params base fs _ vs (k + 1) K c1 c' r1 r'
        (fun g hg => hpl g (by simp [hg])) hext' (.inl (by rw [hlen]; omega)) hr1 h2
      refine ⟨g1, by simp only [hlen, List.length_cons] at *; omega, v :: ws, by rw [g3]; simp, fun hrw => ?_⟩
      obtain ⟨hrw1, hrw2, hrw⟩ := hrw
      obtain ⟨k1, k2, k3⟩ := g4 hrw
      obtain ⟨l1, l2, l3⟩ := hfield (hrw1 (by simp [hp]))
      refine ⟨fun c b0 => ?_, fun c p => ?_, ?_, hrw2, k3⟩
      · rw [write]
        refine runs_bind (a := c) ?_ fun b1 => k1 c b1
        simp only [FieldDef.write, e1, if_true, hp]
        exact runs_bind ⟨_, (emits_alignto 8 b0.length (by omega)).runs rfl⟩ fun b1 => l1.write c b1
      · obtain ⟨e', hh'⟩ := l1.init c (Array'.align8 p)
        obtain ⟨e, hh⟩ := k2 c e'
        refine ⟨e, ?_⟩
        rw [initOffsets]
        simp only [FieldDef.initOffsets, e1, if_true, hp, hh', ok_bind, hh]
        simp
      · simp only [FieldDef.Canonical, e1, hp, Bool.not_true, Bool.and_false, Bool.false_eq_true, if_false]
        exact ⟨l2, l3⟩
    · -- not extended
      have hb : ¬ base ≤ prior.length := fun hb => by rw [he.2 hb] at e1; simp at e1
      obtain ⟨rfl, hfield⟩ := field_reread hk hs hf rfl hr e4
      obtain ⟨g1, g2, ws, g3, g4⟩ := reread hk hs params base fs _ vs k1 K c1 c' r1 r'
        (fun g hg => hpl g (by simp [hg])) hext' (.inl (by rcases hkk with h | h <;> rw [hlen] <;> omega)) hr1 h2
      refine ⟨g1, by simp only [hlen, List.length_cons] at *; omega, v :: ws, by rw [g3]; simp, fun hrw => ?_⟩
      obtain ⟨hrw1, hrw2, hrw⟩ := hrw
      obtain ⟨k1, k2, k3⟩ := g4 hrw
      obtain ⟨l1, l2, l3⟩ := hfield (hrw1 (by simp [e1]))
      refine ⟨fun c b0 => ?_, fun c p => ?_, ?_, hrw2, k3⟩
      · rw [write]
        refine runs_bind (a := c) ?_ fun b1 => k1 c b1
        simp only [FieldDef.write, e1, Bool.false_eq_true, if_false]
        exact l1.write c b0
      · obtain ⟨e', hh'⟩ := l1.init c p
        obtain ⟨e, hh⟩ := k2 c e'
        refine ⟨e, ?_⟩
        rw [initOffsets]
        simp only [FieldDef.initOffsets, e1, Bool.false_eq_true, if_false, hh', ok_bind, hh]
        simp
      · simp only [FieldDef.Canonical, e1, Bool.false_and, Bool.false_eq_true, if_false]
        exact ⟨l2, l3⟩

theorem numExtended_le (fs : List FieldDef) : numExtended fs ≤ fs.length := List.length_filter_le _ _

end Struct

theorem select_field {fs : List FieldDef} {tag : Int} {f : FieldDef} (h : Union.select fs tag = .ok f) : f ∈ fs := by
  unfold Union.select at h
  split at h
  · cases h
  · split at h
    · rename_i g hg
      cases h
      exact List.mem_of_getElem? hg
    · cases h

theorem selectCase_field : ∀ {cases : List CaseDef} {default : Option (Option FieldDef)} {n slot : Nat} {s : Int} {f : FieldDef},
    Choice.selectCase cases default n s = .ok (some f, slot) → (∃ k ∈ cases, k.field = some f) ∨ default = some (some f)
  | [], some g, n, slot, s, f, h => by
    simp only [Choice.selectCase, Except.ok.injEq, Prod.mk.injEq] at h
    exact .inr (by rw [h.1])
  | [], none, n, slot, s, f, h => by cases h
  | k :: ks, default, n, slot, s, f, h => by
    simp only [Choice.selectCase] at h
    split at h
    · simp only [Except.ok.injEq, Prod.mk.injEq] at h
      exact .inl ⟨k, by simp, h.1⟩
    · rcases selectCase_field h with ⟨k', h1, h2⟩ | h
      · exact .inl ⟨k', by simp [h1], h2⟩
      · exact .inr h

/-- the member of a union or choice -/
theorem branch_reread (hk : ∀ id, (codecs id).Rereads (rewritable id) (canonical id)) (hs : ∀ id, (codecs id).SafeRead)
    {f : FieldDef} (hf : f.Direct) (hx : f.extended = false) {ps : List Int} {slot : Nat} {c c' : Ctx} {v : Val} {r r' : Reader}
    (hr : r.WF) (h : Branch.read codecs (some f) ps slot none c r = (.ok (v, c'), r')) :
    c' = c ∧ (f.Rewritable rewritable ⟨ps, [], 0⟩ v →
      (∀ c b0, ∃ bs, Runs (Branch.write codecs (some f) ps slot none c v) b0 bs c) ∧
      (∀ c p, ∃ e, Branch.initOffsets codecs (some f) ps slot none c p v = .ok (e, v, c)) ∧
      f.Canonical canonical ⟨ps, [], 0⟩ true v) := by
  obtain ⟨g1, g2⟩ := field_reread hk hs hf (env := ⟨ps, [], 0⟩) rfl hr h
  refine ⟨g1, fun hrw => ?_⟩
  obtain ⟨l1, l2, l3⟩ := g2 hrw
  refine ⟨fun c b0 => ?_, fun c p => ?_, ?_⟩
  · simp only [Branch.write, FieldDef.write, hx, Bool.false_eq_true, if_false]
    exact l1.write c b0
  · obtain ⟨e, he⟩ := l1.init c p
    exact ⟨e, by simp only [Branch.initOffsets, FieldDef.initOffsets, hx, Bool.false_eq_true, if_false, he, ok_bind]⟩
  · simp only [FieldDef.Canonical, hx, Bool.false_and, Bool.false_eq_true, if_false]
    exact ⟨l2, l3⟩

/-- Compounds. -/
theorem CompoundDef.rereads (hk : ∀ id, (codecs id).Rereads (rewritable id) (canonical id)) (hs : ∀ id, (codecs id).SafeRead)
    {d : CompoundDef} {closed : Nat → Bool} {cl : Bool} (hl : d.Layout closed cl) (hp : ∀ f, d.HasField f → f.Direct) :
    (d.codec codecs).Rereads (d.Rewritable codecs rewritable) (d.Canonical codecs canonical) := by
  intro c ps r x c' r' hr h
  cases d with
  | struct fs =>
    obtain ⟨⟨vs, K, c1⟩, r1, h1, h2⟩ := M.bind_inv (show (Struct.read codecs ps none fs [] 0 c >>= fun q =>
      pure (Val.obj ps q.2.1 0 q.1, q.2.2)) r = _ from h)
    simp only [M.pure_apply, Prod.mk.injEq, Except.ok.injEq] at h2
    obtain ⟨⟨rfl, rfl⟩, -⟩ := h2
    obtain ⟨g1, g2, ws, g3, g4⟩ := Struct.reread hk hs ps (Struct.base fs) fs [] vs 0 K c c1 r r1 hp
      (by simpa using hl.2.2.2) (.inl (by simp)) hr h1
    simp only [List.nil_append] at g3
    subst g3
    refine ⟨g1, rfl, fun hrw => ?_⟩
    obtain ⟨k1, k2, k3⟩ := g4 hrw
    refine ⟨⟨fun c b0 => k1 c b0, fun c p => ?_⟩, ?_, rfl, k3⟩
    · obtain ⟨e, he⟩ := k2 c p
      refine ⟨e, ?_⟩
      simp only [CompoundDef.codec, Struct.codec, he, ok_bind, List.nil_append]
    · have := Struct.numExtended_le fs
      simp only [List.length_nil, Nat.zero_add, Struct.base] at g2
      omega
  | union fs =>
    obtain ⟨⟨tag, c1⟩, r1, h1, h2⟩ := M.bind_inv (show (intRead (.var .varsize) none c >>= fun q =>
      (M.lift (Union.select fs q.1) >>= fun f => Branch.read codecs (some f) ps (Union.slot q.1) none q.2 >>= fun b =>
        pure (Val.obj ps 0 q.1 [b.1], b.2))) r = _ from h)
    obtain ⟨f, r2, h3, h4⟩ := M.bind_inv h2
    obtain ⟨⟨v, c2⟩, r3, h5, h6⟩ := M.bind_inv h4
    simp only [M.pure_apply, Prod.mk.injEq, Except.ok.injEq] at h6
    obtain ⟨⟨rfl, rfl⟩, -⟩ := h6
    rw [M.lift_apply] at h3
    simp only [Prod.mk.injEq] at h3
    obtain ⟨hsel, rfl⟩ := h3
    obtain ⟨rfl, hin⟩ := intRead_inv hr h1
    have hr1 : r1.WF := by
      have := safe_intRead (.var .varsize) none c1 r hr
      rw [h1] at this
      exact this.1
    have hmem := select_field hsel
    obtain ⟨g1, g2⟩ := branch_reread hk hs (hp f hmem) (hl f hmem).2.1 hr1 h5
    refine ⟨g1, rfl, fun hrw => ?_⟩
    obtain ⟨k1, k2, k3⟩ := g2 (hrw f hsel)
    refine ⟨⟨fun c b0 => ?_, fun c p => ?_⟩, rfl, f, hsel, k3⟩
    · exact runs_bind (intWrite_runs hin c b0) fun b1 => runs_lift_bind hsel (k1 c b1)
    · obtain ⟨n, hn⟩ := intSize_ok hin c p
      obtain ⟨e, he⟩ := k2 c (p + n)
      refine ⟨e, ?_⟩
      simp only [CompoundDef.codec, Union.codec, Union.tagMode, hn, hsel, he, ok_bind]
  | choice selector cs default =>
    obtain ⟨⟨f, slot⟩, r1, h1, h2⟩ := M.bind_inv (show (M.lift (Choice.select selector cs default ps) >>= fun q =>
      (Branch.read codecs q.1 ps q.2 none c >>= fun b => pure (Val.obj ps 0 0 [b.1], b.2))) r = _ from h)
    obtain ⟨⟨v, c2⟩, r3, h5, h6⟩ := M.bind_inv h2
    simp only [M.pure_apply, Prod.mk.injEq, Except.ok.injEq] at h6
    obtain ⟨⟨rfl, rfl⟩, -⟩ := h6
    rw [M.lift_apply] at h1
    simp only [Prod.mk.injEq] at h1
    obtain ⟨hsel, rfl⟩ := h1
    cases f with
    | none =>
      simp only [Branch.read, M.pure_apply, Prod.mk.injEq, Except.ok.injEq] at h5
      obtain ⟨⟨rfl, rfl⟩, -⟩ := h5
      refine ⟨rfl, rfl, fun _ => ⟨⟨fun c b0 => ?_, fun c p => ?_⟩, rfl, rfl, none, slot, hsel, rfl⟩⟩
      · exact runs_lift_bind hsel ⟨_, runs_pure _ _⟩
      · exact ⟨p, by simp only [CompoundDef.codec, Choice.codec, hsel, Branch.initOffsets, ok_bind]⟩
    | some f =>
      obtain ⟨s, -, hs2⟩ := except_bind_ok hsel
      have hmem := selectCase_field hs2
      have hx : f.extended = false := by
        rcases hmem with ⟨k, hk1, hk2⟩ | hd
        · exact (hl.1 k hk1 f hk2).2.1
        · exact (hl.2 f hd).2.1
      obtain ⟨g1, g2⟩ := branch_reread hk hs (hp f hmem) hx hr h5
      refine ⟨g1, rfl, fun hrw => ?_⟩
      obtain ⟨k1, k2, k3⟩ := g2 (hrw f slot hsel)
      refine ⟨⟨fun c b0 => ?_, fun c p => ?_⟩, rfl, rfl, some f, slot, hsel, k3⟩
      · exact runs_lift_bind hsel (k1 c b0)
      · obtain ⟨e, he⟩ := k2 c p
        exact ⟨e, by simp only [CompoundDef.codec, Choice.codec, hsel, he, ok_bind]⟩

theorem Schema.rereads (defs : Schema) {closed : Nat → Bool} (hl : defs.Layout closed) (hp : defs.Direct) :
    ∀ n id, (defs.codec n id).Rereads (defs.Rewritable n id) (defs.Canonical n id)
  | 0, id => fun c ps r x c' r' _ h => by
    simp [Schema.codec, Codec.limit] at h
  | n + 1, id => CompoundDef.rereads (fun id => Schema.rereads defs hl hp n id) (fun id => Schema.safeRead defs n id)
      (hl id) (fun f hf => hp id f hf)

end Zserio
