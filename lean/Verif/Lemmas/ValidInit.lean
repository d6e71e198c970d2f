import Verif.Lemmas.ValidStruct
set_option linter.unusedSimpArgs false
/- Without offsets, `initialize_offsets` does not change the object. -/
namespace Zserio

/-- `initialize_offsets` does not change values -/
def Methods.Unchanged (m : Methods) : Prop := ∀ mode c p v e v' c', m.initOffsets mode c p v = .ok (e, v', c') → v' = v

/-- `initialize_offsets` does not change objects -/
def Codec.Unchanged (k : Codec) : Prop := ∀ mode c p v e v' c', k.initOffsets mode c p v = .ok (e, v', c') → v' = v

theorem methods_unchanged {codecs : Nat → Codec} (hk : ∀ id, (codecs id).Unchanged) {env : Env} {t : ElemType} {m : Methods}
    (h : t.methods codecs env = .ok m) : m.Unchanged := by
  intro mode c p v e v' c' hi
  cases t with
  | int k =>
    cases h
    obtain ⟨⟨n, c1⟩, -, h2⟩ := except_bind_ok hi
    simp only [Except.ok.injEq, Prod.mk.injEq] at h2
    exact h2.2.1.symm
  | other b =>
    cases h
    obtain ⟨n, -, h2⟩ := except_bind_ok hi
    simp only [Except.ok.injEq, Prod.mk.injEq] at h2
    exact h2.2.1.symm
  | dynBits signed length =>
    obtain ⟨n, -, h1⟩ := except_bind_ok h
    obtain ⟨k, -, h3⟩ := except_bind_ok h1
    cases h3
    obtain ⟨⟨n, c1⟩, -, h2⟩ := except_bind_ok hi
    simp only [Except.ok.injEq, Prod.mk.injEq] at h2
    exact h2.2.1.symm
  | enum en =>
    cases h
    obtain ⟨⟨n, c1⟩, -, h2⟩ := except_bind_ok hi
    simp only [Except.ok.injEq, Prod.mk.injEq] at h2
    exact h2.2.1.symm
  | bitmask k =>
    cases h
    obtain ⟨⟨n, c1⟩, -, h2⟩ := except_bind_ok hi
    simp only [Except.ok.injEq, Prod.mk.injEq] at h2
    exact h2.2.1.symm
  | compound id args =>
    cases h
    exact hk id mode c p v e v' c' hi

theorem initLoop_unchanged {σ : Type} {m : Methods} (hm : m.Unchanged) : ∀ (xs : List Val) (p i : Nat) (s : σ) (e : Nat)
    (ys : List Val) (s' : σ), Array'.initOffsetsLoop m.traits none p i xs s = .ok (e, ys, s') → ys = xs ∧ s' = s
  | [], p, i, s, e, ys, s', h => by
    simp only [Array'.initOffsetsLoop, Except.ok.injEq, Prod.mk.injEq] at h
    exact ⟨h.2.1.symm, h.2.2.symm⟩
  | x :: xs, p, i, s, e, ys, s', h => by
    obtain ⟨⟨p1, s1⟩, h1, g1⟩ := except_bind_ok h
    cases h1
    obtain ⟨⟨p2, x2⟩, h2, g2⟩ := except_bind_ok g1
    obtain ⟨⟨p3, v3, c3⟩, h4, h5⟩ := except_bind_ok h2
    cases h5
    obtain rfl := hm _ _ _ _ _ _ _ h4
    obtain ⟨⟨p6, ys', s6⟩, h6, g3⟩ := except_bind_ok g2
    obtain ⟨rfl, rfl⟩ := initLoop_unchanged hm xs _ _ _ _ _ _ h6
    cases g3
    exact ⟨rfl, rfl⟩

theorem initPackedLoop_unchanged {σ : Type} {m : Methods} (hm : m.Unchanged) : ∀ (xs : List Val) (c : Ctx) (p i : Nat) (s : σ)
    (e : Nat) (ys : List Val) (s' : σ),
    Array'.initOffsetsPackedLoop m.packedTraits none c p i xs s = .ok (e, ys, s') → ys = xs ∧ s' = s
  | [], c, p, i, s, e, ys, s', h => by
    simp only [Array'.initOffsetsPackedLoop, Except.ok.injEq, Prod.mk.injEq] at h
    exact ⟨h.2.1.symm, h.2.2.symm⟩
  | x :: xs, c, p, i, s, e, ys, s', h => by
    obtain ⟨⟨p1, s1⟩, h1, g1⟩ := except_bind_ok h
    cases h1
    obtain ⟨⟨p2, x2, c2⟩, h2, g2⟩ := except_bind_ok g1
    obtain rfl := hm _ _ _ _ _ _ _ h2
    obtain ⟨⟨p6, ys', s6⟩, h6, g3⟩ := except_bind_ok g2
    obtain ⟨rfl, rfl⟩ := initPackedLoop_unchanged hm xs _ _ _ _ _ _ _ h6
    cases g3
    exact ⟨rfl, rfl⟩

namespace FieldDef
variable {codecs : Nat → Codec} {f : FieldDef}

theorem initOffsets_unchanged (hk : ∀ id, (codecs id).Unchanged) (ho : f.offset = none) {env : Env} {slot : Nat} {present : Bool}
    {mode : Mode} {c : Ctx} {p : Nat} {v : Val} {e : Nat} {fields : List Val} {v' : Val} {c' : Ctx}
    (h : f.initOffsets codecs env slot present mode c p v = .ok (e, fields, v', c')) : fields = env.fields ∧ v' = v := by
  have hval : ∀ p c, f.initOffsetsValue codecs env slot mode c p v = .ok (e, fields, v', c') → fields = env.fields ∧ v' = v := by
    intro p c h
    obtain ⟨m, hm, h1⟩ := except_bind_ok h
    clear h
    have hu := methods_unchanged hk hm
    cases ha : f.array with
    | none =>
      rw [ha] at h1
      obtain ⟨⟨p1, v1, c1⟩, h2, h3⟩ := except_bind_ok h1
      obtain rfl := hu _ _ _ _ _ _ _ h2
      cases h3
      exact ⟨rfl, rfl⟩
    | some a =>
      rw [ha] at h1
      obtain ⟨xs, h2, h3⟩ := except_bind_ok h1
      clear h1
      obtain ⟨⟨p1, xs1, fs1⟩, h4, h5⟩ := except_bind_ok h3
      cases h5
      have hset : (f.arrayCfg a).setOffset = none := by simp only [arrayCfg, ho]
      have hx : xs1 = xs ∧ fields = env.fields := by
        unfold initOffsetsArray at h4
        split at h4
        · obtain ⟨q, -, h6⟩ := except_bind_ok h4
          split at h6
          · obtain ⟨c2, -, h7⟩ := except_bind_ok h6
            rw [hset] at h7
            exact initPackedLoop_unchanged hu _ _ _ _ _ _ _ _ h7
          · simp only [Except.ok.injEq, Prod.mk.injEq] at h6
            exact ⟨h6.2.1.symm, h6.2.2.symm⟩
        · obtain ⟨q, -, h6⟩ := except_bind_ok h4
          rw [hset] at h6
          exact initLoop_unchanged hu _ _ _ _ _ _ _ h6
      obtain ⟨rfl, rfl⟩ := hx
      refine ⟨rfl, ?_⟩
      cases v <;> simp only [Val.asArr, Except.ok.injEq, reduceCtorEq] at h2
      rw [h2]
  have hopt : ∀ p, f.initOffsetsOptional codecs env slot mode c p v = .ok (e, fields, v', c') → fields = env.fields ∧ v' = v := by
    intro p h
    obtain ⟨used, -, h1⟩ := except_bind_ok h
    split at h1
    · obtain ⟨fs, h2, h3⟩ := except_bind_ok h1
      simp only [initOwnOffset, ownOffset, ho, Except.ok.injEq] at h2
      subst h2
      exact hval _ _ h3
    · simp only [Except.ok.injEq, Prod.mk.injEq] at h1
      exact ⟨h1.2.1.symm, h1.2.2.1.symm⟩
  unfold initOffsets at h
  split at h
  · split at h
    · exact hopt _ h
    · simp only [Except.ok.injEq, Prod.mk.injEq] at h
      exact ⟨h.2.1.symm, h.2.2.1.symm⟩
  · exact hopt _ h

end FieldDef

theorem Struct.initOffsets_unchanged {codecs : Nat → Codec} (hk : ∀ id, (codecs id).Unchanged) {ps : List Int} {k base : Nat}
    {mode : Mode} : ∀ (fs : List FieldDef), (∀ f ∈ fs, f.offset = none) → ∀ (prior vs : List Val) (c : Ctx) (p e : Nat)
    (vs' : List Val) (c' : Ctx), Struct.initOffsets codecs ps k base mode fs prior vs c p = .ok (e, vs', c') → vs' = prior ++ vs
  | [], _, prior, vs, c, p, e, vs', c', h => by
    cases vs with
    | nil =>
      simp only [Struct.initOffsets, Except.ok.injEq, Prod.mk.injEq] at h
      rw [List.append_nil, h.2.1]
    | cons v vs => cases h
  | f :: fs, ho, prior, vs, c, p, e, vs', c', h => by
    cases vs with
    | nil => cases h
    | cons v vs =>
      obtain ⟨⟨p1, prior1, v1, c1⟩, h1, h2⟩ := except_bind_ok h
      obtain ⟨rfl, rfl⟩ := FieldDef.initOffsets_unchanged hk (ho f List.mem_cons_self) h1
      rw [Struct.initOffsets_unchanged hk fs (fun g hg => ho g (List.mem_cons_of_mem _ hg)) _ _ _ _ _ _ _ h2]
      simp

theorem Branch.initOffsets_unchanged {codecs : Nat → Codec} (hk : ∀ id, (codecs id).Unchanged) {f : Option FieldDef}
    (ho : ∀ g, f = some g → g.offset = none) {ps : List Int} {slot : Nat} {mode : Mode} {c : Ctx} {p : Nat} {v : Val} {e : Nat}
    {v' : Val} {c' : Ctx} (h : Branch.initOffsets codecs f ps slot mode c p v = .ok (e, v', c')) : v' = v := by
  cases f with
  | none =>
    simp only [Branch.initOffsets, Except.ok.injEq, Prod.mk.injEq] at h
    exact h.2.1.symm
  | some f =>
    obtain ⟨⟨p1, fs, v1, c1⟩, h1, h2⟩ := except_bind_ok h
    obtain ⟨-, rfl⟩ := FieldDef.initOffsets_unchanged hk (ho f rfl) h1
    simp only [Except.ok.injEq, Prod.mk.injEq] at h2
    exact h2.2.1.symm

theorem Choice.selectCase_all {P : FieldDef → Prop} {default : Option (Option FieldDef)} (hd : ∀ f, default = some (some f) → P f) :
    ∀ (cases : List CaseDef), (∀ k ∈ cases, ∀ f, k.field = some f → P f) → ∀ (n : Nat) (s : Int) (f : Option FieldDef) (slot : Nat),
    Choice.selectCase cases default n s = .ok (f, slot) → ∀ g, f = some g → P g
  | [], _, n, s, f, slot, h, g, hg => by
    cases default with
    | none => cases h
    | some d => cases h; exact hd g (by rw [hg])
  | k :: ks, hc, n, s, f, slot, h, g, hg => by
    unfold Choice.selectCase at h
    split at h
    · cases h
      exact hc k List.mem_cons_self g hg
    · exact Choice.selectCase_all hd ks (fun k hk => hc k (List.mem_cons_of_mem _ hk)) _ _ _ _ h g hg

theorem Schema.unchanged {defs : Schema} (ho : defs.NoOffsets) : ∀ n id, (defs.codec n id).Unchanged
  | 0, id => by
    intro mode c p v e v' c' h
    cases h
  | n + 1, id => by
    intro mode c p v e v' c' h
    have hk := Schema.unchanged ho n
    have hf := ho id
    unfold Schema.codec at h
    cases hd : defs id with
    | struct fs =>
      rw [hd] at h hf
      cases v <;> try cases h
      rename_i ps k tag vs
      obtain ⟨⟨e1, vs1, c1⟩, h1, h2⟩ := except_bind_ok h
      cases h2
      rw [Struct.initOffsets_unchanged hk fs hf _ _ _ _ _ _ _ h1]
      rfl
    | union fs =>
      rw [hd] at h hf
      match v, h with
      | .obj ps k tag [v], h =>
        obtain ⟨⟨n1, c1⟩, -, h1⟩ := except_bind_ok h
        obtain ⟨f, hsel, h2⟩ := except_bind_ok h1
        obtain ⟨⟨e3, v3, c3⟩, h3, h4⟩ := except_bind_ok h2
        cases h4
        have : f ∈ fs := by
          unfold Union.select at hsel
          split at hsel
          · cases hsel
          · split at hsel
            · cases hsel; exact List.mem_of_getElem? ‹_›
            · cases hsel
        rw [Branch.initOffsets_unchanged hk (fun g hg => by cases hg; exact hf _ this) h3]
    | choice selector cases default =>
      rw [hd] at h hf
      match v, h with
      | .obj ps k tag [v], h =>
        obtain ⟨⟨f, slot⟩, hsel, h2⟩ := except_bind_ok h
        obtain ⟨⟨e3, v3, c3⟩, h3, h4⟩ := except_bind_ok h2
        cases h4
        obtain ⟨s, -, hsel⟩ := except_bind_ok hsel
        rw [Branch.initOffsets_unchanged hk (Choice.selectCase_all (P := (·.offset = none)) hf.2 cases hf.1 _ _ _ _ hsel) h3]

theorem Schema.initialize_same {defs : Schema} (ho : defs.NoOffsets) {n id : Nat} {p : Nat} {x x1 : Val} {e : Nat}
    (h : (defs.codec n id).initialize p x = .ok (e, x1)) : x1 = x := by
  obtain ⟨⟨e1, v1, c1⟩, h1, h2⟩ := except_bind_ok h
  cases h2
  exact Schema.unchanged ho n id _ _ _ _ _ _ _ h1

end Zserio
