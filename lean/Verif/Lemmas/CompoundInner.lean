import Verif.Lemmas.CompoundField
set_option linter.unusedSimpArgs false
/-
Helper lemmas on generated compounds: alignment, offset, constraint and optionality of a field.
-/
namespace Zserio
open Writer Array' Ctx

namespace FieldDef
variable {codecs : Nat → Codec} {stored : Nat → Val → Val → Prop} {closed : Nat → Bool}

theorem alignTo_eq (a p : Nat) (ha : 0 < a) : (alignTo a p).toNat = p + alignGap a p := by
  obtain ⟨q, -, h1, -, h3⟩ := C16_alignto_agree a p ha
  have h4 := h1 (zeros p) (length_zeros p)
  rw [emits_alignto a p ha (zeros p) (length_zeros p)] at h4
  simp only [Prod.mk.injEq, true_and] at h4
  have := Methods.ofBits_inj h4
  have := congrArg List.length this
  simp only [length_zeros] at this
  obtain ⟨q', ⟨hq, -⟩⟩ : ∃ q', p ≤ q ∧ q' = q := by
    obtain ⟨q2, h5, -, -, h6⟩ := C16_alignto_agree a p ha
    have : q2 = q := by omega
    exact ⟨q, by rw [← this]; exact h5.2.1, rfl⟩
  rw [h3]
  simp only [Int.toNat_natCast]
  omega

theorem writeAlign_inv {f : FieldDef} {b0 : List Bool} {w' : Writer} (h : f.writeAlign (ofBits b0) = (.ok (), w')) :
    ∃ g, w' = ofBits (b0 ++ zeros g) ∧ alignPos f.alignment b0.length = b0.length + g ∧
      ∀ s, Reader.Parses f.readAlign b0.length (zeros g) s () := by
  unfold writeAlign at h
  unfold readAlign alignPos
  generalize f.alignment = fa at h ⊢
  rcases fa with _ | a
  · simp only [M.pure_apply, Prod.mk.injEq, true_and] at h
    exact ⟨0, by simp [← h, zeros], by simp, fun s => by simpa [zeros] using Reader.parses_pure () _ _⟩
  · simp only at h ⊢
    by_cases ha : a = 0
    · subst ha
      unfold Writer.alignto at h
      rw [M.bind_ok (M.get_apply _), if_pos rfl] at h
      simp at h
    · have ha : 0 < a := by omega
      have := emits_alignto a b0.length ha b0 rfl
      rw [this] at h
      simp only [Prod.mk.injEq, true_and] at h
      exact ⟨_, h.symm, alignTo_eq a b0.length ha, fun s => Reader.parses_alignto a _ ha s _ (length_zeros _)⟩

theorem writeOffset_inv {f : FieldDef} {env : Env} {b0 : List Bool} {w' : Writer}
    (h : f.writeOffset env (ofBits b0) = (.ok (), w')) :
    ∃ g, w' = ofBits (b0 ++ zeros g) ∧ (if f.ownOffset.isSome then align8 b0.length else b0.length) = b0.length + g ∧
      ∀ s, Reader.Parses (f.readOffset env) b0.length (zeros g) s () := by
  unfold writeOffset at h
  unfold readOffset
  generalize f.ownOffset = fo at h ⊢
  rcases fo with _ | o
  · simp only [M.pure_apply, Prod.mk.injEq, true_and] at h
    exact ⟨0, by simp [← h, zeros], by simp, fun s => by simpa [zeros] using Reader.parses_pure () _ _⟩
  · simp only at h ⊢
    have := emits_alignto 8 b0.length (by omega) b0 rfl
    rw [M.bind_ok this, M.bind_ok (M.get_apply _), M.lift_apply] at h
    simp only [Prod.mk.injEq] at h
    have hpos : (ofBits (b0 ++ zeros (alignGap 8 b0.length))).pos = b0.length + alignGap 8 b0.length := by
      simp [ofBits, length_zeros]
    rw [hpos] at h
    refine ⟨_, h.2.symm, by simp [align8_eq, gapTo, alignGap], ?_⟩
    intro s r hr hp hrest
    have h1 := Reader.parses_alignto 8 b0.length (by omega) s (zeros (alignGap 8 b0.length)) (length_zeros _) r hr hp hrest
    simp only [Nat.cast_ofNat] at h1
    rw [M.bind_ok h1, M.bind_ok (M.get_apply _), M.lift_apply]
    simp only [Reader.advance_pos, hp, length_zeros]
    rw [h.1]

/-- the checks before a value is written -/
theorem writeChecks_inv {f : FieldDef} {env : Env} {v : Val} (h : f.writeChecks env v = .ok ()) :
    f.checkConstraint env v = .ok () ∧ f.checkLength env v = .ok () := by
  unfold writeChecks at h
  obtain ⟨_, h1, h⟩ := except_bind_ok h
  obtain ⟨_, h2, h⟩ := except_bind_ok h
  exact ⟨h1, h2⟩

theorem Agree.checkConstraint {f : FieldDef} {env env' : Env} {v v' : Val} (h : f.Agree env env' v v')
    (hc : f.checkConstraint env v = .ok ()) : f.checkConstraint env' v' = .ok () := by
  unfold FieldDef.checkConstraint at *
  rcases hf : f.constraint with _ | e
  · rfl
  · rw [hf] at hc
    simp only at hc ⊢
    obtain ⟨b, hb, hc⟩ := except_bind_ok hc
    cases b
    · cases hc
    · rw [h.constraint e hf hb]; rfl

/-- how the field is read back, without the presence test of extended fields -/
def ReadsBack (codecs : Nat → Codec) (stored : Nat → Val → Val → Prop) (closed : Nat → Bool) (f : FieldDef) (env : Env)
    (slot : Nat) (mode : Mode) (v : Val) (cr cr' : Ctx) (p : Nat) (bs : List Bool) : Prop :=
  ∀ env' v', (∀ e, f.optional = .clause e → e env' = e env) →
    (f.isUsed env v = .ok true → f.Agree env env' v v' ∧ f.StoredValue stored env v v') →
    (f.isUsed env v = .ok false → v' = .none) →
    ∀ s, (f.Closed closed ∨ (mode = none ∧ s = [])) →
    Reader.Parses (f.read codecs env' slot mode cr) p bs s (v', cr')

theorem inner_passes (hk : ∀ id, (codecs id).Lawful (stored id) (closed id))
    (hP : ∀ id x x', stored id x x' → ∃ ps, x.params = .ok ps) (f : FieldDef) (hok : f.ArrayOk closed)
    (env : Env) (slot : Nat) (mode : Mode) (v : Val) : ∃ es : List Evt, (mode = none → es = []) ∧
    (∀ path, mode = some path → ∀ c c', f.initPackingInner codecs env slot path c v = .ok c' → Ctx.initAll c es = .ok c') ∧
    ((f.packable && f.array.isNone) = false → es = []) ∧
    ∀ rest cw cs cr, AllSync (es ++ rest) cw cs cr → ∀ b0 cw' w',
    f.writeInner codecs env slot mode cw v (ofBits b0) = (.ok cw', w') →
    ∃ bs cs' cr', w' = ofBits (b0 ++ bs) ∧
      f.bitsizeofInner codecs env slot mode cs b0.length v = .ok (b0.length + bs.length, cs') ∧
      (∀ env' v', f.Agree env env' v v' → f.StoredValue stored env v v' → ∀ s, (f.Closed closed ∨ (mode = none ∧ s = [])) →
        Reader.Parses (f.readInner codecs env' slot mode cr) b0.length bs s (v', cr')) ∧
      AllSync rest cw' cs' cr' := by
  obtain ⟨es, h1, h2, h0, h3⟩ := value_passes hk hP f hok env slot mode v
  refine ⟨es, h1, h2, h0, ?_⟩
  intro rest cw cs cr hsync b0 cw' w' h
  unfold writeInner at h
  obtain ⟨_, w1, ha, h⟩ := Writer.bind_inv h
  obtain ⟨g1, rfl, ha1, ha2⟩ := writeAlign_inv ha
  obtain ⟨_, w2, ho, h⟩ := Writer.bind_inv h
  obtain ⟨g2, rfl, ho1, ho2⟩ := writeOffset_inv ho
  obtain ⟨_, hc, h⟩ := lift_inv h
  obtain ⟨hc1, hc2⟩ := writeChecks_inv hc
  obtain ⟨bs, cs', cr', rfl, k2, k3, k4⟩ := h3 rest cw cs cr hsync hc2 _ cw' w' h
  refine ⟨zeros g1 ++ (zeros g2 ++ bs), cs', cr', by simp only [List.append_assoc], ?_, ?_, k4⟩
  · unfold bitsizeofInner
    have : f.alignField b0.length = (b0 ++ zeros g1 ++ zeros g2).length := by
      unfold alignField
      rw [ha1]
      simp only [List.length_append, length_zeros] at ho1 ⊢
      exact ho1
    simp only [this, k2, ok_bind]
    simp only [List.length_append]
    congr 2; omega
  · intro env' v' hag hst s hs
    unfold readInner
    refine Reader.Parses.bind (ha2 _) ?_
    rw [hag.readOffset]
    refine Reader.Parses.bind (by simpa using ho2 _) ?_
    rw [hag.readValue]
    have h4 := k3 v' hst s hs
    have h5 := Reader.Parses.bind (bs' := []) (s := s) (f := fun (y : Val × Ctx) => do
      M.lift (f.checkConstraint env' y.1)
      pure (y.1, y.2)) (b := (v', cr')) (by simpa using h4)
      (Reader.Parses.lift_bind (f := fun _ => pure (v', cr')) (hag.checkConstraint hc1) (Reader.parses_pure _ _ _))
    simpa [Nat.add_assoc] using h5

theorem optional_passes (hk : ∀ id, (codecs id).Lawful (stored id) (closed id))
    (hP : ∀ id x x', stored id x x' → ∃ ps, x.params = .ok ps) (f : FieldDef) (hok : f.ArrayOk closed)
    (env : Env) (slot : Nat) (mode : Mode) (v : Val) : ∃ es : List Evt, (mode = none → es = []) ∧
    (∀ path, mode = some path → ∀ c c',
      (f.isUsed env v >>= fun used => if used then f.initPackingInner codecs env slot path c v else .ok c) = .ok c' →
      Ctx.initAll c es = .ok c') ∧
    ((f.packable && f.array.isNone) = false → es = []) ∧
    ∀ rest cw cs cr, AllSync (es ++ rest) cw cs cr → ∀ b0 cw' w',
    f.writeOptional codecs env slot mode cw v (ofBits b0) = (.ok cw', w') →
    ∃ bs cs' cr', w' = ofBits (b0 ++ bs) ∧
      f.bitsizeofOptional codecs env slot mode cs b0.length v = .ok (b0.length + bs.length, cs') ∧
      f.ReadsBack codecs stored closed env slot mode v cr cr' b0.length bs ∧
      AllSync rest cw' cs' cr' := by
  rcases hu : f.isUsed env v with e | used
  · refine ⟨[], fun _ => rfl, ?_, fun _ => rfl, ?_⟩
    · intro path _ c c' h; cases h
    · intro rest cw cs cr _ b0 cw' w' h
      unfold writeOptional at h
      rw [hu, M.bind_error (M.lift_apply _ _)] at h
      simp at h
  -- the presence bit
  have hbit : ∀ {b0 : List Bool} {w1 : Writer}, f.writeAutoBit used (ofBits b0) = (.ok (), w1) →
      ∃ bs, w1 = ofBits (b0 ++ bs) ∧ bs.length = f.autoBit ∧ ∀ env', (∀ e, f.optional = .clause e → e env' = e env) →
        ∀ s, Reader.Parses (f.readUsed env') b0.length bs s used := by
    intro b0 w1 h
    unfold writeAutoBit at h
    unfold readUsed autoBit
    unfold isUsed at hu
    rcases ho : f.optional with _ | _ | e
    · rw [ho] at h hu
      simp only [M.pure_apply, Prod.mk.injEq, true_and, Except.ok.injEq] at h hu
      subst hu
      exact ⟨[], by simp [← h], rfl, fun env' _ s => Reader.parses_pure _ _ _⟩
    · rw [ho] at h
      simp only at h
      have := (emits_writeBool used b0.length) b0 rfl
      rw [this] at h
      simp only [Prod.mk.injEq, true_and] at h
      exact ⟨[used], h.symm, rfl, fun env' _ s => Reader.parses_readBool used _ _⟩
    · rw [ho] at h hu
      simp only [M.pure_apply, Prod.mk.injEq, true_and] at h hu
      refine ⟨[], by simp [← h], rfl, fun env' he s => ?_⟩
      exact Reader.parses_lift ((he e rfl).trans hu) _ _
  cases used
  · refine ⟨[], fun _ => rfl, ?_, fun _ => rfl, ?_⟩
    · intro path _ c c' h; simp only [ok_bind] at h; simpa [Ctx.initAll] using h
    · intro rest cw cs cr hsync b0 cw' w' h
      unfold writeOptional at h
      rw [hu, M.bind_ok (M.lift_apply _ _)] at h
      obtain ⟨_, w1, hb, h⟩ := Writer.bind_inv h
      obtain ⟨bs, rfl, hb1, hb2⟩ := hbit hb
      simp only [Bool.false_eq_true, if_false, M.pure_apply, Prod.mk.injEq, Except.ok.injEq] at h
      obtain ⟨rfl, rfl⟩ := h
      refine ⟨bs, cs, cr, rfl, ?_, ?_, by simpa using hsync⟩
      · unfold bitsizeofOptional
        simp only [hu, ok_bind]; simp [hb1]
      · intro env' v' he _ hv s _
        rw [hv hu]
        unfold read
        have := Reader.Parses.bind (bs' := []) (s := s) (f := fun used => if used = true then
          f.readInner codecs env' slot mode cr else pure (Val.none, cr)) (b := (Val.none, cr)) (hb2 env' he _)
          (by simpa using Reader.parses_pure _ _ _)
        simpa using this
  · obtain ⟨es, h1, h2, h0, h3⟩ := inner_passes hk hP f hok env slot mode v
    refine ⟨es, h1, ?_, h0, ?_⟩
    · intro path hp c c' h
      exact h2 path hp c c' (by simp only [ok_bind] at h; simpa using h)
    · intro rest cw cs cr hsync b0 cw' w' h
      unfold writeOptional at h
      rw [hu, M.bind_ok (M.lift_apply _ _)] at h
      obtain ⟨_, w1, hb, h⟩ := Writer.bind_inv h
      obtain ⟨bs, rfl, hb1, hb2⟩ := hbit hb
      simp only [if_true] at h
      obtain ⟨bs2, cs', cr', rfl, k2, k3, k4⟩ := h3 rest cw cs cr hsync _ cw' w' h
      refine ⟨bs ++ bs2, cs', cr', by simp, ?_, ?_, k4⟩
      · unfold bitsizeofOptional
        simp only [hu, ok_bind, if_true]
        rw [← hb1, ← List.length_append, k2]
        simp [Nat.add_assoc]
      · intro env' v' he hv _ s hs
        obtain ⟨hag, hst⟩ := hv hu
        unfold read
        refine Reader.Parses.bind (hb2 env' he _) ?_
        simp only [if_true]
        simpa using k3 env' v' hag hst s hs

/-- the number of extended fields a field adds to the count of those read -/
def adds (f : FieldDef) (present : Bool) : Nat := if f.extended && present then 1 else 0

theorem field_passes (hk : ∀ id, (codecs id).Lawful (stored id) (closed id))
    (hP : ∀ id x x', stored id x x' → ∃ ps, x.params = .ok ps) (f : FieldDef) (hok : f.ArrayOk closed)
    (env : Env) (slot : Nat) (present : Bool) (mode : Mode) (v : Val) : ∃ es : List Evt, (mode = none → es = []) ∧
    (∀ path, mode = some path → ∀ c c', f.initPacking codecs env slot present path c v = .ok c' → Ctx.initAll c es = .ok c') ∧
    ∀ rest cw cs cr, AllSync (es ++ rest) cw cs cr → ∀ b0 cw' w',
    f.write codecs env slot present mode cw v (ofBits b0) = (.ok cw', w') →
    ∃ bs cs' cr', w' = ofBits (b0 ++ bs) ∧
      f.bitsizeof codecs env slot present mode cs b0.length v = .ok (b0.length + bs.length, cs') ∧
      ((f.extended && !present) = true → bs = []) ∧
      (∀ env' v', f.Stored stored env env' present v v' →
        (f.extended = true → present = true → ∀ p e c c',
          f.bitsizeofOptional codecs env slot none c p v = .ok (e, c') → p < e) →
        ∀ numExt s, (f.Closed closed ∨ (mode = none ∧ s = [])) →
          (f.extended = true → mode = none ∧ (present = false → s = [])) →
          Reader.Parses (Struct.readField codecs f env' slot mode numExt cr) b0.length bs s
            (v', numExt + f.adds present, cr')) ∧
      AllSync rest cw' cs' cr' := by
  by_cases hab : (f.extended && !present) = true
  · refine ⟨[], fun _ => rfl, ?_, ?_⟩
    · intro path _ c c' h
      unfold initPacking at h
      rw [if_pos hab] at h
      simpa [Ctx.initAll] using h
    · intro rest cw cs cr hsync b0 cw' w' h
      simp only [Bool.and_eq_true, Bool.not_eq_true'] at hab
      unfold FieldDef.write at h
      rw [if_pos hab.1, hab.2] at h
      simp only [Bool.false_eq_true, if_false, M.pure_apply, Prod.mk.injEq, Except.ok.injEq] at h
      obtain ⟨rfl, rfl⟩ := h
      refine ⟨[], cs, cr, by simp, ?_, fun _ => rfl, ?_, by simpa using hsync⟩
      · unfold FieldDef.bitsizeof
        simp [hab.1, hab.2]
      · intro env' v' hst _ numExt s _ hs
        unfold FieldDef.Stored at hst
        rw [if_pos (by simp [hab.1, hab.2])] at hst
        subst hst
        obtain ⟨-, hs⟩ := hs hab.1
        have hs := hs hab.2
        subst hs
        unfold Struct.readField
        rw [if_pos hab.1]
        intro r hr hp hrest
        rw [M.bind_ok (M.get_apply _)]
        have hle : r.bitsize ≤ (align8 r.pos : Int) := by
          have h1 := Reader.rest_length r hr
          rw [hrest] at h1
          simp only [List.append_nil, List.length_nil] at h1
          have := align8_eq r.pos
          omega
        rw [if_pos hle]
        simp [adds, hab.2, Reader.advance_zero]
  · obtain ⟨es, h1, h2, h0, h3⟩ := optional_passes hk hP f hok env slot mode v
    refine ⟨es, h1, ?_, ?_⟩
    · intro path hp c c' h
      unfold initPacking at h
      by_cases hpk : (f.packable && f.array.isNone) = true
      · rw [if_pos hpk, if_neg hab] at h
        exact h2 path hp c c' h
      · rw [if_neg hpk] at h
        rw [h0 (Bool.not_eq_true _ ▸ hpk)]
        simpa [Ctx.initAll] using h
    · intro rest cw cs cr hsync b0 cw' w' h
      by_cases hx : f.extended = true
      · have hpr : present = true := by
          cases present
          · simp [hx] at hab
          · rfl
        subst hpr
        unfold FieldDef.write at h
        rw [if_pos hx, if_pos rfl] at h
        have hal := emits_alignto 8 b0.length (by omega) b0 rfl
        rw [M.bind_ok hal] at h
        obtain ⟨bs, cs', cr', rfl, k2, k3, k4⟩ := h3 rest cw cs cr hsync _ cw' w' h
        simp only [List.length_append, length_zeros] at k2 k3
        have ha8 : align8 b0.length = b0.length + alignGap 8 b0.length := by simp [align8_eq, gapTo, alignGap]
        refine ⟨zeros (alignGap 8 b0.length) ++ bs, cs', cr', by simp only [List.append_assoc], ?_, ?_, ?_, k4⟩
        · unfold FieldDef.bitsizeof
          rw [if_pos hx, if_pos rfl, ha8, k2]
          simp [Nat.add_assoc]
        · simp
        · intro env' v' hst hpos numExt s hs hs2
          unfold FieldDef.Stored at hst
          rw [if_neg hab] at hst
          obtain ⟨g1, g2, g3⟩ := hst
          obtain ⟨rfl, -⟩ := hs2 hx
          have hlen := hpos hx rfl _ _ _ _ k2
          have hread := k3 env' v' g1 g2 g3 s hs
          unfold Struct.readField
          rw [if_pos hx]
          intro r hr hp hrest
          rw [M.bind_ok (M.get_apply _)]
          have hgt : ¬ (align8 r.pos : Int) ≥ r.bitsize := by
            have h1 := Reader.rest_length r hr
            rw [hrest] at h1
            simp only [List.length_append, length_zeros] at h1
            rw [hp, ha8]
            omega
          rw [if_neg hgt]
          have h5 := Reader.Parses.bind (f := fun _ => do
              let y ← f.read codecs env' slot none cr
              pure (y.1, numExt + 1, y.2))
            (Reader.parses_alignto 8 b0.length (by omega) (bs ++ s) _ (length_zeros _))
            (by rw [length_zeros]; exact Reader.Parses.map (f := fun (y : Val × Ctx) => (y.1, numExt + 1, y.2)) hread)
          have h6 := h5 r hr hp (by simpa using hrest)
          simpa [adds, hx] using h6
      · have hx : f.extended = false := by simpa using hx
        unfold FieldDef.write at h
        rw [if_neg (by simp [hx])] at h
        obtain ⟨bs, cs', cr', rfl, k2, k3, k4⟩ := h3 rest cw cs cr hsync _ cw' w' h
        refine ⟨bs, cs', cr', rfl, ?_, by simp [hx], ?_, k4⟩
        · unfold FieldDef.bitsizeof
          rw [if_neg (by simp [hx]), k2]
        · intro env' v' hst _ numExt s hs _
          unfold FieldDef.Stored at hst
          rw [if_neg hab] at hst
          obtain ⟨g1, g2, g3⟩ := hst
          unfold Struct.readField
          rw [if_neg (by simp [hx])]
          have := Reader.Parses.map (f := fun (y : Val × Ctx) => (y.1, numExt, y.2)) (k3 env' v' g1 g2 g3 s hs)
          simpa [adds, hx] using this

end FieldDef
end Zserio
