import Verif.Lemmas.Packed
set_option linter.unusedSimpArgs false
/-
Helper lemmas on packed arrays: the loops over the elements, for any packed traits whose contexts stay in step.
-/
namespace Zserio
open Writer Array'

namespace Array'
variable {σ κ α : Type}

/-- The elements of two lists are related one by one, by a relation that knows the index. -/
def Related (P : Nat → α → α → Prop) : Nat → List α → List α → Prop
  | _, [], [] => True
  | i, x :: xs, x' :: xs' => P i x x' ∧ Related P (i + 1) xs xs'
  | _, _, _ => False

theorem related_map (f : α → α) : ∀ (xs : List α) (i : Nat), Related (fun _ x x' => x' = f x) i xs (xs.map f)
  | [], _ => trivial
  | _ :: xs, i => ⟨rfl, related_map f xs (i + 1)⟩

/-- One element: whenever it can be written, the size pass predicts its size, the read pass reads it back as any `x'` related
to it and the contexts are in step for the remaining elements. -/
def PackedStep (pt : PackedTraits κ α) (P : Nat → α → α → Prop) (R : Nat → List α → κ → κ → κ → Prop) : Prop :=
  ∀ i x xs cw cs cr, R i (x :: xs) cw cs cr → ∀ b0 cw' w', pt.write cw x (ofBits b0) = (.ok cw', w') →
    ∃ bs cs' cr', w' = ofBits (b0 ++ bs) ∧ pt.bitsizeof cs b0.length x = .ok (bs.length, cs') ∧
      (∀ x', P i x x' → ∀ s, Reader.Parses (pt.read cr i) b0.length bs s (x', cr')) ∧ R (i + 1) xs cw' cs' cr'

/-- The three loops. -/
theorem packedLoops {pt : PackedTraits κ α} {P : Nat → α → α → Prop} {R : Nat → List α → κ → κ → κ → Prop}
    (hstep : PackedStep pt P R) (chk : Option (Nat → Nat → σ → Except Err Unit)) (st : σ) :
    ∀ (xs : List α) (i : Nat) (b0 : List Bool) (cw cs cr : κ) (w' : Writer), R i xs cw cs cr →
    writePackedLoop pt chk st cw i xs (ofBits b0) = (.ok (), w') →
    ∃ bits, w' = ofBits (b0 ++ bits) ∧
      bitsizeofPackedLoop pt chk.isSome cs b0.length xs = .ok (b0.length + bits.length) ∧
      ∀ xs', Related P i xs xs' → ∀ s, Reader.Parses (readPackedLoop pt chk st cr i xs.length) b0.length bits s xs' := by
  intro xs
  induction xs with
  | nil =>
    intro i b0 cw cs cr w' _ h
    simp only [writePackedLoop, M.pure_apply, Prod.mk.injEq] at h
    refine ⟨[], by simp [← h.2], by simp [bitsizeofPackedLoop], ?_⟩
    rintro (_ | ⟨x', xs'⟩) hrel s
    · exact Reader.parses_pure _ _ _
    · exact hrel.elim
  | cons x xs ih =>
    intro i b0 cw cs cr w' hR h
    rw [writePackedLoop] at h
    obtain ⟨_, g, h1, h2⟩ := (appends_writeCheck chk i st).bind_inv h
    obtain ⟨hg, hc⟩ := writeCheck_inv h1
    obtain ⟨cw', w1, h3, h4⟩ := Writer.bind_inv h2
    obtain ⟨bs, cs', cr', rfl, hs, hr, hR'⟩ := hstep _ _ _ _ _ _ hR _ _ _ h3
    obtain ⟨bits, rfl, hs', hr'⟩ := ih _ _ _ _ _ _ hR' h4
    refine ⟨g ++ (bs ++ bits), by simp, ?_, ?_⟩
    · rw [bitsizeofPackedLoop]
      have hp : (if chk.isSome = true then align8 b0.length else b0.length) = (b0 ++ g).length := by
        rw [hg]
        simp only [gap, List.length_append, length_zeros]
        split
        · exact align8_eq _
        · simp
      rw [hp, hs]
      simp only [ok_bind]
      rw [← List.length_append, hs']
      simp; omega
    · rintro (_ | ⟨x', xs'⟩) hrel s
      · exact hrel.elim
      rw [List.length_cons, readPackedLoop]
      have hg' := parses_readCheck chk i st b0.length (bs ++ bits ++ s) hc
      rw [← hg] at hg'
      refine Reader.Parses.bind hg' ?_
      have h5 := hr x' hrel.1 (bits ++ s)
      rw [List.length_append] at h5
      refine Reader.Parses.bind h5 ?_
      have h6 := hr' xs' hrel.2 s
      simp only [List.length_append] at h6
      exact Reader.Parses.map h6

/-- Writing a whole packed array. -/
theorem writePacked_facts {pt : PackedTraits κ α} {P : Nat → α → α → Prop} {R : Nat → List α → κ → κ → κ → Prop}
    (hstep : PackedStep pt P R) {xs : List α}
    (hinit : ∀ c, initContextLoop pt pt.createContext xs = .ok c → R 0 xs c c pt.createContext)
    {cfg : ArrayCfg σ} {st : σ} {b0 : List Bool} {w' : Writer}
    (h : writePacked pt cfg st xs (ofBits b0) = (.ok (), w')) :
    ∃ bits, w' = ofBits (b0 ++ bits) ∧
      (cfg.setOffset.isSome = cfg.checkOffset.isSome → bitsizeofPacked pt cfg b0.length xs = .ok bits.length) ∧
      (cfg.isImplicit = false → ∀ size, (cfg.isAuto = false → size = xs.length) → ∀ xs', Related P 0 xs xs' → ∀ s,
        Reader.Parses (readPacked pt cfg st size) b0.length bits s xs') := by
  rw [writePacked] at h
  obtain ⟨_, pre, h1, h2⟩ := (appends_writePrefix cfg.isAuto xs.length).bind_inv h
  obtain ⟨rfl, hn⟩ := writePrefix_inv h1
  have hread : ∀ size, (cfg.isAuto = false → size = xs.length) → ∀ s,
      Reader.Parses (readSize cfg.isAuto size) b0.length (prefixBits cfg.isAuto xs.length) s xs.length := by
    intro size hsize s
    unfold prefixBits readSize
    cases ha : cfg.isAuto
    · simp only [hsize ha]
      exact Reader.parses_pure _ _ _
    · exact Reader.parses_readVarsize _ _ _ ((varsize_inRange_iff _).2 (hn ha))
  by_cases h0 : xs.length > 0
  · rw [if_pos h0] at h2
    rcases hc : initContextLoop pt pt.createContext xs with e | c
    · rw [hc, M.bind_error (M.lift_apply _ _)] at h2
      simp at h2
    · rw [hc, M.bind_ok (M.lift_apply _ _)] at h2
      obtain ⟨bits, rfl, hs, hr⟩ := packedLoops hstep _ _ _ _ _ _ _ _ _ (hinit c hc) h2
      refine ⟨prefixBits cfg.isAuto xs.length ++ bits, by simp, ?_, ?_⟩
      · intro hcfg
        unfold bitsizeofPacked bitsizeofPackedElements
        rw [sizePrefix_eq hn, ok_bind, if_pos h0, hc, ok_bind, hcfg, ← List.length_append, hs, ok_bind]
        congr 1; simp only [List.length_append]; omega
      · intro himp size hsize xs' hrel s
        unfold readPacked
        rw [if_neg (by simp [himp])]
        refine Reader.Parses.bind (hread size hsize _) ?_
        rw [if_pos h0]
        have := hr xs' hrel s
        rw [List.length_append] at this
        exact this
  · rw [if_neg h0] at h2
    simp only [M.pure_apply, Prod.mk.injEq] at h2
    refine ⟨prefixBits cfg.isAuto xs.length, h2.2.symm, ?_, ?_⟩
    · intro hcfg
      unfold bitsizeofPacked bitsizeofPackedElements
      rw [sizePrefix_eq hn, ok_bind, if_neg h0, ok_bind]
      congr 1; omega
    · intro himp size hsize xs' hrel s
      unfold readPacked
      rw [if_neg (by simp [himp])]
      have hx : xs = [] := List.length_eq_zero_iff.1 (by omega)
      subst hx
      have hx' : xs' = [] := by
        cases xs' with
        | nil => rfl
        | cons => exact hrel.elim
      subst hx'
      have := Reader.Parses.bind (f := fun readSize => if readSize > 0 then
        readPackedLoop pt cfg.checkOffset st pt.createContext 0 readSize else pure []) (bs' := []) (hread size hsize ([] ++ s))
        (Reader.parses_pure [] _ _)
      simpa using this

end Array'

/-! ### Integers -/

namespace DeltaContext

/-- The contexts are in step for the remaining elements of a packed array of integers. -/
def IntSync (k : IntKind) (_i : Nat) (xs : List Int) (cw cs cr : DeltaContext) : Prop :=
  Sync (xs.map fun x => (k, x)) cw cs cr

theorem intStep (k : IntKind) : PackedStep (PackedTraits.ofTraits k.traits) (fun _ x x' => x' = x) (IntSync k) := by
  intro i x xs cw cs cr hR b0 cw' w' hw
  obtain ⟨bs, cs', cr', h1, h2, h3, h4⟩ := sync_step hR hw
  exact ⟨bs, cs', cr', h1, h2, by rintro x' rfl; exact h3, h4⟩

theorem initContextLoop_eq (k : IntKind) (xs : List Int) (c : DeltaContext) :
    initContextLoop (PackedTraits.ofTraits k.traits) c xs = initAll c (xs.map fun x => (k, x)) := by
  induction xs generalizing c with
  | nil => rfl
  | cons x xs ih =>
    rw [initContextLoop, List.map_cons, initAll]
    show (c.init k.traits x >>= _) = _
    rcases c.init k.traits x with e | c1
    · rfl
    · exact ih c1

theorem intInit (k : IntKind) (xs : List Int) (c : DeltaContext)
    (h : initContextLoop (PackedTraits.ofTraits k.traits) (PackedTraits.ofTraits k.traits).createContext xs = .ok c) :
    IntSync k 0 xs c c (PackedTraits.ofTraits k.traits).createContext := by
  rw [initContextLoop_eq] at h
  exact Sync.start _ _ (ready_initAll h)

/-- Values of the type can be written. -/
theorem writePackedLoop_ok {σ : Type} (k : IntKind) (chk : Option (Nat → Nat → σ → Except Err Unit)) (st : σ)
    (hchk : ∀ c, chk = some c → ∀ i p, c i p st = .ok ()) :
    ∀ (xs : List Int), (∀ x ∈ xs, k.InRange x) → ∀ (i : Nat) (b0 : List Bool) (cw cs cr : DeltaContext),
    IntSync k i xs cw cs cr → ∃ w', writePackedLoop (PackedTraits.ofTraits k.traits) chk st cw i xs (ofBits b0) = (.ok (), w') := by
  intro xs
  induction xs with
  | nil => intro _ i b0 cw cs cr _; exact ⟨_, rfl⟩
  | cons x xs ih =>
    intro hx i b0 cw cs cr hR
    have hc := runs_writeCheck chk i st b0 (fun c hc => hchk c hc _ _)
    unfold Runs at hc
    rw [writePackedLoop, M.bind_ok hc]
    obtain ⟨cw', w1, h1⟩ := write_ok (show Sync ((k, x) :: xs.map fun x => (k, x)) cw cs cr from hR) (hx x (by simp))
      (b0 ++ zeros (gap chk.isSome b0.length))
    obtain ⟨bs, cs', cr', rfl, -, -, hR'⟩ := sync_step hR h1
    obtain ⟨w', hw'⟩ := ih (fun y hy => hx y (by simp [hy])) (i + 1) (b0 ++ zeros (gap chk.isSome b0.length) ++ bs) cw' cs' cr' hR'
    exact ⟨w', by rw [M.bind_ok (show (PackedTraits.ofTraits k.traits).write cw x _ = _ from h1)]; exact hw'⟩

/-- The offset initialisation of a packed array of integers. -/
theorem initOffsetsPacked_marks (k : IntKind) : ∀ (xs : List Int) (i : Nat) (p : Nat) (cw cs cr : DeltaContext)
    (s : List Int) (e : Nat) (xs1 : List Int) (s1 : List Int), IntSync k i xs cw cs cr →
    initOffsetsPackedLoop (PackedTraits.ofTraits k.traits) (some setOffsetArray) cs p i xs s = .ok (e, xs1, s1) →
    xs1 = xs ∧ s1.length = s.length ∧ (∀ j, j < i → s1[j]? = s[j]?) ∧ ∀ b0 : List Bool, b0.length = p →
    writePackedLoop (PackedTraits.ofTraits k.traits) (some checkOffsetArray) s1 cw i xs (ofBits b0) =
      writePackedLoop (PackedTraits.ofTraits k.traits) (some fun _ _ _ => .ok ()) s1 cw i xs (ofBits b0) ∧
    ∀ w', writePackedLoop (PackedTraits.ofTraits k.traits) (some checkOffsetArray) s1 cw i xs (ofBits b0) = (.ok (), w') →
      w'.pos = e := by
  intro xs
  induction xs with
  | nil =>
    intro i p cw cs cr s e xs1 s1 _ h
    simp only [initOffsetsPackedLoop, Except.ok.injEq, Prod.mk.injEq] at h
    obtain ⟨rfl, rfl, rfl⟩ := h
    refine ⟨rfl, rfl, fun _ _ => rfl, ?_⟩
    rintro b0 rfl
    refine ⟨rfl, ?_⟩
    intro w' h
    simp only [writePackedLoop, M.pure_apply, Prod.mk.injEq] at h
    rw [← h.2]; rfl
  | cons x xs ih =>
    intro i p cw cs cr s e xs1 s1 hR h
    rw [initOffsetsPackedLoop] at h
    obtain ⟨⟨p1, s2⟩, h1, h⟩ := except_bind_ok h
    obtain ⟨⟨p2, x1, c2⟩, h2, h⟩ := except_bind_ok h
    obtain ⟨⟨p3, xs2, s3⟩, h3, h⟩ := except_bind_ok h
    simp only [Except.ok.injEq, Prod.mk.injEq] at h
    obtain ⟨h01, h02, h03⟩ := h
    subst h01 h02 h03
    simp only [offsetStep] at h1
    obtain ⟨s2', h4, h1⟩ := except_bind_ok h1
    simp only [Except.ok.injEq, Prod.mk.injEq] at h1
    obtain ⟨rfl, rfl⟩ := h1
    obtain ⟨hi, v, hv, rfl⟩ := setOffsetArray_ok h4
    simp only [PackedTraits.ofTraits] at h2
    obtain ⟨⟨n, c2'⟩, h5, h2⟩ := except_bind_ok h2
    simp only [Except.ok.injEq, Prod.mk.injEq] at h2
    obtain ⟨rfl, rfl, rfl⟩ := h2
    -- the remaining elements, if this one can be written
    have hgen : ∃ cw0 cr0, IntSync k (i + 1) xs cw0 c2' cr0 := by
      cases hR with
      | start hready =>
        unfold bitsizeof at h5
        rw [if_pos (by simp [hready.notStarted])] at h5
        simp only at h5
        obtain ⟨f1, f2, f3⟩ := finishInit_ready hready _ rfl
        obtain ⟨c', hc'⟩ : ∃ c', c' = ({ cw with processingStarted := true } : DeltaContext).finishInit := ⟨_, rfl⟩
        simp only [← hc'] at h5 f1 f2 f3
        obtain ⟨n', _, h5⟩ := except_bind_ok h5
        simp only [Except.ok.injEq, Prod.mk.injEq] at h5
        obtain ⟨-, rfl⟩ := h5
        by_cases hpk : c'.isPacked = true
        · have hch := hready.chain _ _ rfl (f3 hpk)
          exact ⟨{ c' with previousElement := some x }, { c' with previousElement := some x },
            Sync.packed _ _ _ _ c'.maxBitNumber x f1 f1 f1 hpk hpk hpk rfl rfl rfl rfl rfl
              (by rw [f2]; exact hch.1) (by rw [f2]; exact hch.2)⟩
        · simp only [Bool.not_eq_true] at hpk
          exact ⟨c', c', Sync.unpacked _ _ _ _ f1 f1 f1 hpk hpk hpk⟩
      | unpacked _ _ g1 g2 g3 g4 g5 g6 =>
        unfold bitsizeof at h5
        rw [if_neg (by simp [g2]), if_pos (by simp [g5])] at h5
        obtain ⟨n', _, h5⟩ := except_bind_ok h5
        simp only [Except.ok.injEq, Prod.mk.injEq] at h5
        obtain ⟨-, rfl⟩ := h5
        exact ⟨cw, cr, Sync.unpacked _ _ _ _ g1 g2 g3 g4 g5 g6⟩
      | packed _ _ m v g1 g2 g3 g4 g5 g6 g7 g8 g9 g10 g11 g12 g13 =>
        unfold bitsizeof at h5
        rw [if_neg (by simp [g2]), if_neg (by simp [g5])] at h5
        simp only [Except.ok.injEq, Prod.mk.injEq] at h5
        obtain ⟨-, rfl⟩ := h5
        exact ⟨{ cw with previousElement := some x }, { cr with previousElement := some x },
          Sync.packed _ _ _ _ m x g1 g2 g3 g4 g5 g6 g7 g8 g9 rfl rfl g12 g13.2⟩
    obtain ⟨cw0, cr0, hR0⟩ := hgen
    obtain ⟨j1, j2, j3, -⟩ := ih _ _ _ _ _ _ _ _ _ hR0 h3
    refine ⟨by rw [j1], by simpa using j2, ?_, ?_⟩
    · intro j hj
      rw [j3 j (by omega), List.getElem?_set_ne (by omega)]
    · rintro b0 rfl
      have hb : (b0 ++ zeros (gap true b0.length)).length = align8 b0.length := by
        rw [align8_eq]; simp [gap, length_zeros]
      have hsi : s3[i]? = some v := by rw [j3 i (by omega), List.getElem?_set_self (by omega)]
      have hc : Runs (writeCheck (some checkOffsetArray) i s3) b0 (zeros (gap true b0.length)) () := by
        refine runs_writeCheck (some checkOffsetArray) i s3 b0 ?_
        rintro c ⟨⟩
        have : b0.length + gap (some checkOffsetArray).isSome b0.length = align8 b0.length := by rw [align8_eq]; simp [gap]
        rw [this, checkOffsetArray, hsi]
        simp [hv]
      have hc' : Runs (writeCheck (some fun _ _ _ => .ok ()) i s3) b0 (zeros (gap true b0.length)) () :=
        runs_writeCheck (some fun _ _ _ => .ok ()) i s3 b0 (by rintro c ⟨⟩; rfl)
      unfold Runs at hc hc'
      rw [writePackedLoop, writePackedLoop, M.bind_ok hc, M.bind_ok hc', M.bind_apply, M.bind_apply]
      rcases hw : (PackedTraits.ofTraits k.traits).write cw x (ofBits (b0 ++ zeros (gap true b0.length))) with ⟨er | a, w1⟩
      · simp
      · obtain ⟨bs, cs', cr', rfl, hsz, -, hR'⟩ := sync_step hR hw
        rw [h5] at hsz
        simp only [Except.ok.injEq, Prod.mk.injEq] at hsz
        obtain ⟨rfl, rfl⟩ := hsz
        obtain ⟨-, -, -, h6⟩ := ih _ _ _ _ _ _ _ _ _ hR' h3
        obtain ⟨h7, h8⟩ := h6 (b0 ++ zeros (gap true b0.length) ++ bs) (by rw [List.length_append, hb])
        exact ⟨h7, h8⟩

/-! ### Total size (no indexed offsets) -/

theorem loop_unpacked (k : IntKind) : ∀ (xs : List Int) (c : DeltaContext) (p e : Nat), c.processingStarted = true →
    c.isPacked = false → bitsizeofPackedLoop (PackedTraits.ofTraits k.traits) false c p xs = .ok e →
    e = p + unpackedSum (xs.map fun x => (k, x)) := by
  intro xs
  induction xs with
  | nil =>
    intro c p e _ _ h
    simp only [bitsizeofPackedLoop, Except.ok.injEq] at h
    simp [unpackedSum, h]
  | cons x xs ih =>
    intro c p e h1 h2 h
    rw [bitsizeofPackedLoop] at h
    simp only [Bool.false_eq_true, if_false, PackedTraits.ofTraits] at h
    obtain ⟨⟨n, c1⟩, h3, h⟩ := except_bind_ok h
    unfold bitsizeof at h3
    rw [if_neg (by simp [h1]), if_pos (by simp [h2])] at h3
    obtain ⟨n', h4, h3⟩ := except_bind_ok h3
    simp only [Except.ok.injEq, Prod.mk.injEq] at h3
    obtain ⟨rfl, rfl⟩ := h3
    have := ih _ _ _ h1 h2 h
    rw [List.map_cons, unpackedSum, h4]
    simp only
    omega

theorem loop_packed (k : IntKind) : ∀ (xs : List Int) (c : DeltaContext) (p e : Nat), c.processingStarted = true →
    c.isPacked = true → bitsizeofPackedLoop (PackedTraits.ofTraits k.traits) false c p xs = .ok e →
    e = p + xs.length * c.deltaBitsize := by
  intro xs
  induction xs with
  | nil =>
    intro c p e _ _ h
    simp only [bitsizeofPackedLoop, Except.ok.injEq] at h
    simp [h]
  | cons x xs ih =>
    intro c p e h1 h2 h
    rw [bitsizeofPackedLoop] at h
    simp only [Bool.false_eq_true, if_false, PackedTraits.ofTraits] at h
    obtain ⟨⟨n, c1⟩, h3, h⟩ := except_bind_ok h
    unfold bitsizeof at h3
    rw [if_neg (by simp [h1]), if_neg (by simp [h2])] at h3
    simp only [Except.ok.injEq, Prod.mk.injEq] at h3
    obtain ⟨rfl, rfl⟩ := h3
    have := ih _ _ _ h1 h2 h
    rw [List.length_cons, Nat.succ_mul]
    omega

/-- The size of the elements of a packed array: at most one bit more than the unpacked elements; less if packed. -/
theorem loop_total (k : IntKind) (x : Int) (xs : List Int) (c : DeltaContext) (p e : Nat)
    (hready : Ready ((x :: xs).map fun x => (k, x)) c)
    (h : bitsizeofPackedLoop (PackedTraits.ofTraits k.traits) false c p (x :: xs) = .ok e) :
    e ≤ p + 1 + unpackedSum ((x :: xs).map fun x => (k, x)) ∧
      (({ c with processingStarted := true } : DeltaContext).finishInit.isPacked = true →
        e < p + 1 + unpackedSum ((x :: xs).map fun x => (k, x))) := by
  rw [bitsizeofPackedLoop] at h
  simp only [Bool.false_eq_true, if_false, PackedTraits.ofTraits] at h
  obtain ⟨⟨n, c1⟩, h3, h⟩ := except_bind_ok h
  unfold bitsizeof at h3
  rw [if_pos (by simp [hready.notStarted])] at h3
  simp only at h3
  obtain ⟨f1, f2, f3⟩ := finishInit_ready hready _ rfl
  obtain ⟨c', hc'⟩ : ∃ c', c' = ({ c with processingStarted := true } : DeltaContext).finishInit := ⟨_, rfl⟩
  simp only [← hc'] at h3 f1 f2 f3 ⊢
  obtain ⟨n', h4, h3⟩ := except_bind_ok h3
  simp only [Except.ok.injEq, Prod.mk.injEq] at h3
  obtain ⟨rfl, rfl⟩ := h3
  have hfirst := hready.first (k, x) (xs.map fun x => (k, x)) rfl
  simp only at hfirst
  rw [h4] at hfirst
  simp only [Except.ok.injEq] at hfirst
  have htot := hready.total
  have hcount := hready.count
  by_cases hpk : c'.isPacked = true
  · have := loop_packed k xs c' _ _ f1 hpk h
    have hbound : 1 + MAX_BIT_NUMBER_BITS + c.firstElementBitsize + (c.numElements - 1) * c.deltaBitsize <
        1 + c.unpackedBitsize := by
      rw [hc'] at hpk
      unfold finishInit at hpk
      by_cases hcp : c.isPacked = true
      · rw [if_pos (by exact hcp)] at hpk
        simp only at hpk
        by_contra hge
        rw [if_pos (by simpa [deltaBitsize] using hge)] at hpk
        cases hpk
      · rw [if_neg (by exact hcp)] at hpk
        exact absurd hpk hcp
    have hd : c'.deltaBitsize = c.deltaBitsize := by unfold deltaBitsize; rw [f2]
    rw [hd] at this
    rw [hcount, htot] at hbound
    simp only [List.length_map, List.length_cons, Nat.add_sub_cancel] at hbound
    have hdesc : c'.bitsizeofDescriptor = 1 + MAX_BIT_NUMBER_BITS := by unfold bitsizeofDescriptor; rw [if_pos hpk]
    rw [hdesc] at this
    simp only [List.map_cons] at hbound ⊢
    constructor
    · omega
    · intro _; omega
  · simp only [Bool.not_eq_true] at hpk
    have := loop_unpacked k xs c' _ _ f1 hpk h
    have hdesc : c'.bitsizeofDescriptor = 1 := by unfold bitsizeofDescriptor; rw [hpk]; rfl
    rw [List.map_cons, unpackedSum]
    simp only [h4]
    rw [hdesc] at this
    constructor
    · omega
    · intro hc; rw [hpk] at hc; cases hc

end DeltaContext
end Zserio
