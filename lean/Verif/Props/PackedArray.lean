import Verif.Lemmas.PackedLoop
import Verif.Props.Array
import Verif.Props.Reader
set_option linter.unusedSimpArgs false
/-
Properties C28, C29, C30, C31: packed arrays of integers.
-/
namespace Zserio
open Writer Array' DeltaContext
variable {σ : Type}

/-- The packed array traits of an integral type. -/
abbrev IntKind.packed (k : IntKind) : PackedTraits DeltaContext Int := PackedTraits.ofTraits k.traits

/-! ### C28 -/

/-- **C28.** `write_packed` followed by `read_packed` returns the same list and consumes exactly the written bits. -/
theorem C28_packed_round_trip (k : IntKind) (cfg : ArrayCfg σ) (himp : cfg.isImplicit = false) (s : σ) (xs : List Int)
    (w w1 : Writer) (hw : w.Reachable) (h : Array'.writePacked k.packed cfg s xs w = (.ok (), w1))
    (size : Nat) (hsize : cfg.isAuto = false → size = xs.length) :
    ∀ later r, ReadsAt r (w1.runAll later).bytes w.pos w1.pos →
      Array'.readPacked k.packed cfg s size r = (.ok xs, { r with pos := w1.pos }) := by
  obtain ⟨b0, rfl⟩ := hw.eq_ofBits
  obtain ⟨bits, rfl, -, hr⟩ := writePacked_facts (intStep k) (intInit k xs) h
  rintro later r ⟨h1, h2, h3, h4⟩
  refine Zserio.read_after (P := fun r x => x = (.ok xs, { r with pos := (ofBits (b0 ++ bits)).pos }))
    (mr := Array'.readPacked k.packed cfg s size) ?_ later r h1 h2 h3 h4
  intro st r hwf hp hrest
  have hrel : Related (fun (_ : Nat) (x x' : Int) => x' = id x) 0 xs (xs.map id) := related_map id xs 0
  rw [List.map_id] at hrel
  rw [hr himp size hsize xs hrel st r hwf hp hrest, Reader.advance]
  simp [ofBits, hp]

/-- **C28**, totality: every list of values of the type can be written (an auto array has fewer than 2^31 elements). -/
theorem C28_values_of_the_type_can_be_written (k : IntKind) (cfg : ArrayCfg σ) (s : σ) (xs : List Int)
    (hx : ∀ x ∈ xs, k.InRange x) (hn : cfg.isAuto = true → xs.length < 2 ^ 31)
    (hchk : cfg.checkOffset = none) (w : Writer) (hw : w.Reachable) :
    ∃ w1, Array'.writePacked k.packed cfg s xs w = (.ok (), w1) := by
  obtain ⟨b0, rfl⟩ := hw.eq_ofBits
  have hp := runs_writePrefix cfg.isAuto xs.length hn b0
  unfold Runs at hp
  rw [Array'.writePacked, M.bind_ok hp]
  by_cases h0 : xs.length > 0
  · rw [if_pos h0]
    obtain ⟨c, hc⟩ := initAll_ok (xs.map fun x => (k, x)) {} (by
      intro e he
      obtain ⟨x, hm, rfl⟩ := List.mem_map.1 he
      exact hx x hm)
    have hc' : initContextLoop k.packed k.packed.createContext xs = .ok c := by rw [initContextLoop_eq]; exact hc
    rw [hc', M.bind_ok (M.lift_apply _ _)]
    exact writePackedLoop_ok k cfg.checkOffset s (by simp [hchk]) xs hx 0 _ c c _ (intInit k xs c hc')
  · rw [if_neg h0]
    exact ⟨_, rfl⟩

/-- A packed array whose deltas need 13 bits, one that falls back to the unpacked form, one of equal elements. -/
example : (∀ x ∈ ([100000, 100001, 99000, 104000] : List Int), (IntKind.bitField 32).InRange x) ∧
    (∀ x ∈ ([-1, 2 ^ 62, -(2 ^ 63)] : List Int), (IntKind.signedBitField 64).InRange x) ∧
    (∀ x ∈ ([7, 7, 7, 7, 7] : List Int), (IntKind.var .varint16).InRange x) := by decide +kernel

/-! ### C29 -/

/-- **C29.** `bitsizeof_packed` is exactly the number of bits `write_packed` appends. -/
theorem C29_bitsizeof_packed (k : IntKind) (cfg : ArrayCfg σ) (hcfg : cfg.setOffset.isSome = cfg.checkOffset.isSome) (s : σ)
    (xs : List Int) (w w1 : Writer) (hw : w.Reachable) (h : Array'.writePacked k.packed cfg s xs w = (.ok (), w1)) :
    w.pos ≤ w1.pos ∧ Array'.bitsizeofPacked k.packed cfg w.pos xs = .ok (w1.pos - w.pos) := by
  obtain ⟨b0, rfl⟩ := hw.eq_ofBits
  obtain ⟨bits, rfl, hs, -⟩ := writePacked_facts (intStep k) (intInit k xs) h
  refine ⟨by simp [ofBits], ?_⟩
  rw [show (ofBits b0).pos = b0.length from rfl, hs hcfg]
  simp [ofBits]

/-- Without offsets the offset initialisation is the size computation. -/
theorem initOffsetsPackedLoop_none (k : IntKind) : ∀ (xs : List Int) (c : DeltaContext) (p i : Nat) (s : σ) (e : Nat),
    bitsizeofPackedLoop k.packed false c p xs = .ok e →
    initOffsetsPackedLoop k.packed (none : Option (Nat → Nat → σ → Except Err σ)) c p i xs s = .ok (e, xs, s) := by
  intro xs
  induction xs with
  | nil =>
    intro c p i s e h
    simp only [bitsizeofPackedLoop, Except.ok.injEq] at h
    rw [initOffsetsPackedLoop, h]
  | cons x xs ih =>
    intro c p i s e h
    rw [bitsizeofPackedLoop] at h
    simp only [Bool.false_eq_true, if_false, PackedTraits.ofTraits] at h
    obtain ⟨⟨n, c1⟩, h1, h2⟩ := except_bind_ok h
    rw [initOffsetsPackedLoop]
    simp only [offsetStep, ok_bind, PackedTraits.ofTraits, h1]
    have := ih c1 (p + n) (i + 1) s e h2
    simp only [PackedTraits.ofTraits] at this
    rw [this]
    rfl

/-- **C29.** Without indexed offsets `initialize_offsets_packed` changes nothing and returns the position where
`write_packed` ends. -/
theorem C29_initialize_offsets_packed (k : IntKind) (cfg : ArrayCfg σ) (hset : cfg.setOffset = none)
    (hchk : cfg.checkOffset = none) (s : σ) (xs : List Int) (w w1 : Writer) (hw : w.Reachable)
    (h : Array'.writePacked k.packed cfg s xs w = (.ok (), w1)) :
    Array'.initOffsetsPacked k.packed cfg w.pos xs s = .ok (w1.pos, xs, s) := by
  obtain ⟨hle, hsize⟩ := C29_bitsizeof_packed k cfg (by rw [hset, hchk]; rfl) s xs w w1 hw h
  unfold Array'.bitsizeofPacked at hsize
  obtain ⟨p1, h1, hsize⟩ := except_bind_ok hsize
  obtain ⟨e, h2, hsize⟩ := except_bind_ok hsize
  simp only [Except.ok.injEq] at hsize
  have hge : w.pos ≤ p1 := by
    have := sizePrefix_eq (sizePrefix_ok h1) w.pos
    rw [h1] at this
    simp only [Except.ok.injEq] at this
    omega
  unfold Array'.initOffsetsPacked
  rw [h1, ok_bind]
  unfold bitsizeofPackedElements at h2
  split at h2
  · next h0 =>
    obtain ⟨c, h3, h4⟩ := except_bind_ok h2
    rw [if_pos h0, h3, ok_bind, hset]
    rw [hset] at h4
    rw [initOffsetsPackedLoop_none k xs c p1 0 s e h4]
    have hee : p1 ≤ e := by
      have mono : ∀ (xs : List Int) (c : DeltaContext) (p e : Nat),
          bitsizeofPackedLoop k.packed false c p xs = .ok e → p ≤ e := by
        intro xs
        induction xs with
        | nil => intro c p e h; simp only [bitsizeofPackedLoop, Except.ok.injEq] at h; omega
        | cons x xs ih =>
          intro c p e h
          rw [bitsizeofPackedLoop] at h
          simp only [Bool.false_eq_true, if_false] at h
          obtain ⟨⟨n, c1⟩, -, h⟩ := except_bind_ok h
          have := ih _ _ _ h
          omega
      exact mono _ _ _ _ h4
    congr 2
    omega
  · next h0 =>
    simp only [Except.ok.injEq] at h2
    rw [if_neg h0]
    congr 2
    omega

/-- **C29** with indexed offsets: the offsets recorded by `initialize_offsets_packed` pass all checks of `write_packed`,
which ends at the returned position. -/
theorem C29_initialize_then_write_packed (k : IntKind) (isAuto : Bool) (xs xs1 : List Int) (offs offs1 : List Int)
    (w : Writer) (hw : w.Reachable) (e : Nat)
    (h : Array'.initOffsetsPacked k.packed (ArrayCfg.offsetArray isAuto) w.pos xs offs = .ok (e, xs1, offs1)) :
    xs1 = xs ∧ offs1.length = offs.length ∧
    Array'.writePacked k.packed (ArrayCfg.offsetArray isAuto) offs1 xs w =
      Array'.writePacked k.packed { ArrayCfg.offsetArray isAuto with checkOffset := some (fun _ _ _ => .ok ()) } offs1 xs w ∧
    ∀ w', Array'.writePacked k.packed (ArrayCfg.offsetArray isAuto) offs1 xs w = (.ok (), w') → w'.pos = e := by
  obtain ⟨b0, rfl⟩ := hw.eq_ofBits
  unfold Array'.initOffsetsPacked at h
  obtain ⟨p1, h1, h2⟩ := except_bind_ok h
  have hn := sizePrefix_ok h1
  rw [sizePrefix_eq hn] at h1
  simp only [Except.ok.injEq] at h1
  have hp := runs_writePrefix isAuto xs.length hn b0
  unfold Runs at hp
  unfold Array'.writePacked
  simp only [ArrayCfg.offsetArray] at h1 h2 ⊢
  rw [M.bind_ok hp, M.bind_ok hp]
  by_cases h0 : xs.length > 0
  · rw [if_pos h0] at h2
    rw [if_pos h0, if_pos h0]
    obtain ⟨c, h3, h4⟩ := except_bind_ok h2
    rw [h3, M.bind_ok (M.lift_apply _ _), M.bind_ok (M.lift_apply _ _)]
    obtain ⟨j1, j2, -, j4⟩ := initOffsetsPacked_marks k xs 0 p1 c c _ offs e xs1 offs1 (intInit k xs c h3) h4
    obtain ⟨j5, j6⟩ := j4 (b0 ++ prefixBits isAuto xs.length) (by rw [← h1]; simp [ofBits])
    exact ⟨j1, j2, j5, j6⟩
  · rw [if_neg h0] at h2
    rw [if_neg h0, if_neg h0]
    simp only [Except.ok.injEq, Prod.mk.injEq] at h2
    obtain ⟨rfl, rfl, rfl⟩ := h2
    refine ⟨rfl, rfl, rfl, ?_⟩
    intro w' hw'
    simp only [M.pure_apply, Prod.mk.injEq] at hw'
    rw [← hw'.2, ← h1]
    simp [ofBits]

/-- A packed array at an unaligned position: 8 bits of length, 7 of descriptor, 32 of the first element, 3 deltas of 14. -/
example : (∃ w1, Array'.writePacked (IntKind.bitField 32).packed (ArrayCfg.plain true false) () [100000, 100001, 99000, 104000]
      (Writer.init.runAll [.bool true]) = (.ok (), w1) ∧ w1.pos = 1 + 8 + 7 + 32 + 3 * 14) ∧
    Array'.initOffsetsPacked (IntKind.bitField 32).packed (ArrayCfg.offsetArray true) 1 [100000, 100001, 99000, 104000]
      [0, 0, 0, 0] = .ok (102, [100000, 100001, 99000, 104000], [2, 7, 9, 11]) :=
  ⟨⟨_, succeeds (by decide +kernel), by decide +kernel⟩, by decide +kernel⟩

/-! ### C30 -/

theorem wrote_unpackedSum (k : IntKind) {s : σ} {b0 bits : List Bool} {i : Nat} {xs : List Int}
    (h : Wrote k.traits (none : Option (Nat → Nat → σ → Except Err Unit)) s b0 i xs bits) :
    bits.length = unpackedSum (xs.map fun x => (k, x)) := by
  induction h with
  | nil => rfl
  | @cons b0 i x xs bs rest hchk hx hxs ih =>
    rw [List.map_cons, unpackedSum, k.unpacked_exact hx, ← ih]
    simp [gap, zeros]

/-- The first bit after the length is the "is packed" flag. -/
theorem writePacked_flag (k : IntKind) (c : DeltaContext) (hc : c.processingStarted = false) (x : Int) (b0 : List Bool)
    (c' : DeltaContext) (w' : Writer) (h : c.write k.traits x (ofBits b0) = (.ok c', w')) :
    ∃ rest, w' = ofBits (b0 ++ ({ c with processingStarted := true } : DeltaContext).finishInit.isPacked :: rest) := by
  unfold DeltaContext.write at h
  rw [if_pos (by simp [hc])] at h
  obtain ⟨_, d, hd, h⟩ := (appends_writeDescriptor _).bind_inv h
  obtain ⟨bs, rfl, -, -⟩ := writeUnpacked_inv h
  unfold DeltaContext.writeDescriptor Runs at hd
  have hb := (emits_writeBool ({ c with processingStarted := true } : DeltaContext).finishInit.isPacked b0.length).runs
    (b0 := b0) rfl
  unfold Runs at hb
  rw [M.bind_ok hb] at hd
  obtain ⟨c2, hc2⟩ : ∃ c2, c2 = ({ c with processingStarted := true } : DeltaContext).finishInit := ⟨_, rfl⟩
  simp only [← hc2] at hd ⊢
  have happ : Appends (if c2.isPacked then Writer.writeBitsUnchecked (c2.maxBitNumber : Int) MAX_BIT_NUMBER_BITS
      else pure ()) := appends_ite (appends_call (.bits c2.maxBitNumber 6)) (appends_pure _)
  obtain ⟨ext, he⟩ := happ _ _ _ hd
  have hd2 : d = c2.isPacked :: ext := by
    have h2 : Runs (if c2.isPacked then Writer.writeBitsUnchecked (c2.maxBitNumber : Int) MAX_BIT_NUMBER_BITS
      else pure ()) (b0 ++ [c2.isPacked]) ext () := by unfold Runs; rw [hd, he]
    have h3 := show Runs (Writer.writeBool c2.isPacked) b0 [c2.isPacked] () from by
      unfold Runs; rw [hc2]; exact hb
    have h4 := (Runs.bind (f := fun _ => if c2.isPacked then Writer.writeBitsUnchecked (c2.maxBitNumber : Int)
      MAX_BIT_NUMBER_BITS else pure ()) h3 h2)
    have h5 : Runs (Writer.writeBool c2.isPacked >>= fun _ => if c2.isPacked then
        Writer.writeBitsUnchecked (c2.maxBitNumber : Int) MAX_BIT_NUMBER_BITS else pure ()) b0 d () := by
      unfold Runs
      rw [M.bind_ok (show Writer.writeBool c2.isPacked (ofBits b0) = _ from by rw [hc2]; exact hb), ← hc2, hd]
    exact (Runs.inj h5 h4).2
  exact ⟨ext ++ bs, by rw [hd2]; simp⟩

/-- **C30.** The packed form of a non-empty array is at most one bit longer than the unpacked form; and if the packed form is
chosen, i.e. the flag that follows the array length is set, the whole is strictly shorter than the flag and the unpacked
elements. -/
theorem C30_packing_costs_at_most_one_bit (k : IntKind) (isAuto : Bool) (xs : List Int) (hne : xs ≠ [])
    (w w1 w2 : Writer) (hw : w.Reachable)
    (h1 : Array'.write k.traits (ArrayCfg.plain isAuto false) () xs w = (.ok (), w1))
    (h2 : Array'.writePacked k.packed (ArrayCfg.plain isAuto false) () xs w = (.ok (), w2)) :
    w2.pos ≤ w1.pos + 1 ∧
    ((bytesBits w2.bytes)[w.pos + (if isAuto then (VarType.varsize.encode xs.length).length else 0)]? = some true →
      w2.pos < w1.pos + 1) := by
  obtain ⟨b0, rfl⟩ := hw.eq_ofBits
  obtain ⟨bits, rfl, hn, hwr⟩ := write_inv (fun x _ => k.appends x) h1
  have hsum := wrote_unpackedSum k hwr
  have hbs := (C29_bitsizeof_packed k (ArrayCfg.plain isAuto false) rfl () xs _ _ (reachable_ofBits b0) h2)
  obtain ⟨x, xs, rfl⟩ : ∃ x xs', xs = x :: xs' := by cases xs with
    | nil => exact absurd rfl hne
    | cons x xs => exact ⟨x, xs, rfl⟩
  unfold Array'.bitsizeofPacked bitsizeofPackedElements at hbs
  simp only [ArrayCfg.plain] at hn hbs
  rw [sizePrefix_eq hn, ok_bind, if_pos (by simp)] at hbs
  obtain ⟨hle, hsz⟩ := hbs
  obtain ⟨e, h3, h4⟩ := except_bind_ok hsz
  obtain ⟨c, h5, h6⟩ := except_bind_ok h3
  simp only [Except.ok.injEq] at h4
  have hready : Ready ((x :: xs).map fun x => (k, x)) c := by
    rw [initContextLoop_eq] at h5; exact ready_initAll h5
  obtain ⟨t1, t2⟩ := loop_total k x xs c _ e hready h6
  have hpre : (if isAuto then (VarType.varsize.encode (x :: xs).length).length else 0) =
      (prefixBits isAuto (x :: xs).length).length := by unfold prefixBits; split <;> rfl
  have hw1 : (ofBits (b0 ++ (prefixBits (ArrayCfg.plain isAuto false).isAuto (x :: xs).length ++ bits))).pos =
      b0.length + (prefixBits isAuto (x :: xs).length).length + unpackedSum ((x :: xs).map fun x => (k, x)) := by
    rw [← hsum]; simp [ofBits, ArrayCfg.plain]; omega
  have hpos0 : (ofBits b0).pos = b0.length := rfl
  rw [hw1]
  rw [hpos0] at h4 hle t1 t2
  refine ⟨by omega, ?_⟩
  intro hflag
  have hlt := t2 ?_
  · omega
  · -- the flag in the stream is the decision taken
    have hp := runs_writePrefix isAuto (x :: xs).length hn b0
    unfold Array'.writePacked at h2
    simp only [ArrayCfg.plain] at h2
    unfold Runs at hp
    rw [M.bind_ok hp, if_pos (by simp), h5, M.bind_ok (M.lift_apply _ _), Array'.writePackedLoop] at h2
    simp only [writeCheck] at h2
    rw [M.bind_ok (M.pure_apply _ _)] at h2
    obtain ⟨cw', w3, h7, h8⟩ := Writer.bind_inv h2
    obtain ⟨rest, rfl⟩ := writePacked_flag k c hready.notStarted x _ _ _ h7
    have hS := intInit k (x :: xs) c h5
    obtain ⟨bs, cs', cr', e1, -, -, hS'⟩ := sync_step hS h7
    obtain ⟨more, hm, -, -⟩ := packedLoops (intStep k) _ _ _ _ _ _ _ _ _ hS' h8
    rw [hm, hpos0, hpre] at hflag
    simp only [ofBits, bytesBits_packBits] at hflag
    rw [← List.length_append, List.append_assoc, List.append_assoc, List.getElem?_append_right (le_refl _)] at hflag
    simpa using hflag

example : (∃ w1, Array'.write (IntKind.bitField 32).traits (ArrayCfg.plain true false) () [100000, 100001, 99000, 104000]
      (Writer.init.runAll [.bool true]) = (.ok (), w1) ∧ w1.pos = 137) ∧
    (∃ w2, Array'.writePacked (IntKind.bitField 32).packed (ArrayCfg.plain true false) () [100000, 100001, 99000, 104000]
      (Writer.init.runAll [.bool true]) = (.ok (), w2) ∧ w2.pos = 90 ∧ (bytesBits w2.bytes)[9]? = some true) :=
  ⟨⟨_, succeeds (by decide +kernel), by decide +kernel⟩, ⟨_, succeeds (by decide +kernel), by decide +kernel, by decide +kernel⟩⟩

/-! ### C31 -/

/-- **C31 fails.** A corrupted packed array of 8 bit numbers: descriptor "packed, deltas of 2 bits", first element 255,
delta +1.  Reading returns 256. -/
theorem C31_counterexample :
    ∃ r r', Reader.make [0x83, 0xFE, 0x80] none = .ok r ∧
      Array'.readPacked (IntKind.bitField 8).packed (ArrayCfg.plain false false) () 2 r = (.ok [255, 256], r') ∧
      ¬ (IntKind.bitField 8).InRange 256 :=
  ⟨_, _, rfl, rfl, by decide⟩

/-- Reading an element that is stored unpacked gives a value of the type. -/
theorem read_inRange (k : IntKind) (i : Nat) (r r' : Reader) (hr : r.WF) (v : Int)
    (h : k.traits.read i r = (.ok v, r')) : k.InRange v ∧ r'.WF := by
  cases k with
  | bitField n =>
    have hs := Reader.safe_asInt (Reader.safe_readBits n) r hr
    have h' : Reader.asInt (Reader.readBits n) r = (.ok v, r') := h
    rw [h'] at hs
    refine ⟨?_, hs.1⟩
    by_cases hn : 1 ≤ (n : Int) ∧ (n : Int) ≤ 64
    · have hb := C11_read_bits r hr n hn
      unfold Reader.asInt at h'
      by_cases hfit : (r.pos : Int) + n ≤ r.bitsize
      · rw [if_pos hfit] at hb
        rw [M.bind_ok hb] at h'
        simp only [M.pure_apply, Prod.mk.injEq, Except.ok.injEq] at h'
        rw [← h'.1]
        refine ⟨by omega, by omega, ?_⟩
        have := bitsVal_lt (r.remaining.take n)
        have h2 : 2 ^ (r.remaining.take n).length ≤ 2 ^ n := Nat.pow_le_pow_right (by omega) (by simp)
        have : bitsVal (r.remaining.take n) < 2 ^ n := by omega
        simp only [Int.toNat_natCast]
        exact_mod_cast this
      · rw [if_neg hfit] at hb
        rw [M.bind_error hb] at h'
        simp at h'
    · have hb := (C11_read_bits_numbits r n hn).1
      unfold Reader.asInt at h'
      rw [M.bind_error hb] at h'
      simp at h'
  | signedBitField n =>
    have h' : Reader.readSignedBits n r = (.ok v, r') := h
    by_cases hn : 1 ≤ (n : Int) ∧ (n : Int) ≤ 64
    · have hb := C11_read_signed_bits r hr n hn
      by_cases hfit : (r.pos : Int) + n ≤ r.bitsize
      · rw [if_pos hfit, h'] at hb
        simp only [Prod.mk.injEq, Except.ok.injEq] at hb
        have hlen := Reader.rest_length r hr
        have hl : (r.remaining.take n).length = n := by
          rw [List.length_take]
          have : r.remaining.length = r.rest.length := rfl
          omega
        refine ⟨?_, ?_⟩
        · rw [hb.1]
          simp only [Int.toNat_natCast]
          refine ⟨by omega, ?_⟩
          have hne : r.remaining.take n ≠ [] := by intro hc; rw [hc] at hl; simp at hl; omega
          obtain ⟨b, rest, hbr⟩ : ∃ b rest, r.remaining.take n = b :: rest := by
            cases hx : r.remaining.take n with
            | nil => exact absurd hx hne
            | cons b rest => exact ⟨b, rest, rfl⟩
          rw [hbr] at hl ⊢
          simp only [List.length_cons] at hl
          have hlt := bitsVal_lt rest
          have hrn : rest.length = n - 1 := by omega
          rw [hrn] at hlt
          have hlt' : (bitsVal rest : Int) < 2 ^ (n - 1) := by exact_mod_cast hlt
          simp only [signedVal, hrn]
          have hp : (0 : Int) < 2 ^ (n - 1) := by positivity
          split <;> constructor <;> omega
        · rw [hb.2]
          exact ⟨hr.1, by simp only [Int.toNat_natCast]; push_cast; omega⟩
      · rw [if_neg hfit, h'] at hb
        simp at hb
    · have hb := (C11_read_bits_numbits r n hn).2
      rw [h'] at hb
      simp at hb
  | var t =>
    have h' : Reader.readVar t r = (.ok v, r') := h
    have hs := Reader.safe_readVar t r hr
    have hv := C13_var_read_in_range t r hr
    rw [h'] at hs hv
    exact ⟨⟨hv.1, hv.2.1⟩, hs.1⟩

/-- One element from arbitrary data. -/
theorem delta_read_any (k : IntKind) (c : DeltaContext) (hm : c.maxBitNumber < 64) (r r' : Reader) (hr : r.WF) (v : Int)
    (c' : DeltaContext) (h : c.read k.traits r = (.ok (v, c'), r')) :
    r'.WF ∧ c'.maxBitNumber < 64 ∧ c'.previousElement = some v ∧
    (k.InRange v ∨ c.processingStarted = true ∧ ∃ p, c.previousElement = some p ∧ |v - p| ≤ 2 ^ 63) := by
  have hun : ∀ (c0 : DeltaContext) (r0 : Reader), r0.WF → c0.maxBitNumber < 64 →
      c0.readUnpacked k.traits r0 = (.ok (v, c'), r') →
      r'.WF ∧ c'.maxBitNumber < 64 ∧ c'.previousElement = some v ∧ k.InRange v := by
    intro c0 r0 hr0 hm0 h
    unfold DeltaContext.readUnpacked at h
    rw [M.bind_apply] at h
    rcases hx : k.traits.read 0 r0 with ⟨e | x, r1⟩
    · rw [hx] at h; simp at h
    · rw [hx] at h
      simp only [M.pure_apply, Prod.mk.injEq, Except.ok.injEq] at h
      obtain ⟨⟨rfl, rfl⟩, rfl⟩ := h
      obtain ⟨h1, h2⟩ := read_inRange k 0 r0 r1 hr0 x hx
      exact ⟨h2, hm0, rfl, h1⟩
  unfold DeltaContext.read at h
  split at h
  · rw [M.bind_apply] at h
    rcases hd : DeltaContext.readDescriptor { c with processingStarted := true } r with ⟨e | c1, r1⟩
    · rw [hd] at h; simp at h
    · rw [hd] at h
      simp only at h
      have hc1 : c1.maxBitNumber < 64 ∧ r1.WF := by
        unfold DeltaContext.readDescriptor at hd
        rw [M.bind_apply] at hd
        have hsb := (Reader.safe_readBitsUnchecked 1).bind (fun v => Reader.safe_pure (v != 0)) r hr
        rcases hb : Reader.readBool r with ⟨e | b, r2⟩
        · rw [hb] at hd; simp at hd
        · rw [hb] at hd
          have hb' : (Reader.readBitsUnchecked 1 >>= fun v => pure (v != 0)) r = (.ok b, r2) := hb
          rw [hb'] at hsb
          simp only at hd
          cases b
          · simp only [Bool.false_eq_true, if_false, M.pure_apply, Prod.mk.injEq, Except.ok.injEq] at hd
            obtain ⟨rfl, rfl⟩ := hd
            exact ⟨hm, hsb.1⟩
          · simp only [if_true] at hd
            rw [M.bind_apply] at hd
            have hspec := Reader.readBitsUnchecked_spec r2 6 hsb.1
            have hs6 := Reader.safe_readBitsUnchecked 6 r2 hsb.1
            rcases hn : Reader.readBitsUnchecked 6 r2 with ⟨e | n, r3⟩
            · rw [show MAX_BIT_NUMBER_BITS = 6 from rfl, hn] at hd; simp at hd
            · rw [show MAX_BIT_NUMBER_BITS = 6 from rfl, hn] at hd
              rw [hn] at hspec hs6
              simp only [M.pure_apply, Prod.mk.injEq, Except.ok.injEq] at hd
              obtain ⟨rfl, rfl⟩ := hd
              refine ⟨?_, hs6.1⟩
              split at hspec
              · simp only [Prod.mk.injEq, Except.ok.injEq] at hspec
                simp only [hspec.1]
                have h1 := bitsVal_lt (List.take 6 r2.rest)
                have h2 : 2 ^ (List.take 6 r2.rest).length ≤ 2 ^ 6 := Nat.pow_le_pow_right (by omega) (by simp)
                omega
              · simp at hspec
      obtain ⟨h1, h2, h3, h4⟩ := hun c1 r1 hc1.2 hc1.1 h
      exact ⟨h1, h2, h3, Or.inl h4⟩
  · next hstart =>
    have hst : c.processingStarted = true := by simpa using hstart
    split at h
    · obtain ⟨h1, h2, h3, h4⟩ := hun c r hr hm h
      exact ⟨h1, h2, h3, Or.inl h4⟩
    · rcases hp : c.previousElement with _ | p
      · rw [hp] at h; simp at h
      · rw [hp] at h
        simp only at h
        split at h
        · next hmax =>
          rw [M.bind_apply] at h
          have hb := C11_read_signed_bits r hr (c.maxBitNumber + 1 : Nat) (by omega)
          have hs := Reader.safe_readSignedBitsUnchecked (c.maxBitNumber + 1) r hr
          have e : Reader.readSignedBits ((c.maxBitNumber + 1 : Nat) : Int) =
              Reader.readSignedBitsUnchecked (c.maxBitNumber + 1) := by
            unfold Reader.readSignedBits; rw [if_neg (by omega), Int.toNat_natCast]
          rw [e] at hb
          rcases hd : Reader.readSignedBitsUnchecked (c.maxBitNumber + 1) r with ⟨e | d, r1⟩
          · rw [hd] at h; simp at h
          · rw [hd] at h hb hs
            simp only [M.pure_apply, Prod.mk.injEq, Except.ok.injEq] at h
            obtain ⟨⟨rfl, rfl⟩, rfl⟩ := h
            refine ⟨hs.1, hm, rfl, Or.inr ⟨hst, p, rfl, ?_⟩⟩
            have hk := read_inRange (.signedBitField (c.maxBitNumber + 1)) 0 r r1 hr d
              (show Reader.readSignedBits ((c.maxBitNumber + 1 : Nat) : Int) r = _ by
                unfold Reader.readSignedBits; rw [if_neg (by omega), Int.toNat_natCast, hd])
            obtain ⟨⟨-, h1, h2⟩, -⟩ := hk
            simp only [Nat.add_sub_cancel] at h1 h2
            have hpow : (2 : Int) ^ c.maxBitNumber ≤ 2 ^ 63 := pow_le_pow_right₀ (by norm_num) (by omega)
            rw [show p + d - p = d by ring, abs_le]
            constructor <;> omega
        · simp only [M.pure_apply, Prod.mk.injEq, Except.ok.injEq] at h
          obtain ⟨⟨rfl, rfl⟩, rfl⟩ := h
          exact ⟨hr, hm, hp, Or.inr ⟨hst, p, rfl, by simp⟩⟩

theorem started_after_read (k : IntKind) (c : DeltaContext) (r r' : Reader) (v : Int) (c' : DeltaContext)
    (h : c.read k.traits r = (.ok (v, c'), r')) : c'.processingStarted = true := by
  have hun : ∀ (c0 : DeltaContext) (r0 : Reader), c0.processingStarted = true →
      c0.readUnpacked k.traits r0 = (.ok (v, c'), r') → c'.processingStarted = true := by
    intro c0 r0 hs h
    unfold DeltaContext.readUnpacked at h
    rw [M.bind_apply] at h
    rcases hx : k.traits.read 0 r0 with ⟨e | x, r1⟩
    · rw [hx] at h; simp at h
    · rw [hx] at h
      simp only [M.pure_apply, Prod.mk.injEq, Except.ok.injEq] at h
      obtain ⟨⟨rfl, rfl⟩, rfl⟩ := h
      exact hs
  unfold DeltaContext.read at h
  split at h
  · rw [M.bind_apply] at h
    rcases hd : DeltaContext.readDescriptor { c with processingStarted := true } r with ⟨e | c1, r1⟩
    · rw [hd] at h; simp at h
    · rw [hd] at h
      refine hun c1 r1 ?_ h
      unfold DeltaContext.readDescriptor at hd
      rw [M.bind_apply] at hd
      rcases hb : Reader.readBool r with ⟨e | b, r2⟩
      · rw [hb] at hd; simp at hd
      · rw [hb] at hd
        cases b
        · simp only [Bool.false_eq_true, if_false, M.pure_apply, Prod.mk.injEq, Except.ok.injEq] at hd
          obtain ⟨rfl, rfl⟩ := hd
          rfl
        · simp only [if_true] at hd
          rw [M.bind_apply] at hd
          rcases hn : Reader.readBitsUnchecked MAX_BIT_NUMBER_BITS r2 with ⟨e | n, r3⟩
          · rw [hn] at hd; simp at hd
          · rw [hn] at hd
            simp only [M.pure_apply, Prod.mk.injEq, Except.ok.injEq] at hd
            obtain ⟨rfl, rfl⟩ := hd
            rfl
  · next hstart =>
    have hst : c.processingStarted = true := by simpa using hstart
    split at h
    · exact hun c r hst h
    · rcases hp : c.previousElement with _ | p
      · rw [hp] at h; simp at h
      · rw [hp] at h
        simp only at h
        split at h
        · rw [M.bind_apply] at h
          rcases hd : Reader.readSignedBitsUnchecked (c.maxBitNumber + 1) r with ⟨e | d, r1⟩
          · rw [hd] at h; simp at h
          · rw [hd] at h
            simp only [M.pure_apply, Prod.mk.injEq, Except.ok.injEq] at h
            obtain ⟨⟨rfl, rfl⟩, rfl⟩ := h
            exact hst
        · simp only [M.pure_apply, Prod.mk.injEq, Except.ok.injEq] at h
          obtain ⟨⟨rfl, rfl⟩, rfl⟩ := h
          exact hst

theorem readPackedLoop_any (k : IntKind) (s : σ) : ∀ (n : Nat) (c : DeltaContext) (i : Nat) (r r' : Reader) (xs : List Int),
    c.maxBitNumber < 64 → r.WF →
    readPackedLoop k.packed (none : Option (Nat → Nat → σ → Except Err Unit)) s c i n r = (.ok xs, r') →
    r'.WF ∧ xs.length = n ∧
    (∀ v, xs.head? = some v → k.InRange v ∨ c.processingStarted = true ∧ ∃ p, c.previousElement = some p ∧ |v - p| ≤ 2 ^ 63) ∧
    (∀ j a b, xs[j]? = some a → xs[j + 1]? = some b → k.InRange b ∨ |b - a| ≤ 2 ^ 63) := by
  intro n
  induction n with
  | zero =>
    intro c i r r' xs _ hr h
    simp only [readPackedLoop, M.pure_apply, Prod.mk.injEq, Except.ok.injEq] at h
    obtain ⟨rfl, rfl⟩ := h
    exact ⟨hr, rfl, by simp, by simp⟩
  | succ n ih =>
    intro c i r r' xs hm hr h
    rw [readPackedLoop] at h
    simp only [readCheck] at h
    rw [M.bind_ok (M.pure_apply _ _), M.bind_apply] at h
    rcases hx : k.packed.read c i r with ⟨e | ⟨v, c'⟩, r1⟩
    · rw [hx] at h; simp at h
    · rw [hx] at h
      simp only at h
      rw [M.bind_apply] at h
      obtain ⟨h1, h2, h3, h4⟩ := delta_read_any k c hm r r1 hr v c' hx
      rcases hl : readPackedLoop k.packed (none : Option (Nat → Nat → σ → Except Err Unit)) s c' (i + 1) n r1 with
        ⟨e | ys, r2⟩
      · rw [hl] at h; simp at h
      · rw [hl] at h
        simp only [M.pure_apply, Prod.mk.injEq, Except.ok.injEq] at h
        obtain ⟨rfl, rfl⟩ := h
        obtain ⟨i1, i2, i3, i4⟩ := ih c' (i + 1) r1 r2 ys h2 h1 hl
        refine ⟨i1, by simp [i2], ?_, ?_⟩
        · rintro v' ⟨⟩; exact h4
        · intro j a b ha hb
          cases j with
          | zero =>
            simp only [List.getElem?_cons_zero, Option.some.injEq] at ha
            subst ha
            have hb' : ys.head? = some b := by rw [List.head?_eq_getElem?]; simpa using hb
            rcases i3 b hb' with h | ⟨-, p, hp, hd⟩
            · exact Or.inl h
            · rw [h3] at hp
              simp only [Option.some.injEq] at hp
              subst hp
              exact Or.inr hd
          | succ j => exact i4 j a b (by simpa using ha) (by simpa using hb)

/-- **C31, what does hold of arbitrary data.**  Reading a packed array either raises or stays inside the stream and returns
the announced number of elements; the first is a value of the type, and every further one is a value of the type or differs
from its predecessor by at most 2^63 in absolute value.  (Missing for the full property: elements stored as deltas are not
checked against the range of the element type, see `C31_counterexample`.) -/
theorem C31_packed_read_partial (k : IntKind) (size : Nat) (r r' : Reader) (hr : r.WF) (xs : List Int)
    (h : Array'.readPacked k.packed (ArrayCfg.plain false false) () size r = (.ok xs, r')) :
    (r'.pos : Int) ≤ r'.bitsize ∧ xs.length = size ∧ (∀ v, xs.head? = some v → k.InRange v) ∧
    (∀ j a b, xs[j]? = some a → xs[j + 1]? = some b → k.InRange b ∨ |b - a| ≤ 2 ^ 63) := by
  unfold Array'.readPacked at h
  rw [if_neg (show ¬ (ArrayCfg.plain false false).isImplicit = true by decide),
    show Array'.readSize (ArrayCfg.plain false false).isAuto size = pure size from rfl, M.bind_ok (M.pure_apply _ _)] at h
  by_cases h0 : size > 0
  · rw [if_pos h0] at h
    obtain ⟨i1, i2, i3, i4⟩ := readPackedLoop_any k () size _ 0 r r' xs (show (0 : Nat) < 64 by decide) hr h
    refine ⟨i1.2, i2, ?_, i4⟩
    intro v hv
    rcases i3 v hv with h | ⟨h, -⟩
    · exact h
    · cases h
  · rw [if_neg h0] at h
    simp only [M.pure_apply, Prod.mk.injEq, Except.ok.injEq] at h
    obtain ⟨rfl, rfl⟩ := h
    refine ⟨hr.2, ?_, ?_, ?_⟩
    · simp only [List.length_nil]; omega
    · intro v hv; simp at hv
    · intro j a b ha; simp at ha

example : ∃ r, Reader.make [0x83, 0xFE, 0x80] none = .ok r ∧ r.WF ∧ ∃ xs r',
    Array'.readPacked (IntKind.bitField 8).packed (ArrayCfg.plain false false) () 2 r = (.ok xs, r') :=
  ⟨_, rfl, ⟨by decide, by decide⟩, _, _, rfl⟩

/-- **Finding.** `write_packed` does not check the range of elements stored as deltas: a packed array of 8 bit numbers
containing 300 is written without an error (the unpacked array raises). -/
theorem packed_write_unchecked :
    (∃ w', Array'.writePacked (IntKind.bitField 8).packed (ArrayCfg.plain false false) () [255, 256, 257, 258, 259]
      Writer.init = (.ok (), w')) ∧
    ∃ e w', Array'.write (IntKind.bitField 8).traits (ArrayCfg.plain false false) () [255, 256, 257, 258, 259]
      Writer.init = (.error e, w') :=
  ⟨⟨_, succeeds (by decide +kernel)⟩, ⟨_, _, rfl⟩⟩

end Zserio
