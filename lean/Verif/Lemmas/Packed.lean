import Verif.Spec.Packed
import Verif.Lemmas.ArrayOffsets
set_option linter.unusedSimpArgs false
/-
Helper lemmas on packed arrays: the contexts of the size, write and read passes stay in step.
-/
namespace Zserio
open Writer Array'

/-! ### Integral traits -/

namespace IntKind

def builtin : IntKind → Builtin
  | bitField n => .bitField n
  | signedBitField n => .signedBitField n
  | var t => .var t

theorem appends (k : IntKind) (x : Int) : Appends (k.traits.write x) := by
  cases k with
  | bitField n => exact appends_bitField n x
  | signedBitField n => exact appends_signedBitField n x
  | var t => exact appends_var t x

theorem sizeExact (k : IntKind) (x : Int) : SizeExact k.traits x := by
  cases k with
  | bitField n => exact sizeExact_bitField n x
  | signedBitField n => exact sizeExact_signedBitField n x
  | var t => exact sizeExact_var t x

theorem readsTo (k : IntKind) (i : Nat) (x : Int) : ReadsTo k.traits i x x := by
  cases k with
  | bitField n => exact readsTo_bitField n i x
  | signedBitField n => exact readsTo_signedBitField n i x
  | var t => exact readsTo_var t i x

/-- The size does not depend on the position. -/
theorem unpacked_size (k : IntKind) (x : Int) (p : Nat) :
    DeltaContext.bitsizeofUnpacked k.traits x = k.traits.bitsizeof p x := by
  cases k <;> rfl

theorem unpacked_exact (k : IntKind) {x : Int} {b0 bs : List Bool} (h : Runs (k.traits.write x) b0 bs ()) :
    DeltaContext.bitsizeofUnpacked k.traits x = .ok bs.length := by
  rw [k.unpacked_size x b0.length]; exact (k.sizeExact x b0 bs h).1

/-- Values of the type can be written. -/
theorem runs_of_inRange (k : IntKind) (x : Int) (h : k.InRange x) (b0 : List Bool) :
    ∃ bs, Runs (k.traits.write x) b0 bs () := by
  cases k with
  | bitField n =>
    obtain ⟨hn, h1, h2⟩ := h
    refine ⟨natBits n x.toNat, ((WCall.bits x n).runs_iff b0 _).2 ?_⟩
    simp only [WCall.spec, Int.toNat_natCast]
    rw [if_pos]
    refine ⟨?_, h1, by omega⟩
    simp only [validNumbits]; omega
  | signedBitField n =>
    obtain ⟨hn, h1, h2⟩ := h
    refine ⟨intBits n x, ((WCall.signedBits x n).runs_iff b0 _).2 ?_⟩
    simp only [WCall.spec, Int.toNat_natCast]
    rw [if_pos]
    refine ⟨?_, by omega, h1, by omega⟩
    simp only [validNumbits]; omega
  | var t =>
    refine ⟨t.encode x, ((WCall.var t x).runs_iff b0 _).2 ?_⟩
    simp only [WCall.spec]
    exact if_pos h

theorem unpacked_ok (k : IntKind) (x : Int) (h : k.InRange x) :
    ∃ n, DeltaContext.bitsizeofUnpacked k.traits x = .ok n := by
  obtain ⟨bs, hb⟩ := k.runs_of_inRange x h []
  exact ⟨_, k.unpacked_exact hb⟩

end IntKind

/-! ### Bit lengths -/

theorem bitLength_le_iff (v : Int) (m : Nat) : bitLength v ≤ m ↔ v.natAbs < 2 ^ m := by
  unfold bitLength
  split
  · next h => simp [h]
  · next h =>
    rw [Nat.add_one_le_iff, Nat.log2_lt h]

theorem fits_of_bitLength {v : Int} {m : Nat} (h : bitLength v ≤ m) : -(2 ^ m) ≤ v ∧ v ≤ 2 ^ m - 1 := by
  rw [bitLength_le_iff] at h
  have : (v.natAbs : Int) < 2 ^ m := by exact_mod_cast h
  omega

namespace DeltaContext

/-- A packing event: the traits and the value. -/
abbrev Event := IntKind × Int

/-- `init` over a list of events. -/
def initAll : DeltaContext → List Event → Except Err DeltaContext
  | c, [] => .ok c
  | c, e :: es => do
    let c ← c.init e.1.traits e.2
    initAll c es

/-- All deltas of the chain starting with `p` have at most `m` bits. -/
def DeltasLe (m : Nat) : Int → List Event → Prop
  | _, [] => True
  | p, e :: es => bitLength (e.2 - p) ≤ m ∧ DeltasLe m e.2 es

/-- Sum of the unpacked sizes. -/
def unpackedSum : List Event → Nat
  | [] => 0
  | e :: es => (match bitsizeofUnpacked e.1.traits e.2 with | .ok n => n | .error _ => 0) + unpackedSum es

theorem initAll_some : ∀ (es : List Event) (c c' : DeltaContext) (p : Int), c.previousElement = some p →
    (c.maxBitNumber > MAX_BIT_NUMBER_LIMIT → c.isPacked = false) → initAll c es = .ok c' →
    c.maxBitNumber ≤ c'.maxBitNumber ∧
    (c'.isPacked = true → c'.maxBitNumber ≤ MAX_BIT_NUMBER_LIMIT ∧ DeltasLe c'.maxBitNumber p es) ∧
    c'.numElements = c.numElements + es.length ∧ c'.unpackedBitsize = c.unpackedBitsize + unpackedSum es ∧
    c'.firstElementBitsize = c.firstElementBitsize ∧ c'.processingStarted = c.processingStarted := by
  intro es
  induction es with
  | nil =>
    intro c c' p _ hJ h
    simp only [initAll, Except.ok.injEq] at h
    subst h
    refine ⟨le_refl _, ?_, rfl, rfl, rfl, rfl⟩
    intro hp
    refine ⟨?_, trivial⟩
    by_contra hc
    rw [hJ (by omega)] at hp
    cases hp
  | cons e es ih =>
    intro c c' p hprev hJ h
    rw [initAll] at h
    obtain ⟨c1, h1, h2⟩ := except_bind_ok h
    unfold init at h1
    obtain ⟨n, hn, h1⟩ := except_bind_ok h1
    simp only [hprev] at h1
    have hsum : unpackedSum (e :: es) = n + unpackedSum es := by rw [unpackedSum, hn]
    by_cases hm : c.maxBitNumber ≤ MAX_BIT_NUMBER_LIMIT
    · rw [if_pos hm] at h1
      simp only [Except.ok.injEq] at h1
      by_cases hb : bitLength (e.2 - p) > c.maxBitNumber
      · rw [if_pos hb] at h1
        by_cases hl : bitLength (e.2 - p) > MAX_BIT_NUMBER_LIMIT
        · rw [if_pos hl] at h1
          have hi := ih c1 c' e.2 (by rw [← h1]) (by intro _; rw [← h1]) h2
          rw [← h1] at hi
          simp only at hi
          obtain ⟨i1, i2, i3, i4, i5, i6⟩ := hi
          refine ⟨by omega, ?_, by simp only [List.length_cons]; omega, by omega, i5, i6⟩
          intro hp
          have := (i2 hp).1
          omega
        · rw [if_neg hl] at h1
          have hi := ih c1 c' e.2 (by rw [← h1]) (by intro h; rw [← h1] at h; simp only at h; omega) h2
          rw [← h1] at hi
          simp only at hi
          obtain ⟨i1, i2, i3, i4, i5, i6⟩ := hi
          refine ⟨by omega, ?_, by simp only [List.length_cons]; omega, by omega, i5, i6⟩
          intro hp
          exact ⟨(i2 hp).1, by omega, (i2 hp).2⟩
      · rw [if_neg hb] at h1
        have hi := ih c1 c' e.2 (by rw [← h1]) (by intro h; rw [← h1] at h; simp only at h; omega) h2
        rw [← h1] at hi
        simp only at hi
        obtain ⟨i1, i2, i3, i4, i5, i6⟩ := hi
        refine ⟨by omega, ?_, by simp only [List.length_cons]; omega, by omega, i5, i6⟩
        intro hp
        exact ⟨(i2 hp).1, by omega, (i2 hp).2⟩
    · rw [if_neg hm] at h1
      simp only [Except.ok.injEq] at h1
      have hi := ih c1 c' p (by rw [← h1])
        (by intro h; rw [← h1]; exact hJ (by omega)) h2
      rw [← h1] at hi
      simp only at hi
      obtain ⟨i1, i2, i3, i4, i5, i6⟩ := hi
      refine ⟨i1, ?_, by simp only [List.length_cons]; omega, by omega, i5, i6⟩
      intro hp
      have := (i2 hp).1
      omega

/-- The context after `init` of all elements. -/
structure Ready (es : List Event) (c : DeltaContext) : Prop where
  notStarted : c.processingStarted = false
  chain : ∀ e rest, es = e :: rest → c.isPacked = true →
    c.maxBitNumber ≤ MAX_BIT_NUMBER_LIMIT ∧ DeltasLe c.maxBitNumber e.2 rest
  count : c.numElements = es.length
  total : c.unpackedBitsize = unpackedSum es
  first : ∀ e rest, es = e :: rest → bitsizeofUnpacked e.1.traits e.2 = .ok c.firstElementBitsize

theorem ready_initAll {es : List Event} {c : DeltaContext} (h : initAll {} es = .ok c) : Ready es c := by
  cases es with
  | nil =>
    simp only [initAll, Except.ok.injEq] at h
    subst h
    exact ⟨rfl, by simp, rfl, rfl, by simp⟩
  | cons e es =>
    rw [initAll] at h
    obtain ⟨c1, h1, h2⟩ := except_bind_ok h
    unfold init at h1
    obtain ⟨n, hn, h1⟩ := except_bind_ok h1
    simp only [Except.ok.injEq] at h1
    have hi := initAll_some es c1 c e.2 (by rw [← h1]) (by intro _; rw [← h1]) h2
    rw [← h1] at hi
    simp only at hi
    obtain ⟨i1, i2, i3, i4, i5, i6⟩ := hi
    refine ⟨i6, ?_, by simp only [List.length_cons]; omega, ?_, ?_⟩
    · rintro e' rest ⟨⟩ hp; exact i2 hp
    · rw [unpackedSum, hn]; simp only; omega
    · rintro e' rest ⟨⟩; rw [hn, i5]; simp

/-- `init` succeeds on values of the type. -/
theorem initAll_ok : ∀ (es : List Event) (c : DeltaContext), (∀ e ∈ es, e.1.InRange e.2) →
    ∃ c', initAll c es = .ok c' := by
  intro es
  induction es with
  | nil => intro c _; exact ⟨c, rfl⟩
  | cons e es ih =>
    intro c h
    obtain ⟨n, hn⟩ := e.1.unpacked_ok e.2 (h e (by simp))
    have : ∃ c1, c.init e.1.traits e.2 = .ok c1 := by
      unfold init
      rw [hn, ok_bind]
      simp only
      split
      · exact ⟨_, rfl⟩
      · split <;> exact ⟨_, rfl⟩
    obtain ⟨c1, h1⟩ := this
    obtain ⟨c', h2⟩ := ih c1 (fun x hx => h x (by simp [hx]))
    exact ⟨c', by rw [initAll, h1, ok_bind, h2]⟩

/-- Contexts of the write pass, the size pass and the read pass with the events still to come. -/
inductive Sync : List Event → DeltaContext → DeltaContext → DeltaContext → Prop
  | start (es : List Event) (c : DeltaContext) : Ready es c → Sync es c c {}
  | unpacked (es : List Event) (cw cs cr : DeltaContext) : cw.processingStarted = true → cs.processingStarted = true →
      cr.processingStarted = true → cw.isPacked = false → cs.isPacked = false → cr.isPacked = false → Sync es cw cs cr
  | packed (es : List Event) (cw cs cr : DeltaContext) (m : Nat) (v : Int) : cw.processingStarted = true →
      cs.processingStarted = true → cr.processingStarted = true → cw.isPacked = true → cs.isPacked = true →
      cr.isPacked = true → cw.maxBitNumber = m → cs.maxBitNumber = m → cr.maxBitNumber = m →
      cw.previousElement = some v → cr.previousElement = some v → m ≤ MAX_BIT_NUMBER_LIMIT → DeltasLe m v es →
      Sync es cw cs cr

theorem finishInit_ready {es : List Event} {c : DeltaContext} (h : Ready es c) (c' : DeltaContext)
    (hc' : c' = ({ c with processingStarted := true } : DeltaContext).finishInit) :
    c'.processingStarted = true ∧ c'.maxBitNumber = c.maxBitNumber ∧ (c'.isPacked = true → c.isPacked = true) := by
  subst hc'
  unfold finishInit
  split
  · simp only
    split <;> simp
  · simp

theorem runs_writeDescriptor (c : DeltaContext) (h : c.isPacked = true → c.maxBitNumber ≤ MAX_BIT_NUMBER_LIMIT)
    (b0 : List Bool) :
    Runs c.writeDescriptor b0 (if c.isPacked then true :: natBits 6 c.maxBitNumber else [false]) () := by
  unfold writeDescriptor
  cases hp : c.isPacked
  · simp only [Bool.false_eq_true, if_false]
    have := ((emits_writeBool false b0.length).runs (b0 := b0) rfl).bind (f := fun _ => pure ()) (bs' := [])
      (runs_pure () _)
    simpa using this
  · simp only [if_true]
    have hm : c.maxBitNumber < 2 ^ 6 := by have := h hp; unfold MAX_BIT_NUMBER_LIMIT at this; omega
    have := ((emits_writeBool true b0.length).runs (b0 := b0) rfl).bind
      (f := fun _ => Writer.writeBitsUnchecked c.maxBitNumber MAX_BIT_NUMBER_BITS)
      ((emits_writeBitsUnchecked c.maxBitNumber 6 _ hm).runs rfl)
    simpa using this

theorem parses_readDescriptor (c : DeltaContext) (packed : Bool) (m : Nat) (hm : m < 64) (p : Nat) (s : List Bool) :
    Reader.Parses c.readDescriptor p (if packed then true :: natBits 6 m else [false]) s
      (if packed then { c with isPacked := true, maxBitNumber := m } else { c with isPacked := false }) := by
  unfold readDescriptor
  cases packed
  · simp only [Bool.false_eq_true, if_false]
    have := Reader.Parses.bind (f := fun isPacked => do
        let c := { c with isPacked := isPacked }
        if c.isPacked then do
          let n ← Reader.readBitsUnchecked MAX_BIT_NUMBER_BITS
          pure { c with maxBitNumber := n }
        else pure c) (bs' := []) (Reader.parses_readBool false p s) (Reader.parses_pure _ _ _)
    simpa using this
  · simp only [if_true]
    have h2 := Reader.Parses.map (f := fun n => ({ c with isPacked := true, maxBitNumber := n } : DeltaContext))
      (Reader.parses_natBits 6 m (p + 1) s hm)
    have := Reader.Parses.bind (f := fun isPacked => do
        let c := { c with isPacked := isPacked }
        if c.isPacked then do
          let n ← Reader.readBitsUnchecked MAX_BIT_NUMBER_BITS
          pure { c with maxBitNumber := n }
        else pure c) (bs' := natBits 6 m) (Reader.parses_readBool true p (natBits 6 m ++ s)) h2
    simpa using this

theorem appends_writeDescriptor (c : DeltaContext) : Appends c.writeDescriptor := by
  intro b0 a w' h
  unfold writeDescriptor at h
  obtain ⟨_, bs, _, h2⟩ := (appends_call (.bool c.isPacked)).bind_inv (m := Writer.writeBool c.isPacked) h
  split at h2
  · have : Appends (Writer.writeBitsUnchecked (c.maxBitNumber : Int) MAX_BIT_NUMBER_BITS) := by
      have e : Writer.writeBitsUnchecked (c.maxBitNumber : Int) MAX_BIT_NUMBER_BITS =
          Writer.writeBits (c.maxBitNumber : Int) 6 := rfl
      rw [e]
      exact appends_call (.bits c.maxBitNumber 6)
    obtain ⟨bs2, rfl⟩ := this _ _ _ h2
    exact ⟨bs ++ bs2, by simp⟩
  · obtain ⟨bs2, rfl⟩ := appends_pure _ _ _ _ h2
    exact ⟨bs ++ bs2, by simp⟩

theorem writeUnpacked_inv {c c' : DeltaContext} {k : IntKind} {x : Int} {b0 : List Bool} {w' : Writer}
    (h : c.writeUnpacked k.traits x (ofBits b0) = (.ok c', w')) :
    ∃ bs, w' = ofBits (b0 ++ bs) ∧ Runs (k.traits.write x) b0 bs () ∧ c' = { c with previousElement := some x } := by
  unfold writeUnpacked at h
  obtain ⟨_, bs, h1, h2⟩ := (k.appends x).bind_inv h
  simp only [M.pure_apply, Prod.mk.injEq, Except.ok.injEq] at h2
  exact ⟨bs, h2.2.symm, h1, h2.1.symm⟩

theorem parses_readUnpacked (c : DeltaContext) (k : IntKind) {x : Int} {b0 bs : List Bool}
    (h : Runs (k.traits.write x) b0 bs ()) (s : List Bool) :
    Reader.Parses (c.readUnpacked k.traits) b0.length bs s (x, { c with previousElement := some x }) := by
  unfold readUnpacked
  exact Reader.Parses.map (f := fun e => (e, { c with previousElement := some e })) (k.readsTo 0 x b0 bs h s)

/-- One step of the three passes. -/
theorem sync_step {k : IntKind} {x : Int} {es : List Event} {cw cs cr : DeltaContext}
    (h : Sync ((k, x) :: es) cw cs cr) {b0 : List Bool} {cw' : DeltaContext} {w' : Writer}
    (hw : cw.write k.traits x (ofBits b0) = (.ok cw', w')) :
    ∃ bs cs' cr', w' = ofBits (b0 ++ bs) ∧ cs.bitsizeof k.traits x = .ok (bs.length, cs') ∧
      (∀ s, Reader.Parses (cr.read k.traits) b0.length bs s (x, cr')) ∧ Sync es cw' cs' cr' := by
  cases h with
  | start hready =>
    have hns := hready.notStarted
    obtain ⟨f1, f2, f3⟩ := finishInit_ready hready _ rfl
    obtain ⟨c', hc'⟩ : ∃ c', c' = ({ cw with processingStarted := true } : DeltaContext).finishInit := ⟨_, rfl⟩
    have hlim : c'.isPacked = true → c'.maxBitNumber ≤ MAX_BIT_NUMBER_LIMIT := by
      intro hp; rw [hc'] at hp ⊢; rw [f2]; exact (hready.chain _ _ rfl (f3 hp)).1
    unfold write at hw
    rw [if_pos (by simp [hns])] at hw
    simp only [← hc'] at hw
    obtain ⟨_, d, hd, hw⟩ := (appends_writeDescriptor c').bind_inv hw
    have hd' := (Runs.inj hd (runs_writeDescriptor c' hlim b0)).2
    obtain ⟨bs, rfl, hx, hcw'⟩ := writeUnpacked_inv hw
    have hdlen : d.length = c'.bitsizeofDescriptor := by
      rw [hd']
      unfold bitsizeofDescriptor MAX_BIT_NUMBER_BITS
      split <;> simp
    refine ⟨d ++ bs, c', { (if c'.isPacked then { ({} : DeltaContext) with processingStarted := true, isPacked := true, maxBitNumber := c'.maxBitNumber } else { ({} : DeltaContext) with processingStarted := true, isPacked := false }) with previousElement := some x }, by simp, ?_, ?_, ?_⟩
    · unfold bitsizeof
      rw [if_pos (by simp [hns])]
      simp only [← hc']
      rw [k.unpacked_exact hx, ok_bind, List.length_append, hdlen]
    · intro s
      unfold read
      rw [if_pos (by rfl)]
      simp only
      by_cases hpk : c'.isPacked = true
      · rw [if_pos hpk] at hd' ⊢
        subst hd'
        have hm : c'.maxBitNumber < 64 := by have := hlim hpk; unfold MAX_BIT_NUMBER_LIMIT at this; omega
        have h1 := parses_readDescriptor { ({} : DeltaContext) with processingStarted := true } true c'.maxBitNumber hm
          b0.length (bs ++ s)
        simp only [if_true] at h1
        refine Reader.Parses.bind h1 ?_
        have h2 := parses_readUnpacked { ({} : DeltaContext) with processingStarted := true, isPacked := true, maxBitNumber := c'.maxBitNumber } k hx s
        rw [List.length_append] at h2
        exact h2
      · simp only [Bool.not_eq_true] at hpk
        rw [hpk] at hd' ⊢
        simp only [Bool.false_eq_true, if_false] at hd' ⊢
        subst hd'
        have h1 := parses_readDescriptor { ({} : DeltaContext) with processingStarted := true } false 0 (by omega)
          b0.length (bs ++ s)
        simp only [Bool.false_eq_true, if_false] at h1
        refine Reader.Parses.bind h1 ?_
        have h2 := parses_readUnpacked { ({} : DeltaContext) with processingStarted := true, isPacked := false } k hx s
        rw [List.length_append] at h2
        exact h2
    · rw [← hc'] at f1 f2 f3
      by_cases hpk : c'.isPacked = true
      · rw [if_pos hpk]
        refine Sync.packed _ _ _ _ c'.maxBitNumber x ?_ f1 rfl ?_ hpk rfl ?_ rfl rfl ?_ rfl (hlim hpk) ?_
        · rw [hcw']; exact f1
        · rw [hcw']; exact hpk
        · rw [hcw']
        · rw [hcw']
        · rw [f2]; exact (hready.chain _ _ rfl (f3 hpk)).2
      · simp only [Bool.not_eq_true] at hpk
        rw [hpk]
        refine Sync.unpacked _ _ _ _ ?_ f1 rfl ?_ hpk rfl
        · rw [hcw']; exact f1
        · rw [hcw']; exact hpk
  | unpacked _ _ h1 h2 h3 h4 h5 h6 =>
    unfold write at hw
    rw [if_neg (by simp [h1]), if_pos (by simp [h4])] at hw
    obtain ⟨bs, rfl, hx, hcw'⟩ := writeUnpacked_inv hw
    refine ⟨bs, cs, { cr with previousElement := some x }, rfl, ?_, ?_, ?_⟩
    · unfold bitsizeof
      rw [if_neg (by simp [h2]), if_pos (by simp [h5]), k.unpacked_exact hx, ok_bind]
    · intro s
      unfold read
      rw [if_neg (by simp [h3]), if_pos (by simp [h6])]
      exact parses_readUnpacked cr k hx s
    · subst hcw'
      exact Sync.unpacked _ _ _ _ h1 h2 h3 h4 h5 h6
  | packed _ _ m v h1 h2 h3 h4 h5 h6 h7 h8 h9 h10 h11 h12 h13 =>
    obtain ⟨hb, hrest⟩ := h13
    simp only at hb hrest
    unfold write at hw
    rw [if_neg (by simp [h1]), if_neg (by simp [h4]), h10] at hw
    simp only at hw
    by_cases hm : m > 0
    · rw [h7, if_pos hm] at hw
      have hf := fits_of_bitLength hb
      have hr := (emits_writeSignedBitsUnchecked (x - v) (m + 1) b0.length (by omega) (by simpa using hf.1) (by simpa using hf.2)).runs
        (b0 := b0) rfl
      unfold Runs at hr
      rw [M.bind_ok hr] at hw
      simp only [M.pure_apply, Prod.mk.injEq, Except.ok.injEq] at hw
      obtain ⟨rfl, rfl⟩ := hw
      refine ⟨intBits (m + 1) (x - v), cs, { cr with previousElement := some x }, rfl, ?_, ?_, ?_⟩
      · unfold bitsizeof deltaBitsize
        rw [if_neg (by simp [h2]), if_neg (by simp [h5]), h8, if_pos hm]
        simp [intBits]
      · intro s
        unfold read
        rw [if_neg (by simp [h3]), if_neg (by simp [h6]), h11]
        simp only
        rw [h9, if_pos hm]
        have := Reader.Parses.map (f := fun d => (v + d, { cr with previousElement := some (v + d) }))
          (Reader.parses_intBits (m + 1) (x - v) b0.length s (by omega) (by simpa using hf.1) (by simpa using hf.2))
        simpa [h9] using this
      · exact Sync.packed _ _ _ _ m x h1 h2 h3 h4 h5 h6 rfl h8 h9 rfl rfl h12 hrest
    · rw [h7, if_neg hm] at hw
      simp only [M.pure_apply, Prod.mk.injEq, Except.ok.injEq] at hw
      obtain ⟨rfl, rfl⟩ := hw
      have hm0 : m = 0 := by omega
      have hxv : x = v := by
        have := (bitLength_le_iff _ _).1 hb
        rw [hm0] at this
        simp at this
        omega
      subst hxv
      refine ⟨[], cs, cr, by simp, ?_, ?_, ?_⟩
      · unfold bitsizeof deltaBitsize
        rw [if_neg (by simp [h2]), if_neg (by simp [h5]), h8, if_neg hm]
        rfl
      · intro s
        unfold read
        rw [if_neg (by simp [h3]), if_neg (by simp [h6]), h11]
        simp only
        rw [h9, if_neg hm]
        exact Reader.parses_pure _ _ _
      · exact Sync.packed _ _ _ _ m x h1 h2 h3 h4 h5 h6 h7 h8 h9 h10 h11 h12 hrest

/-- The write step succeeds on a value of the type. -/
theorem write_ok {k : IntKind} {x : Int} {es : List Event} {cw cs cr : DeltaContext}
    (h : Sync ((k, x) :: es) cw cs cr) (hx : k.InRange x) (b0 : List Bool) :
    ∃ cw' w', cw.write k.traits x (ofBits b0) = (.ok cw', w') := by
  have hun : ∀ (c : DeltaContext) b0, ∃ cw' w', c.writeUnpacked k.traits x (ofBits b0) = (.ok cw', w') := by
    intro c b0
    obtain ⟨bs, hb⟩ := k.runs_of_inRange x hx b0
    unfold Runs at hb
    exact ⟨_, _, by rw [writeUnpacked, M.bind_ok hb]; rfl⟩
  cases h with
  | start hready =>
    obtain ⟨f1, f2, f3⟩ := finishInit_ready hready _ rfl
    obtain ⟨c', hc'⟩ : ∃ c', c' = ({ cw with processingStarted := true } : DeltaContext).finishInit := ⟨_, rfl⟩
    have hlim : c'.isPacked = true → c'.maxBitNumber ≤ MAX_BIT_NUMBER_LIMIT := by
      intro hp; rw [hc'] at hp ⊢; rw [f2]; exact (hready.chain _ _ rfl (f3 hp)).1
    unfold write
    rw [if_pos (by simp [hready.notStarted])]
    simp only [← hc']
    have := runs_writeDescriptor c' hlim b0
    unfold Runs at this
    rw [M.bind_ok this]
    exact hun _ _
  | unpacked _ _ h1 h2 h3 h4 h5 h6 =>
    unfold write
    rw [if_neg (by simp [h1]), if_pos (by simp [h4])]
    exact hun _ _
  | packed _ _ m v h1 h2 h3 h4 h5 h6 h7 h8 h9 h10 h11 h12 h13 =>
    obtain ⟨hb, hrest⟩ := h13
    simp only at hb
    unfold write
    rw [if_neg (by simp [h1]), if_neg (by simp [h4]), h10]
    simp only
    by_cases hm : m > 0
    · rw [h7, if_pos hm]
      have hf := fits_of_bitLength hb
      have hr := (emits_writeSignedBitsUnchecked (x - v) (m + 1) b0.length (by omega) (by simpa using hf.1) (by simpa using hf.2)).runs
        (b0 := b0) rfl
      unfold Runs at hr
      rw [M.bind_ok hr]
      exact ⟨_, _, rfl⟩
    · rw [h7, if_neg hm]
      exact ⟨_, _, rfl⟩

end DeltaContext
end Zserio
