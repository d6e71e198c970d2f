import Verif.Lemmas.ReaderAny
import Verif.Props.RoundTrip
/-
Properties C10 - C13: the bit stream reader on arbitrary input.
-/
namespace Zserio

/-! ### C10 -/

/-- The state of a reader after a sequence of calls, each of which may raise. -/
theorem runAll_wf (calls : List RCall) (r : Reader) (hr : r.WF) :
    let r' := (Reader.runAll calls r).2
    r'.WF ∧ r'.buffer = r.buffer ∧ r'.bitsize = r.bitsize := by
  induction calls generalizing r with
  | nil => exact ⟨hr, rfl, rfl⟩
  | cons c cs ih =>
    obtain ⟨h1, h2, h3⟩ := Reader.safe_run c r hr
    obtain ⟨k1, k2, k3⟩ := ih (c.run r).2 h1
    exact ⟨k1, k2.trans h2, k3.trans h3⟩

/-- What the constructor accepts. -/
theorem make_wf (buffer : List UInt8) (bitsize : Option Int) (r : Reader) (h : Reader.make buffer bitsize = .ok r)
    (hs : ∀ n, bitsize = some n → 0 ≤ n) : r.WF ∧ r.buffer = buffer ∧ r.pos = 0 := by
  unfold Reader.make at h
  cases bitsize with
  | none => injection h with h; subst h; exact ⟨⟨by simp, by simp⟩, rfl, rfl⟩
  | some n =>
    simp only at h
    split at h
    · simp at h
    · injection h with h; subst h
      have := hs n rfl
      exact ⟨⟨by simp only; omega, by simp only; omega⟩, rfl, rfl⟩

/-- **C10.** For a reader over any buffer with any accepted, non-negative size, after any calls with any arguments the
position is inside the stream and buffer and size are unchanged. -/
theorem C10_position_inside (buffer : List UInt8) (bitsize : Option Int) (r : Reader)
    (h : Reader.make buffer bitsize = .ok r) (hs : ∀ n, bitsize = some n → 0 ≤ n) (calls : List RCall) :
    let r' := (Reader.runAll calls r).2
    (r'.pos : Int) ≤ r'.bitsize ∧ r'.bitsize = r.bitsize ∧ r'.bitsize ≤ 8 * buffer.length ∧ r'.buffer = buffer := by
  obtain ⟨hwf, hb, _⟩ := make_wf buffer bitsize r h hs
  obtain ⟨⟨k0, k1⟩, k2, k3⟩ := runAll_wf calls r hwf
  refine ⟨k1, k3, ?_, by rw [k2, hb]⟩
  rw [k2, hb] at k0
  omega

/-- The hypothesis on the size is needed: the constructor accepts a negative size and then the initial position is already
beyond it. -/
theorem C10_negative_size_counterexample :
    ∃ r, Reader.make [] (some (-1)) = .ok r ∧ ¬ ((r.pos : Int) ≤ r.bitsize) := ⟨⟨[], -1, 0⟩, by decide, by decide⟩

example : ∃ r, Reader.make [0xAB, 0xCD] (some 11) = .ok r ∧
    (Reader.runAll [.bits 4, .var .varuint, .bytes, .setPosition 100, .alignto 8] r).2.pos = 8 :=
  ⟨_, rfl, by decide +kernel⟩

/-! ### C11 -/

/-- The bits left to read. -/
def Reader.remaining (r : Reader) : List Bool := ((bytesBits r.buffer).take r.bitsize.toNat).drop r.pos

/-- **C11**, `read_bits`. -/
theorem C11_read_bits (r : Reader) (hr : r.WF) (n : Int) (hn : 1 ≤ n ∧ n ≤ 64) :
    Reader.readBits n r =
      if (r.pos : Int) + n ≤ r.bitsize then
        (.ok (bitsVal (r.remaining.take n.toNat)), { r with pos := r.pos + n.toNat })
      else (.error .eos, r) := by
  have hlen := Reader.rest_length r hr
  unfold Reader.readBits
  rw [if_neg (by omega), Reader.readBitsUnchecked_spec r n.toNat hr]
  by_cases h : (r.pos : Int) + n ≤ r.bitsize
  · rw [if_pos h, if_pos (by omega)]; rfl
  · rw [if_neg h, if_neg (by omega)]

/-- **C11**, `read_bits` with an inadmissible number of bits raises without effect. -/
theorem C11_read_bits_numbits (r : Reader) (n : Int) (hn : ¬ (1 ≤ n ∧ n ≤ 64)) :
    Reader.readBits n r = (.error .numbits, r) ∧ Reader.readSignedBits n r = (.error .numbits, r) := by
  unfold Reader.readBits Reader.readSignedBits
  rw [if_pos (by omega), if_pos (by omega)]
  exact ⟨rfl, rfl⟩

theorem signed_of_bits (bs : List Bool) (hb : bs ≠ []) :
    (if bs.length ≠ 0 ∧ bitsVal bs >>> (bs.length - 1) ≠ 0 then (bitsVal bs : Int) - 2 ^ bs.length else (bitsVal bs : Int))
      = signedVal bs := by
  cases bs with
  | nil => exact absurd rfl hb
  | cons b rest =>
    have hlt := bitsVal_lt rest
    have hp : (2 : Int) ^ (rest.length + 1) = 2 * 2 ^ rest.length := by rw [pow_succ]; ring
    simp only [List.length_cons, Nat.add_sub_cancel, Nat.shiftRight_eq_div_pow, bitsVal, signedVal]
    cases b
    · rw [if_neg]
      · simp
      · simp [Nat.div_eq_of_lt hlt]
    · rw [if_pos]
      · push_cast
        rw [hp]
        simp; omega
      · refine ⟨by omega, ?_⟩
        have : 0 < (true.toNat * 2 ^ rest.length + bitsVal rest) / 2 ^ rest.length :=
          Nat.div_pos (by simp) (by positivity)
        omega

/-- **C11**, `read_signed_bits`: two's complement value of the next `n` bits. -/
theorem C11_read_signed_bits (r : Reader) (hr : r.WF) (n : Int) (hn : 1 ≤ n ∧ n ≤ 64) :
    Reader.readSignedBits n r =
      if (r.pos : Int) + n ≤ r.bitsize then
        (.ok (signedVal (r.remaining.take n.toNat)), { r with pos := r.pos + n.toNat })
      else (.error .eos, r) := by
  have hlen := Reader.rest_length r hr
  unfold Reader.readSignedBits
  rw [if_neg (by omega)]
  unfold Reader.readSignedBitsUnchecked
  rw [M.bind_apply, Reader.readBitsUnchecked_spec r n.toNat hr]
  by_cases h : (r.pos : Int) + n ≤ r.bitsize
  · rw [if_pos h, if_pos (by omega)]
    have hl : (r.rest.take n.toNat).length = n.toNat := by rw [List.length_take]; omega
    have hne : r.rest.take n.toNat ≠ [] := by
      intro h0; rw [h0] at hl; simp at hl; omega
    have := signed_of_bits _ hne
    rw [hl] at this
    show _ = (Except.ok (signedVal (r.rest.take n.toNat)), _)
    rw [← this]
    simp only
    split <;> rfl
  · rw [if_neg h, if_neg (by omega)]

/-- **C11**, `read_bool` and the floats: the next 1 / 16 / 32 / 64 bits, or a failure without effect. -/
theorem C11_read_bool (r : Reader) (hr : r.WF) :
    Reader.readBool r =
      if (r.pos : Int) + 1 ≤ r.bitsize then (.ok (r.remaining.headD false), { r with pos := r.pos + 1 })
      else (.error .eos, r) := by
  have hlen := Reader.rest_length r hr
  unfold Reader.readBool
  rw [M.bind_apply, Reader.readBitsUnchecked_spec r 1 hr]
  by_cases h : (r.pos : Int) + 1 ≤ r.bitsize
  · rw [if_pos h, if_pos (by omega)]
    show (Except.ok (bitsVal (r.rest.take 1) != 0), _) = (Except.ok (r.rest.headD false), _)
    cases hrest : r.rest with
    | nil => rw [hrest] at hlen; simp at hlen; omega
    | cons b t => cases b <;> simp [bitsVal, Reader.advance]
  · rw [if_neg h, if_neg (by omega)]

theorem read_map (r : Reader) (hr : r.WF) (n : Nat) (f : Nat → PyFloat) :
    (do let v ← Reader.readBitsUnchecked n; pure (f v) : M Reader PyFloat) r =
      if (r.pos : Int) + n ≤ r.bitsize then
        (.ok (f (bitsVal (r.remaining.take n))), { r with pos := r.pos + n }) else (.error .eos, r) := by
  have hlen := Reader.rest_length r hr
  rw [M.bind_apply, Reader.readBitsUnchecked_spec r n hr]
  by_cases h : (r.pos : Int) + n ≤ r.bitsize
  · rw [if_pos h, if_pos (by omega)]; rfl
  · rw [if_neg h, if_neg (by omega)]

/-- **C11**, floats. -/
theorem C11_read_float (r : Reader) (hr : r.WF) :
    Reader.readFloat16 r = (if (r.pos : Int) + 16 ≤ r.bitsize then
        (.ok (uint16ToFloat (bitsVal (r.remaining.take 16))), { r with pos := r.pos + 16 }) else (.error .eos, r)) ∧
    Reader.readFloat32 r = (if (r.pos : Int) + 32 ≤ r.bitsize then
        (.ok (uint32ToFloat (bitsVal (r.remaining.take 32))), { r with pos := r.pos + 32 }) else (.error .eos, r)) ∧
    Reader.readFloat64 r = (if (r.pos : Int) + 64 ≤ r.bitsize then
        (.ok (uint64ToFloat (bitsVal (r.remaining.take 64))), { r with pos := r.pos + 64 }) else (.error .eos, r)) := by
  exact ⟨read_map r hr 16 _, read_map r hr 32 _, read_map r hr 64 _⟩

example : ∃ r : Reader, r.WF ∧ r.pos = 3 ∧ Reader.readSignedBits 5 r = (.ok (-11), { r with pos := 8 }) :=
  ⟨⟨[0xB5], 8, 3⟩, by unfold Reader.WF; decide, rfl, by decide +kernel⟩

/-! ### C12 -/

theorem runAll_blind (calls : List RCall) (r r' : Reader) (h : Reader.Agree r r') :
    (Reader.runAll calls r).1 = (Reader.runAll calls r').1 ∧
      Reader.Agree (Reader.runAll calls r).2 (Reader.runAll calls r').2 := by
  induction calls generalizing r r' with
  | nil => exact ⟨rfl, h⟩
  | cons c cs ih =>
    obtain ⟨h1, h2⟩ := Reader.blind_run c r r' h
    obtain ⟨k1, k2⟩ := ih _ _ h2
    refine ⟨?_, k2⟩
    show (c.run r).1 :: (Reader.runAll cs (c.run r).2).1 = (c.run r').1 :: (Reader.runAll cs (c.run r').2).1
    rw [h1, k1]

/-- **C12.** Readers of the same declared size over buffers which agree on those bits return the same results (values and
exceptions) and stay at the same positions for every sequence of calls. -/
theorem C12_trailing_bits_irrelevant (buffer buffer' : List UInt8) (size : Nat) (r r' : Reader)
    (h : Reader.make buffer (some size) = .ok r) (h' : Reader.make buffer' (some size) = .ok r')
    (hagree : (bytesBits buffer).take size = (bytesBits buffer').take size) (calls : List RCall) :
    (Reader.runAll calls r).1 = (Reader.runAll calls r').1 ∧
      (Reader.runAll calls r).2.pos = (Reader.runAll calls r').2.pos := by
  obtain ⟨w, hb, hp⟩ := make_wf _ _ r h (by simp)
  obtain ⟨w', hb', hp'⟩ := make_wf _ _ r' h' (by simp)
  have hs : r.bitsize = size ∧ r'.bitsize = size := by
    unfold Reader.make at h h'
    simp only at h h'
    split at h
    · simp at h
    split at h'
    · simp at h'
    injection h with h; injection h' with h'
    subst h; subst h'
    exact ⟨rfl, rfl⟩
  have ha : Reader.Agree r r' :=
    ⟨w, w', by rw [hs.1, hs.2], by rw [hp, hp'], by rw [hs.1, hb, hb']; simpa using hagree⟩
  obtain ⟨k1, k2⟩ := runAll_blind calls r r' ha
  exact ⟨k1, k2.2.2.2.1⟩

example : Reader.make [0xAB, 0xFF] (some 9) = .ok ⟨[0xAB, 0xFF], 9, 0⟩ ∧
    (bytesBits [0xAB, 0xFF]).take 9 = (bytesBits [0xAB, 0x80, 0x00]).take 9 := by decide +kernel

/-! ### C13 -/

/-- **C13.** On any input a variable-length read raises, or returns a value of the type after consuming between one byte and
the maximal number of bytes. -/
theorem C13_var_read_in_range (t : VarType) (r : Reader) (hr : r.WF) :
    match Reader.readVar t r with
    | (.ok v, r') => t.lo ≤ v ∧ v ≤ t.hi ∧
        ∃ n, 1 ≤ n ∧ n ≤ t.maxBytes ∧ r' = { r with pos := r.pos + 8 * n }
    | (.error _, r') => ∃ n, n ≤ t.maxBytes ∧ r' = { r with pos := r.pos + 8 * n } := by
  have h := Reader.readVar_result t r hr
  rcases hres : Reader.readVar t r with ⟨e | v, r'⟩
  · rw [hres] at h; exact h
  · rw [hres] at h
    exact ⟨h.1.1, h.1.2, h.2⟩

-- an over-long encoding of zero is accepted, an out-of-range varsize is rejected after five bytes
example : Reader.readVar .varuint32 ⟨[0x80, 0x80, 0x80, 0x00], 32, 0⟩ = (.ok 0, ⟨[0x80, 0x80, 0x80, 0x00], 32, 32⟩) ∧
    (Reader.readVar .varsize ⟨[0xFF, 0xFF, 0xFF, 0xFF, 0xFF], 40, 0⟩).1 = .error .varsizeRange := by decide +kernel

end Zserio
