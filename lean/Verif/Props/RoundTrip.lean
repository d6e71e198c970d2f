import Verif.Lemmas.Calls
/-
Properties C03, C04, C06, C14, C15: what is written is read back.
-/
namespace Zserio

/-- `r` is a reader positioned at `start` over the final byte array of a writer which had reached `fin` bits when the value
under consideration was complete; its declared size covers at least those bits. -/
def ReadsAt (r : Reader) (bytes : List UInt8) (start fin : Nat) : Prop :=
  r.buffer = bytes ∧ (fin : Int) ≤ r.bitsize ∧ r.bitsize ≤ 8 * r.buffer.length ∧ r.pos = start

/-- Value of a bit list in two's complement. -/
def signedVal (bs : List Bool) : Int :=
  match bs with
  | [] => 0
  | b :: rest => (bitsVal rest : Int) - (if b then 2 ^ rest.length else 0)

/-! ### C03 -/

/-- **C03.** A value written by `write_bits` at any reachable position, followed by any further calls, is returned by
`read_bits` from that position, which advances by exactly `n` bits. -/
theorem C03_unsigned_round_trip (w0 : Writer) (hw0 : w0.Reachable) (n : Int) (v : Int) (hn : 1 ≤ n ∧ n ≤ 64)
    (hv : 0 ≤ v ∧ v ≤ 2 ^ n.toNat - 1) :
    ∃ w1, Writer.writeBits v n w0 = (.ok (), w1) ∧ w1.pos = w0.pos + n.toNat ∧
      ∀ later r, ReadsAt r (w1.runAll later).bytes w0.pos w1.pos →
        Reader.readBits n r = (.ok v.toNat, { r with pos := w0.pos + n.toNat }) := by
  have hspec : (WCall.bits v n).spec w0.pos = some (natBits n.toNat v.toNat) := by
    simp only [WCall.spec]; exact if_pos ⟨hn, hv⟩
  have hw := (WCall.bits v n).run_spec w0.pos
  rw [hspec] at hw
  have hread : Reader.readBits n = Reader.readBitsUnchecked n.toNat := by
    unfold Reader.readBits; rw [if_neg (by omega)]
  have hlt : v.toNat < 2 ^ n.toNat := by
    have : (v.toNat : Int) < 2 ^ n.toNat := by rw [Int.toNat_of_nonneg hv.1]; omega
    exact_mod_cast this
  obtain ⟨w1, h1, h2, h3⟩ := write_then_read (mr := Reader.readBits n) hw0 hw
    (fun s => by rw [hread]; exact Reader.parses_natBits n.toNat v.toNat w0.pos s hlt)
  simp at h2
  refine ⟨w1, h1, h2, ?_⟩
  rintro later r ⟨a, b, c, d⟩
  rw [← h2]
  exact h3 later r a b c d

example : (Writer.init.runAll [.bool true]).Reachable ∧ (1 ≤ (64 : Int) ∧ (64 : Int) ≤ 64) ∧
    (0 ≤ (2 ^ 64 - 1 : Int) ∧ (2 ^ 64 - 1 : Int) ≤ 2 ^ (64 : Int).toNat - 1) := ⟨⟨_, rfl⟩, by decide, by decide⟩

/-! ### C04 -/

/-- The `n`-bit two's complement really denotes the value. -/
theorem signedVal_intBits (n : Nat) (v : Int) (hn : 0 < n) (h1 : -(2 ^ (n - 1)) ≤ v) (h2 : v ≤ 2 ^ (n - 1) - 1) :
    signedVal (intBits n v) = v := by
  obtain ⟨m, rfl⟩ : ∃ m, n = m + 1 := ⟨n - 1, by omega⟩
  simp only [Nat.add_sub_cancel] at h1 h2
  unfold intBits
  rw [natBits, signedVal]
  simp only [natBits_length, bitsVal_natBits]
  have hp : (2 : Int) ^ (m + 1) = 2 * 2 ^ m := by rw [pow_succ]; ring
  have hcast : ((2 ^ (m + 1) : Nat) : Int) = 2 * 2 ^ m := by push_cast; exact hp
  have hpos : (0 : Int) < 2 ^ m := by positivity
  by_cases hneg : v < 0
  · have e : (v % ((2 ^ (m + 1) : Nat) : Int)) = v + 2 * 2 ^ m := by
      rw [hcast, ← Int.add_emod_right, Int.emod_eq_of_lt (by omega) (by omega)]
    rw [e]
    obtain ⟨k, hk⟩ := Int.eq_ofNat_of_zero_le (show (0 : Int) ≤ v + 2 ^ m by omega)
    have hk' : v + 2 * 2 ^ m = ((2 ^ m + k : Nat) : Int) := by push_cast; omega
    have hklt : k < 2 ^ m := by
      have : (k : Int) < 2 ^ m := by omega
      exact_mod_cast this
    rw [hk', Int.toNat_natCast, Nat.testBit_two_pow_add_eq, Nat.add_mod_left, Nat.mod_eq_of_lt hklt,
      Nat.testBit_lt_two_pow hklt]
    simp; omega
  · have e : (v % ((2 ^ (m + 1) : Nat) : Int)) = v := by
      rw [hcast, Int.emod_eq_of_lt (by omega) (by omega)]
    rw [e]
    obtain ⟨k, rfl⟩ := Int.eq_ofNat_of_zero_le (show (0 : Int) ≤ v by omega)
    have hklt : k < 2 ^ m := by
      have : (k : Int) < 2 ^ m := by omega
      exact_mod_cast this
    rw [Int.toNat_natCast, Nat.testBit_lt_two_pow hklt, Nat.mod_eq_of_lt hklt]
    simp

/-- **C04.** Signed round trip; the bits appended are the `n`-bit two's complement of the value. -/
theorem C04_signed_round_trip (w0 : Writer) (hw0 : w0.Reachable) (n : Int) (v : Int) (hn : 1 ≤ n ∧ n ≤ 64)
    (hv : -(2 ^ (n.toNat - 1)) ≤ v ∧ v ≤ 2 ^ (n.toNat - 1) - 1) :
    ∃ w1, Writer.writeSignedBits v n w0 = (.ok (), w1) ∧ w1.pos = w0.pos + n.toNat ∧
      signedVal (((bytesBits w1.bytes).take w1.pos).drop w0.pos) = v ∧
      ∀ later r, ReadsAt r (w1.runAll later).bytes w0.pos w1.pos →
        Reader.readSignedBits n r = (.ok v, { r with pos := w0.pos + n.toNat }) := by
  have hn0 : 0 < n.toNat := by omega
  have hspec : (WCall.signedBits v n).spec w0.pos = some (intBits n.toNat v) := by
    simp only [WCall.spec]; exact if_pos ⟨hn, hn0, hv⟩
  have hw := (WCall.signedBits v n).run_spec w0.pos
  rw [hspec] at hw
  have hread : Reader.readSignedBits n = Reader.readSignedBitsUnchecked n.toNat := by
    unfold Reader.readSignedBits; rw [if_neg (by omega)]
  obtain ⟨w1, h1, h2, h3⟩ := write_then_read (mr := Reader.readSignedBits n) hw0 hw
    (fun s => by rw [hread]; exact Reader.parses_intBits n.toNat v w0.pos s hn0 hv.1 hv.2)
  have hl : (intBits n.toNat v).length = n.toNat := by simp [intBits]
  rw [hl] at h2
  refine ⟨w1, h1, h2, ?_, ?_⟩
  · obtain ⟨bs, rfl⟩ := hw0.eq_ofBits
    have h1' := hw bs rfl
    rw [h1'] at h1
    injection h1 with _ h1
    rw [← h1]
    show signedVal (((bytesBits (packBits _)).take (bs ++ intBits n.toNat v).length).drop bs.length) = v
    rw [bytesBits_packBits, List.take_left, List.drop_left]
    exact signedVal_intBits _ _ hn0 hv.1 hv.2
  · rintro later r ⟨a, b, c, d⟩
    rw [← h2]
    exact h3 later r a b c d

example : (Writer.init.runAll [.bits 1 5]).Reachable ∧ (-(2 ^ ((7 : Int).toNat - 1)) ≤ (-64 : Int) ∧
    (-64 : Int) ≤ 2 ^ ((7 : Int).toNat - 1) - 1) := ⟨⟨_, rfl⟩, by decide⟩

/-! ### C06 -/

/-- **C06.** Each variable-length type: every value of the type is read back, consuming exactly the bits written. -/
theorem C06_varint_round_trip (w0 : Writer) (hw0 : w0.Reachable) (t : VarType) (v : Int)
    (hv : t.lo ≤ v ∧ v ≤ t.hi) :
    ∃ w1, Writer.writeVar t v w0 = (.ok (), w1) ∧ w0.pos < w1.pos ∧
      ∀ later r, ReadsAt r (w1.runAll later).bytes w0.pos w1.pos →
        Reader.readVar t r = (.ok v, { r with pos := w1.pos }) := by
  obtain ⟨w1, h1, h2, h3⟩ := write_then_read (mr := Reader.readVar t) hw0 (Writer.emits_writeVar t v w0.pos hv)
    (fun s => Reader.parses_readVar t v w0.pos s hv)
  refine ⟨w1, h1, ?_, ?_⟩
  · have : 0 < (t.encode v).length := by
      unfold VarType.encode
      split
      · simp
      · rename_i hne
        have hs := Writer.numBytes_spec t v hv hne
        obtain ⟨m, hm⟩ : ∃ m, t.numBytes v = m + 1 := ⟨t.numBytes v - 1, by omega⟩
        simp only [hm]
        have hcap : 0 < t.capacity (m + 1) := by unfold VarType.capacity; split <;> omega
        split
        · cases m <;> simp [varGroupsSigned]
        · cases m
          · simp only [varGroups]; split <;> simp [hcap]
          · simp [varGroups]
    omega
  · rintro later r ⟨a, b, c, d⟩
    exact h3 later r a b c d

example : VarType.varint.lo ≤ -(2 ^ 63) ∧ (-(2 ^ 63) : Int) ≤ VarType.varint.hi := by decide

/-! ### C14 -/

/-- **C14**, bytes. -/
theorem C14_bytes_round_trip (w0 : Writer) (hw0 : w0.Reachable) (l : List UInt8) (hl : l.length < 2 ^ 31) :
    ∃ w1, Writer.writeBytes l w0 = (.ok (), w1) ∧
      (∀ later r, ReadsAt r (w1.runAll later).bytes w0.pos w1.pos →
        Reader.readBytes r = (.ok l, { r with pos := w1.pos })) ∧
      ((bytesBits w1.bytes).take w1.pos).drop w0.pos = VarType.varsize.encode l.length ++ bytesBits l := by
  have hr := (varsize_inRange_iff _).2 hl
  have hw := Writer.emits_writeBytes l w0.pos hr
  obtain ⟨w1, h1, h2, h3⟩ := write_then_read (mr := Reader.readBytes) hw0 hw
    (fun s => Reader.parses_readBytes l w0.pos s hr)
  refine ⟨w1, h1, ?_, ?_⟩
  · rintro later r ⟨a, b, c, d⟩
    exact h3 later r a b c d
  · obtain ⟨bs, rfl⟩ := hw0.eq_ofBits
    rw [hw bs rfl] at h1
    injection h1 with _ h1
    rw [← h1]
    show ((bytesBits (packBits _)).take (bs ++ _).length).drop bs.length = _
    rw [bytesBits_packBits, List.take_left, List.drop_left]

/-- **C14**, strings: every Python string without surrogates (the others are rejected by `str.encode`). -/
theorem C14_string_round_trip (w0 : Writer) (hw0 : w0.Reachable) (s : PyStr) (l : List UInt8)
    (hs : utf8Encode s = .ok l) (hl : l.length < 2 ^ 31) :
    ∃ w1, Writer.writeString s w0 = (.ok (), w1) ∧
      (∀ later r, ReadsAt r (w1.runAll later).bytes w0.pos w1.pos →
        Reader.readString r = (.ok s, { r with pos := w1.pos })) ∧
      ((bytesBits w1.bytes).take w1.pos).drop w0.pos = VarType.varsize.encode l.length ++ bytesBits l := by
  have hr := (varsize_inRange_iff _).2 hl
  have hw := Writer.emits_writeString w0.pos hs hr
  obtain ⟨w1, h1, h2, h3⟩ := write_then_read (mr := Reader.readString) hw0 hw
    (fun s' => Reader.parses_readString hs w0.pos s' hr)
  refine ⟨w1, h1, ?_, ?_⟩
  · rintro later r ⟨a, b, c, d⟩
    exact h3 later r a b c d
  · obtain ⟨bs, rfl⟩ := hw0.eq_ofBits
    rw [hw bs rfl] at h1
    injection h1 with _ h1
    rw [← h1]
    show ((bytesBits (packBits _)).take (bs ++ _).length).drop bs.length = _
    rw [bytesBits_packBits, List.take_left, List.drop_left]

/-- Strings that can be encoded are exactly those made of Unicode scalar values. -/
theorem C14_string_encodable (s : PyStr) :
    (∃ l, utf8Encode s = .ok l) ↔ ∀ c ∈ s, (c < 0xD800 ∨ (0xE000 ≤ c ∧ c < 0x110000)) := by
  rw [utf8Encode_isOk_iff]
  simp [isScalar]

/-- **C14**, bit buffers: the bits read back are the bits of the buffer, and the result has its bit size.  (That such
buffers compare equal is C17.) -/
theorem C14_bitbuffer_round_trip (w0 : Writer) (hw0 : w0.Reachable) (buf : List UInt8) (n : Nat)
    (hn : n ≤ 8 * buf.length) (hl : n < 2 ^ 31) :
    ∃ w1, Writer.writeBitBuffer ⟨buf, n⟩ w0 = (.ok (), w1) ∧
      ∀ later r, ReadsAt r (w1.runAll later).bytes w0.pos w1.pos →
        ∃ b', Reader.readBitBuffer r = (.ok b', { r with pos := w1.pos }) ∧ b'.bitsize = n ∧
          (bytesBits b'.buffer).take n = (bytesBits buf).take n := by
  have hr : VarType.varsize.InRange (n : Int) := (varsize_inRange_iff _).2 hl
  have hw := Writer.emits_writeBitBuffer ⟨buf, n⟩ w0.pos ⟨by simp, by unfold BitBuffer.Valid; simp only; omega⟩ hr
  have hlen : ((bytesBits buf).take n).length = n := by simp; omega
  have hbits : (BitBuffer.bits ⟨buf, (n : Int)⟩) = (bytesBits buf).take n := by simp [BitBuffer.bits]
  rw [hbits] at hw
  have hp : ∀ s, Reader.Parses Reader.readBitBuffer w0.pos (VarType.varsize.encode (n : Int) ++ (bytesBits buf).take n) s
      ⟨packBits ((bytesBits buf).take n), n⟩ := by
    intro s
    have := Reader.parses_readBitBuffer ((bytesBits buf).take n) w0.pos s (by rw [hlen]; exact hr)
    rwa [hlen] at this
  obtain ⟨w1, h1, h2, h3⟩ := write_then_read (mr := Reader.readBitBuffer) hw0 hw hp
  refine ⟨w1, h1, ?_⟩
  rintro later r ⟨a, b, c, d⟩
  refine ⟨_, h3 later r a b c d, rfl, ?_⟩
  show (bytesBits (packBits _)).take n = _
  rw [bytesBits_packBits, List.take_append_of_le_length (by omega), List.take_of_length_le (by omega)]

example : (Writer.init.runAll [.bits 1 3]).Reachable ∧ utf8Encode [0x41, 0x20AC, 0x1F600] =
    .ok [0x41, 0xE2, 0x82, 0xAC, 0xF0, 0x9F, 0x98, 0x80] ∧ 13 ≤ 8 * ([0xAB, 0xCD] : List UInt8).length :=
  ⟨⟨_, rfl⟩, by decide +kernel, by decide⟩

/-! ### C15 -/

/-- The value the read method must return for a value written.  For `write_float16` / `write_float32` this is the value
after the conversion to the stored precision. -/
def WCall.expected : WCall → RVal
  | .bits v _ => .int v
  | .signedBits v _ => .int v
  | .bitsUnchecked v _ => .int v
  | .signedBitsUnchecked v _ => .int v
  | .var _ v => .int v
  | .float16 x => .float (match floatToUint16 x with | .ok p => uint16ToFloat p | .error _ => 0)
  | .float32 x => .float (match floatToUint32 x with | .ok p => uint32ToFloat p | .error _ => 0)
  | .float64 x => .float x
  | .bytes l => .bytes l
  | .string s => .string s
  | .bool b => .bool b
  | .bitBuffer buf n =>
    let n := (n.getD (8 * buf.length)).toNat
    .bitBuffer ⟨packBits ((bytesBits buf).take n), n⟩
  | .alignto _ => .unit

theorem Reader.Parses.mapVal {α : Type} {m : M Reader α} {p : Nat} {bs s : List Bool} {a : α} {f : α → RVal}
    (h : Reader.Parses m p bs s a) : Reader.Parses (do let v ← m; pure (f v)) p bs s (f a) := by
  intro r h1 h2 h3
  rw [M.bind_ok (h r h1 h2 h3)]; rfl

/-- Each accepted call is read back by its counterpart. -/
theorem WCall.dual_parses (c : WCall) (p : Nat) (bs s : List Bool) (h : c.spec p = some bs) :
    Reader.Parses c.dual.run p bs s c.expected := by
  cases c with
  | bits v n =>
    simp only [WCall.spec] at h
    split at h
    · rename_i hc
      injection h with h; subst h
      obtain ⟨⟨h1, h2⟩, h3, h4⟩ := hc
      have hread : Reader.readBits n = Reader.readBitsUnchecked n.toNat := by
        unfold Reader.readBits; rw [if_neg (by omega)]
      simp only [WCall.dual, RCall.run, WCall.expected, hread]
      have hlt : v.toNat < 2 ^ n.toNat := by
        have : (v.toNat : Int) < 2 ^ n.toNat := by rw [Int.toNat_of_nonneg h3]; omega
        exact_mod_cast this
      have := (Reader.parses_natBits n.toNat v.toNat p s hlt).mapVal (f := fun v : Nat => .int (v : Int))
      simp only [Int.toNat_of_nonneg h3] at this
      exact this
    · simp at h
  | signedBits v n =>
    simp only [WCall.spec] at h
    split at h
    · rename_i hc
      injection h with h; subst h
      obtain ⟨⟨h1, h2⟩, h3, h4, h5⟩ := hc
      have hread : Reader.readSignedBits n = Reader.readSignedBitsUnchecked n.toNat := by
        unfold Reader.readSignedBits; rw [if_neg (by omega)]
      simp only [WCall.dual, RCall.run, WCall.expected, hread]
      exact (Reader.parses_intBits n.toNat v p s h3 h4 h5).mapVal (f := fun v => .int v)
    · simp at h
  | bitsUnchecked v n =>
    simp only [WCall.spec] at h
    split at h
    · rename_i hc
      injection h with h; subst h
      obtain ⟨h3, h4⟩ := hc
      simp only [WCall.dual, RCall.run, WCall.expected]
      have hlt : v.toNat < 2 ^ n := by
        have : (v.toNat : Int) < 2 ^ n := by rw [Int.toNat_of_nonneg h3]; omega
        exact_mod_cast this
      have := (Reader.parses_natBits n v.toNat p s hlt).mapVal (f := fun v : Nat => .int (v : Int))
      simp only [Int.toNat_of_nonneg h3] at this
      exact this
    · simp at h
  | signedBitsUnchecked v n =>
    simp only [WCall.spec] at h
    split at h
    · rename_i hc
      injection h with h; subst h
      obtain ⟨h3, h4, h5⟩ := hc
      simp only [WCall.dual, RCall.run, WCall.expected]
      exact (Reader.parses_intBits n v p s h3 h4 h5).mapVal (f := fun v => .int v)
    · simp at h
  | var t v =>
    simp only [WCall.spec] at h
    split at h
    · rename_i hc
      injection h with h; subst h
      simp only [WCall.dual, RCall.run, WCall.expected]
      exact (Reader.parses_readVar t v p s hc).mapVal (f := fun v => .int v)
    · simp at h
  | float16 x =>
    simp only [WCall.spec, patternBits] at h
    simp only [WCall.dual, RCall.run, WCall.expected]
    rcases hx : floatToUint16 x with e | n
    · rw [hx] at h; simp at h
    · rw [hx] at h
      simp only at h
      split at h
      · rename_i hn
        injection h with h; subst h
        have h0 : Reader.Parses Reader.readFloat16 p (natBits 16 n) s (uint16ToFloat n) := by
          intro r h1 h2 h3
          unfold Reader.readFloat16
          rw [M.bind_ok (Reader.parses_natBits 16 n p s hn r h1 h2 h3)]; rfl
        exact h0.mapVal (f := fun v => .float v)
      · simp at h
  | float32 x =>
    simp only [WCall.spec, patternBits] at h
    simp only [WCall.dual, RCall.run, WCall.expected]
    rcases hx : floatToUint32 x with e | n
    · rw [hx] at h; simp at h
    · rw [hx] at h
      simp only at h
      split at h
      · rename_i hn
        injection h with h; subst h
        have h0 : Reader.Parses Reader.readFloat32 p (natBits 32 n) s (uint32ToFloat n) := by
          intro r h1 h2 h3
          unfold Reader.readFloat32
          rw [M.bind_ok (Reader.parses_natBits 32 n p s hn r h1 h2 h3)]; rfl
        exact h0.mapVal (f := fun v => .float v)
      · simp at h
  | float64 x =>
    simp only [WCall.spec] at h
    injection h with h; subst h
    simp only [WCall.dual, RCall.run, WCall.expected]
    have h0 : Reader.Parses Reader.readFloat64 p (natBits 64 x.toNat) s x := by
      intro r h1 h2 h3
      unfold Reader.readFloat64
      rw [M.bind_ok (Reader.parses_natBits 64 x.toNat p s x.toNat_lt r h1 h2 h3)]
      simp [uint64ToFloat]
    exact h0.mapVal (f := fun v => .float v)
  | bytes l =>
    simp only [WCall.spec] at h
    split at h
    · rename_i hc
      injection h with h; subst h
      simp only [WCall.dual, RCall.run, WCall.expected]
      exact (Reader.parses_readBytes l p s ((varsize_inRange_iff _).2 hc)).mapVal (f := fun v => .bytes v)
    · simp at h
  | string str =>
    simp only [WCall.spec] at h
    rcases hs : utf8Encode str with e | l
    · rw [hs] at h; simp at h
    · rw [hs] at h
      simp only at h
      split at h
      · rename_i hc
        injection h with h; subst h
        simp only [WCall.dual, RCall.run, WCall.expected]
        exact (Reader.parses_readString hs p s ((varsize_inRange_iff _).2 hc)).mapVal (f := fun v => .string v)
      · simp at h
  | bool b =>
    simp only [WCall.spec] at h
    injection h with h; subst h
    simp only [WCall.dual, RCall.run, WCall.expected]
    exact (Reader.parses_readBool b p s).mapVal (f := fun v => .bool v)
  | bitBuffer buf n =>
    simp only [WCall.spec] at h
    simp only [WCall.dual, RCall.run, WCall.expected]
    generalize n.getD (8 * buf.length) = n at h
    split at h
    · rename_i hc
      injection h with h; subst h
      obtain ⟨h1, h2, h3⟩ := hc
      obtain ⟨k, rfl⟩ := Int.eq_ofNat_of_zero_le h1
      have hlen : ((bytesBits buf).take k).length = k := by simp; omega
      have := Reader.parses_readBitBuffer ((bytesBits buf).take k) p s
        (by rw [hlen]; exact (varsize_inRange_iff _).2 (by omega))
      rw [hlen] at this
      exact this.mapVal (f := fun v => .bitBuffer v)
    · simp at h
  | alignto a =>
    simp only [WCall.spec] at h
    split at h
    · simp at h
    · rename_i ha
      injection h with h; subst h
      simp only [WCall.dual, RCall.run, WCall.expected]
      have := Reader.parses_alignto a p (by omega) s (zeros (gapTo a p)) (by simp [gapTo, Writer.alignGap])
      exact this.mapVal (f := fun _ => .unit)

theorem runStrict_ofBits (calls : List WCall) (bs : List Bool) (w : Writer)
    (h : Writer.runStrict calls (Writer.ofBits bs) = (.ok (), w)) :
    ∃ ext, w = Writer.ofBits (bs ++ ext) ∧ ∀ s, Reader.Parses (Reader.runStrict (calls.map WCall.dual)) bs.length ext s
      (calls.map WCall.expected) := by
  induction calls generalizing bs with
  | nil =>
    simp [Writer.runStrict] at h
    exact ⟨[], by simp [h], fun s => Reader.parses_pure _ _ _⟩
  | cons c cs ih =>
    have hspec := c.run_spec bs.length
    rcases hc : c.spec bs.length with _ | a
    · rw [hc] at hspec
      obtain ⟨e, hspec⟩ := hspec
      rw [Writer.runStrict, M.bind_error (hspec bs rfl)] at h
      simp at h
    · rw [hc] at hspec
      rw [Writer.runStrict, M.bind_ok (hspec bs rfl)] at h
      obtain ⟨ext, h1, h2⟩ := ih _ h
      refine ⟨a ++ ext, by rw [h1, List.append_assoc], ?_⟩
      intro s
      rw [List.map_cons, List.map_cons, Reader.runStrict]
      refine (c.dual_parses bs.length a (ext ++ s) hc).bind ?_
      have h2' := h2 s
      rw [List.length_append] at h2'
      intro r hr1 hr2 hr3
      rw [M.bind_ok (h2' r hr1 hr2 hr3)]; rfl

/-- **C15.** If a sequence of writes succeeds, a reader over the produced buffer performing the corresponding reads
returns the values and ends exactly at the end of the stream. -/
theorem C15_sequence_round_trip (calls : List WCall) (w : Writer)
    (h : Writer.runStrict calls Writer.init = (.ok (), w)) :
    ∃ r, Reader.make w.bytes (some w.pos) = .ok r ∧
      Reader.runStrict (calls.map WCall.dual) r = (.ok (calls.map WCall.expected), { r with pos := w.pos }) := by
  rw [Writer.init_eq] at h
  obtain ⟨ext, h1, h2⟩ := runStrict_ofBits calls [] w h
  subst h1
  simp only [List.nil_append]
  have hlen := packBits_length ext
  refine ⟨⟨packBits ext, ext.length, 0⟩, ?_, ?_⟩
  · show Reader.make (packBits ext) (some ((ext.length : Nat) : Int)) = _
    rw [Reader.make, if_neg (by omega)]
  · have := h2 [] ⟨packBits ext, ext.length, 0⟩ ⟨by simp only; omega, by simp⟩ rfl (by
      rw [Reader.rest]
      simp [bytesBits_packBits])
    rw [this]
    simp [Reader.advance, Writer.ofBits]

example : ∃ w, Writer.runStrict [.bits 5 3, .var .varint (-300), .alignto 8, .string [0x20AC], .bool true,
    .bitBuffer [0xFF, 0xFF] (some 9), .float64 0x7FF8000000000000] Writer.init = (.ok (), w) ∧ w.pos = 138 :=
  ⟨⟨[184, 69, 128, 3, 226, 130, 172, 132, 255, 223, 254, 0, 0, 0, 0, 0, 0, 0], 138⟩, by decide +kernel, rfl⟩

end Zserio
