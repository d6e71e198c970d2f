import Verif.Lemmas.CompoundSafe
import Verif.Lemmas.CompoundElem
import Verif.Props.Float
import Verif.Lemmas.Packed
set_option linter.unusedSimpArgs false
/-
What the reader returns for built-in types can be written again and is read back as it is.
-/
namespace Zserio

/-! ### utf-8 -/

theorem ofNat_toNat' (b : UInt8) (n : Nat) (h : n = b.toNat) : UInt8.ofNat n = b := by
  subst h; simp

theorem utf8Encode_decode {l : List UInt8} {s : PyStr} (h : utf8Decode l = .ok s) : utf8Encode s = .ok l := by
  induction hn : l.length using Nat.strong_induction_on generalizing l s with
  | _ n ih =>
    subst hn
    match l with
    | [] =>
      rw [utf8Decode] at h
      cases h
      rfl
    | b0 :: rest =>
      have hb0 := b0.toNat_lt
      rw [utf8Decode.eq_def] at h
      simp only at h
      split at h
      · rename_i h0
        obtain ⟨cs, h1, h2⟩ := except_bind_ok h
        cases h2
        have := ih rest.length (by simp) h1 rfl
        rw [utf8Encode, this, utf8EncodeChar, if_pos h0]
        simp [bind, Except.bind]
      split at h
      · cases h
      split at h
      · split at h
        · rename_i b1 rest
          have hb1 := b1.toNat_lt
          split at h
          · rename_i hc
            obtain ⟨cs, h3, h4⟩ := except_bind_ok h
            cases h4
            have := ih rest.length (by simp; omega) h3 rfl
            simp only [isCont, Bool.and_eq_true, decide_eq_true_eq] at hc
            rw [utf8Encode, this, utf8EncodeChar, if_neg (by omega), if_pos (by omega)]
            simp only [bind, Except.bind, List.cons_append, List.nil_append]
            rw [ofNat_toNat' b0 _ (by omega), ofNat_toNat' b1 _ (by omega)]
          · cases h
        · cases h
      split at h
      · split at h
        · rename_i b1 b2 rest
          have hb1 := b1.toNat_lt
          have hb2 := b2.toNat_lt
          split at h
          · rename_i hc
            obtain ⟨cs, h3, h4⟩ := except_bind_ok h
            cases h4
            have := ih rest.length (by simp; omega) h3 rfl
            simp only [isCont, isScalar, Bool.and_eq_true, Bool.or_eq_true, decide_eq_true_eq] at hc
            rw [utf8Encode, this, utf8EncodeChar, if_neg (by omega), if_neg (by omega), if_pos (by omega), if_neg (by omega)]
            simp only [bind, Except.bind, List.cons_append, List.nil_append]
            rw [ofNat_toNat' b0 _ (by omega), ofNat_toNat' b1 _ (by omega), ofNat_toNat' b2 _ (by omega)]
          · cases h
        · cases h
      split at h
      · split at h
        · rename_i b1 b2 b3 rest
          have hb1 := b1.toNat_lt
          have hb2 := b2.toNat_lt
          have hb3 := b3.toNat_lt
          split at h
          · rename_i hc
            obtain ⟨cs, h3, h4⟩ := except_bind_ok h
            cases h4
            have := ih rest.length (by simp; omega) h3 rfl
            simp only [isCont, Bool.and_eq_true, decide_eq_true_eq] at hc
            rw [utf8Encode, this, utf8EncodeChar, if_neg (by omega), if_neg (by omega), if_neg (by omega), if_pos (by omega)]
            simp only [bind, Except.bind, List.cons_append, List.nil_append]
            rw [ofNat_toNat' b0 _ (by omega), ofNat_toNat' b1 _ (by omega), ofNat_toNat' b2 _ (by omega),
              ofNat_toNat' b3 _ (by omega)]
          · cases h
        · cases h
      · cases h

/-! ### floating point -/

theorem storedFloat32_unpack (y : Nat) (hy : y < 2 ^ 32) :
    ∃ z, z < 2 ^ 32 ∧ floatToUint32 (uint32ToFloat y) = .ok z ∧ uint32ToFloat z = uint32ToFloat y := by
  have h := pack_unpack y hy
  have hs : y / 2 ^ 31 = sgnOf y := by unfold sgnOf; omega
  have hs2 : sgnOf y < 2 := Nat.mod_lt _ (by norm_num)
  have hm : manOf y < 2 ^ 23 := Nat.mod_lt _ (by norm_num)
  refine ⟨_, ?_, h, ?_⟩
  · split
    · have := or_bit22_lt _ hm
      omega
    · exact hy
  · split
    · rename_i hn
      obtain ⟨he, hne⟩ := hn
      have hlt := or_bit22_lt _ hm
      have hne' : (manOf y ||| 2 ^ 22) ≠ 0 := by
        intro h; have := Nat.right_le_or (n := manOf y) (m := 2 ^ 22); omega
      unfold uint32ToFloat unpackF32
      have e1 : (sgnOf y * 2 ^ 31 + 255 * 2 ^ 23 + (manOf y ||| 2 ^ 22)) / 2 ^ 31 = sgnOf y := by omega
      have e2 : (sgnOf y * 2 ^ 31 + 255 * 2 ^ 23 + (manOf y ||| 2 ^ 22)) / 2 ^ 23 % 2 ^ 8 = 255 := by omega
      have e3 : (sgnOf y * 2 ^ 31 + 255 * 2 ^ 23 + (manOf y ||| 2 ^ 22)) % 2 ^ 23 = (manOf y ||| 2 ^ 22) := by omega
      simp only [e1, e2, e3, hs, show y / 2 ^ 23 % 2 ^ 8 = expOf y from rfl, show y % 2 ^ 23 = manOf y from rfl, he,
        if_true, if_neg hne, if_neg hne', Nat.or_assoc, Nat.or_self]
    · rfl

theorem storedFloat16_unpack (v : Nat) (hv : v < 2 ^ 16) :
    ∃ z, z < 2 ^ 16 ∧ floatToUint16 (uint16ToFloat v) = .ok z ∧ uint16ToFloat z = uint16ToFloat v := by
  refine ⟨_, ?_, f16_cycle v hv, ?_⟩
  · split
    · rename_i h
      simp only [isSignalingHalf, decide_eq_true_eq] at h
      omega
    · exact hv
  · split
    · rename_i h
      simp only [isSignalingHalf, decide_eq_true_eq] at h
      have key : ∀ s : Fin 2, ∀ m : Fin 512, m.1 ≠ 0 →
          uint16ToFloat (s.1 * 32768 + 31744 + m.1 + 512) = uint16ToFloat (s.1 * 32768 + 31744 + m.1) := by
        decide +kernel
      have := key ⟨v / 32768, by omega⟩ ⟨v % 1024, by omega⟩ (by simp only; omega)
      simp only at this
      have e : v / 32768 * 32768 + 31744 + v % 1024 = v := by omega
      rw [e] at this
      exact this
    · rfl

/-! ### integers -/

namespace Reader

theorem readBitsUnchecked_inv {n v : Nat} {r r' : Reader} (hr : r.WF) (h : readBitsUnchecked n r = (.ok v, r')) :
    r'.WF ∧ n ≤ r.rest.length ∧ v = bitsVal (r.rest.take n) ∧ v < 2 ^ n ∧ r' = r.advance n := by
  have hs := safe_readBitsUnchecked n r hr
  rw [h] at hs
  rw [readBitsUnchecked_spec r n hr] at h
  split at h
  · rename_i hn
    simp only [Prod.mk.injEq, Except.ok.injEq] at h
    refine ⟨hs.1, hn, h.1.symm, ?_, h.2.symm⟩
    have := bitsVal_lt (r.rest.take n)
    rw [List.length_take, Nat.min_eq_left hn] at this
    omega
  · simp at h

theorem readSignedBitsUnchecked_inv {n : Nat} {v : Int} {r r' : Reader} (hn : 0 < n) (hr : r.WF)
    (h : readSignedBitsUnchecked n r = (.ok v, r')) : -(2 ^ (n - 1)) ≤ v ∧ v < 2 ^ (n - 1) := by
  unfold readSignedBitsUnchecked at h
  obtain ⟨u, r1, h1, h2⟩ := M.bind_inv h
  obtain ⟨-, -, -, hu, -⟩ := readBitsUnchecked_inv hr h1
  obtain ⟨k, rfl⟩ : ∃ k, n = k + 1 := ⟨n - 1, by omega⟩
  simp only [Nat.add_sub_cancel] at *
  have hp : (0 : Int) < 2 ^ k := by positivity
  have hpk : (2 : Int) ^ (k + 1) = 2 * 2 ^ k := by rw [pow_succ]; ring
  have hui : (u : Int) < 2 ^ (k + 1) := by exact_mod_cast hu
  split at h2
  · rename_i hc
    simp only [M.pure_apply, Prod.mk.injEq, Except.ok.injEq] at h2
    rw [← h2.1]
    have hc2 := hc.2
    rw [Nat.shiftRight_eq_div_pow] at hc2
    have : 2 ^ k ≤ u := by
      by_contra hlt
      exact hc2 (Nat.div_eq_of_lt (by omega))
    have : (2 : Int) ^ k ≤ u := by exact_mod_cast this
    constructor <;> omega
  · rename_i hc
    simp only [M.pure_apply, Prod.mk.injEq, Except.ok.injEq] at h2
    rw [← h2.1]
    have : u < 2 ^ k := by
      by_contra hle
      apply hc
      refine ⟨by omega, ?_⟩
      rw [Nat.shiftRight_eq_div_pow]
      have := Nat.div_pos (Nat.le_of_not_lt hle) (by positivity : 0 < 2 ^ k)
      omega
    have : (u : Int) < 2 ^ k := by exact_mod_cast this
    constructor <;> omega

theorem readVarsize_inv {n : Nat} {r r' : Reader} (hr : r.WF) (h : readVarsize r = (.ok n, r')) : r'.WF ∧ n < 2 ^ 31 := by
  have hs := safe_varsize r hr
  rw [h] at hs
  refine ⟨hs.1, ?_⟩
  unfold readVarsize at h
  obtain ⟨v, r1, h1, h2⟩ := M.bind_inv h
  split at h2
  · simp at h2
  · rename_i hc
    simp only [M.pure_apply, Prod.mk.injEq, Except.ok.injEq] at h2
    simp only [VARSIZE_MAX_VALUE] at hc
    omega

end Reader

/-- What is read for an integral type is a value of the type. -/
theorem IntKind.read_inRange (k : IntKind) {i : Nat} {x : Int} {r r' : Reader} (hr : r.WF)
    (h : k.traits.read i r = (.ok x, r')) : k.InRange x := by
  cases k with
  | bitField n =>
    have h : Reader.asInt (Reader.readBits n) r = (.ok x, r') := h
    unfold Reader.asInt Reader.readBits at h
    obtain ⟨v, r1, h1, h2⟩ := M.bind_inv h
    split at h1
    · simp at h1
    · rename_i hn
      simp only [M.pure_apply, Prod.mk.injEq, Except.ok.injEq] at h2
      rw [Int.toNat_natCast] at h1
      obtain ⟨-, -, -, hv, -⟩ := Reader.readBitsUnchecked_inv hr h1
      refine ⟨by omega, by omega, ?_⟩
      rw [← h2.1]
      exact_mod_cast hv
  | signedBitField n =>
    have h : Reader.readSignedBits n r = (.ok x, r') := h
    unfold Reader.readSignedBits at h
    split at h
    · simp at h
    · rename_i hn
      rw [Int.toNat_natCast] at h
      exact ⟨by omega, Reader.readSignedBitsUnchecked_inv (by omega) hr h⟩
  | var t =>
    have h : Reader.readVar t r = (.ok x, r') := h
    have := Reader.readVar_result t r hr
    rw [h] at this
    exact this.1

/-! ### the other built-in types -/

theorem exists_bytes (bs : List Bool) (n : Nat) (h : bs.length = 8 * n) : ∃ l, bytesBits l = bs ∧ l.length = n := by
  have h1 := bytesBits_packBits bs
  have h0 : padLen bs.length = 0 := by rw [h]; simp [padLen]
  rw [h0] at h1
  refine ⟨packBits bs, by simpa [zeros] using h1, ?_⟩
  have := congrArg List.length h1
  simp [zeros] at this
  omega

namespace Reader

/-- A block of bytes that is inside the stream. -/
theorem readByteBlock_inv {n : Nat} {l : List UInt8} {r r' : Reader} (hr : r.WF) (hn : ¬ ((r.pos : Int) + n * 8 > r.bitsize))
    (h : readByteBlock n r = (.ok l, r')) : l.length = n := by
  have hlen := rest_length r hr
  have h8 : 8 * n ≤ r.rest.length := by omega
  obtain ⟨l', h1, h2⟩ := exists_bytes (r.rest.take (8 * n)) n (by rw [List.length_take]; omega)
  have := parses_readByteBlock l' r.pos (r.rest.drop (8 * n)) r hr rfl (by rw [h1, List.take_append_drop])
  rw [h2, h] at this
  simp only [Prod.mk.injEq, Except.ok.injEq] at this
  rw [this.1, h2]

theorem readBytes_inv {l : List UInt8} {r r' : Reader} (hr : r.WF) (h : readBytes r = (.ok l, r')) : l.length < 2 ^ 31 := by
  unfold readBytes at h
  obtain ⟨n, r1, h1, h2⟩ := M.bind_inv h
  obtain ⟨hr1, hn⟩ := readVarsize_inv hr h1
  rw [M.bind_ok (M.get_apply _)] at h2
  split at h2
  · simp at h2
  · rename_i hc
    rw [readByteBlock_inv hr1 hc h2]
    exact hn

theorem readString_inv {s : PyStr} {r r' : Reader} (hr : r.WF) (h : readString r = (.ok s, r')) :
    ∃ l, utf8Encode s = .ok l ∧ l.length < 2 ^ 31 := by
  unfold readString at h
  obtain ⟨n, r1, h1, h2⟩ := M.bind_inv h
  obtain ⟨hr1, hn⟩ := readVarsize_inv hr h1
  rw [M.bind_ok (M.get_apply _)] at h2
  split at h2
  · simp at h2
  · rename_i hc
    obtain ⟨l, r2, h3, h4⟩ := M.bind_inv h2
    rw [M.lift_apply] at h4
    simp only [Prod.mk.injEq] at h4
    refine ⟨l, utf8Encode_decode h4.1, ?_⟩
    rw [readByteBlock_inv hr1 hc h3]
    exact hn

theorem readBitBuffer_inv {b : BitBuffer} {r r' : Reader} (hr : r.WF) (h : readBitBuffer r = (.ok b, r')) :
    ∃ bs : List Bool, bs.length < 2 ^ 31 ∧ b = ⟨packBits bs, bs.length⟩ := by
  unfold readBitBuffer at h
  obtain ⟨n, r1, h1, h2⟩ := M.bind_inv h
  obtain ⟨hr1, hn⟩ := readVarsize_inv hr h1
  have hlen := rest_length r1 hr1
  have hc : ¬ ((r1.pos : Int) + n > r1.bitsize) := by
    intro hc
    rw [M.bind_ok (M.get_apply _), if_pos hc] at h2
    simp at h2
  have hl : (r1.rest.take n).length = n := by rw [List.length_take]; omega
  have := parses_bitBufferBody (r1.rest.take n) r1.pos (r1.rest.drop n) r1 hr1 rfl (by rw [List.take_append_drop])
  rw [hl] at this
  have := h2.symm.trans this
  simp only [Prod.mk.injEq, Except.ok.injEq] at this
  exact ⟨r1.rest.take n, by rw [hl]; exact hn, by rw [hl]; exact this.1⟩

end Reader

open Writer in
/-- What is read for a built-in type is stored as it is and can be written. -/
theorem Builtin.reread (b : Builtin) {i : Nat} {x : b.Elem} {r r' : Reader} (hr : r.WF)
    (h : b.traits.read i r = (.ok x, r')) :
    b.proj (b.inj x) = .ok x ∧ b.stored x = x ∧ ∀ b0, ∃ bs, Runs (b.traits.write x) b0 bs () := by
  cases b with
  | bitField n =>
    exact ⟨rfl, rfl, (IntKind.bitField n).runs_of_inRange x ((IntKind.bitField n).read_inRange (i := i) hr h)⟩
  | signedBitField n =>
    exact ⟨rfl, rfl, (IntKind.signedBitField n).runs_of_inRange x ((IntKind.signedBitField n).read_inRange (i := i) hr h)⟩
  | var t =>
    exact ⟨rfl, rfl, (IntKind.var t).runs_of_inRange x ((IntKind.var t).read_inRange (i := i) hr h)⟩
  | float16 =>
    obtain ⟨v, r1, h1, h2⟩ := M.bind_inv (show (Reader.readBitsUnchecked 16 >>= fun v => pure (uint16ToFloat v)) r = _ from h)
    simp only [M.pure_apply, Prod.mk.injEq, Except.ok.injEq] at h2
    obtain ⟨-, -, -, hv, -⟩ := Reader.readBitsUnchecked_inv hr h1
    obtain ⟨z, hz, e1, e2⟩ := storedFloat16_unpack v hv
    have e : uint16ToFloat v = x := Except.ok.inj h2.1
    rw [e] at e1 e2
    refine ⟨rfl, ?_, fun b0 => ⟨natBits 16 z, ((WCall.float16 x).runs_iff b0 _).2 ?_⟩⟩
    · show storedFloat16 x = x
      simp only [storedFloat16, e1, e2]; rfl
    · simp only [WCall.spec, e1, patternBits, if_pos hz]
  | float32 =>
    obtain ⟨v, r1, h1, h2⟩ := M.bind_inv (show (Reader.readBitsUnchecked 32 >>= fun v => pure (uint32ToFloat v)) r = _ from h)
    simp only [M.pure_apply, Prod.mk.injEq, Except.ok.injEq] at h2
    obtain ⟨-, -, -, hv, -⟩ := Reader.readBitsUnchecked_inv hr h1
    obtain ⟨z, hz, e1, e2⟩ := storedFloat32_unpack v hv
    have e : uint32ToFloat v = x := Except.ok.inj h2.1
    rw [e] at e1 e2
    refine ⟨rfl, ?_, fun b0 => ⟨natBits 32 z, ((WCall.float32 x).runs_iff b0 _).2 ?_⟩⟩
    · show storedFloat32 x = x
      simp only [storedFloat32, e1, e2]; rfl
    · simp only [WCall.spec, e1, patternBits, if_pos hz]
  | float64 => exact ⟨rfl, rfl, fun b0 => ⟨_, ((WCall.float64 x).runs_iff b0 _).2 rfl⟩⟩
  | bool => exact ⟨rfl, rfl, fun b0 => ⟨_, ((WCall.bool x).runs_iff b0 _).2 rfl⟩⟩
  | bytes =>
    exact ⟨rfl, rfl, fun b0 => ⟨_, ((WCall.bytes x).runs_iff b0 _).2 (if_pos (Reader.readBytes_inv hr h))⟩⟩
  | string =>
    obtain ⟨l, h1, h2⟩ := Reader.readString_inv hr h
    refine ⟨rfl, rfl, fun b0 => ⟨VarType.varsize.encode l.length ++ bytesBits l, ((WCall.string x).runs_iff b0 _).2 ?_⟩⟩
    simp only [WCall.spec, h1, if_pos h2]
  | bitBuffer =>
    obtain ⟨bs, h1, h2⟩ := Reader.readBitBuffer_inv hr h
    subst h2
    have hp := bytesBits_packBits bs
    have hfit : (bs.length : Int) ≤ 8 * (packBits bs).length := by
      have := congrArg List.length hp
      simp at this
      omega
    have ht : (bytesBits (packBits bs)).take bs.length = bs := by rw [hp]; simp
    refine ⟨?_, ?_, fun b0 => ⟨VarType.varsize.encode bs.length ++ bs, ?_⟩⟩
    · show (if (bs.length : Int) ≤ 8 * (packBits bs).length then Except.ok (⟨packBits bs, bs.length⟩ : BitBuffer) else .error Err.type) = _
      rw [if_pos hfit]; rfl
    · show BitBuffer.stored ⟨packBits bs, bs.length⟩ = ⟨packBits bs, bs.length⟩
      simp only [BitBuffer.stored, Int.toNat_natCast, ht]
    · show Runs (writeBitBuffer ⟨packBits bs, bs.length⟩) b0 _ ()
      rw [← bitBuffer_run_eq ⟨packBits bs, bs.length⟩ hfit]
      refine ((WCall.bitBuffer (packBits bs) (some bs.length)).runs_iff b0 _).2 ?_
      simp only [WCall.spec, Option.getD_some, Int.toNat_natCast, ht]
      exact if_pos ⟨by omega, hfit, by omega⟩

end Zserio
