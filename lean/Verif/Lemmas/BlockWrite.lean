import Verif.Lemmas.VarWrite
set_option linter.unusedSimpArgs false
namespace Zserio

theorem and_seven (p : Nat) : p &&& 0x07 = p % 8 := by
  rw [show (0x07 : Nat) = 2 ^ 3 - 1 by rfl, Nat.and_two_pow_sub_one_eq_mod]

/-- The bits a bit buffer denotes. -/
def BitBuffer.bits (b : BitBuffer) : List Bool := (bytesBits b.buffer).take b.bitsize.toNat

/-- What the constructor checks: the buffer is long enough. -/
def BitBuffer.Valid (b : BitBuffer) : Prop := b.bitsize ≤ (b.buffer.length : Int) * 8

/-- A buffer with a non-negative size. -/
def BitBuffer.WF (b : BitBuffer) : Prop := 0 ≤ b.bitsize ∧ b.Valid

namespace Writer

theorem emits_writeByteLoop (l : List UInt8) (p : Nat) : Emits (writeByteLoop l) p (bytesBits l) () := by
  induction l generalizing p with
  | nil => exact emits_pure () p
  | cons b l ih =>
    rw [bytesBits_cons]
    exact (emits_byte _ _ b.toNat_lt).bind (ih _)

theorem emits_writeByteBlock (l : List UInt8) (p : Nat) : Emits (writeByteBlock l) p (bytesBits l) () := by
  intro b0 hb0
  unfold writeByteBlock
  rw [M.bind_ok (M.get_apply _), and_seven]
  by_cases h : (ofBits b0).pos % 8 = 0
  · rw [if_neg (by simpa using h), M.set_apply]
    congr 1
    apply Holds.eq
    have hp : b0.length % 8 = 0 := h
    refine ⟨by simp [ofBits]; omega, ?_⟩
    simp only [bytesBits_append, ofBits, bytesBits_packBits, padLen, List.length_append, bytesBits_length]
    rw [hp, show (b0.length + 8 * l.length) % 8 = 0 by omega]
    simp
  · rw [if_pos h]
    exact emits_writeByteLoop l p b0 hb0

theorem varsize_inRange {n : Nat} (h : (n : Int) ≤ 2 ^ 31 - 1) : VarType.varsize.InRange n := ⟨by simp [VarType.lo], h⟩

theorem emits_writeBytes (l : List UInt8) (p : Nat) (h : VarType.varsize.InRange l.length) :
    Emits (writeBytes l) p (VarType.varsize.encode l.length ++ bytesBits l) () :=
  (emits_writeVar .varsize _ p h).bind (emits_writeByteBlock l _)

theorem fails_writeBytes (l : List UInt8) (p : Nat) (h : ¬ VarType.varsize.InRange l.length) :
    Fails (writeBytes l) p .varRange := (fails_writeVar .varsize _ p h).bind

theorem emits_writeString {s : PyStr} {l : List UInt8} (p : Nat) (hs : utf8Encode s = .ok l)
    (h : VarType.varsize.InRange l.length) :
    Emits (writeString s) p (VarType.varsize.encode l.length ++ bytesBits l) () :=
  emits_lift_bind hs ((emits_writeVar .varsize _ p h).bind (emits_writeByteBlock l _))

theorem emits_writeBool (v : Bool) (p : Nat) : Emits (writeBool v) p [v] () := by
  have : [v] = intBits 1 (if v then 1 else 0) := by cases v <;> decide
  rw [this]
  exact emits_writeRaw _ _ _ _ (by cases v <;> simp)

theorem take_bytesBits_split (l : List UInt8) (n : Nat) (x : UInt8) (h : n / 8 < l.length) (hx : l[n / 8]? = some x) :
    (bytesBits l).take n = bytesBits (l.take (n / 8)) ++ (byteBits x).take (n % 8) := by
  have hn : n = 8 * (n / 8) + n % 8 := by omega
  have hd : l = l.take (n / 8) ++ x :: l.drop (n / 8 + 1) := by
    conv => lhs; rw [← List.take_append_drop (n / 8) l]
    congr 1
    rw [List.drop_eq_getElem_cons h]
    congr 1
    rw [List.getElem?_eq_getElem h] at hx
    exact Option.some.inj hx
  conv => lhs; rw [hd]
  rw [bytesBits_append, bytesBits_cons]
  have hl : (bytesBits (l.take (n / 8))).length = 8 * (n / 8) := by simp; omega
  rw [List.take_append, hl, List.take_of_length_le (by rw [hl]; omega), List.take_append_of_le_length (by simp; omega)]
  congr 2
  omega

theorem emits_writeBitBuffer (b : BitBuffer) (p : Nat) (hb : b.WF) (h : VarType.varsize.InRange b.bitsize) :
    Emits (writeBitBuffer b) p (VarType.varsize.encode b.bitsize ++ b.bits) () := by
  obtain ⟨h0, hv⟩ := hb
  obtain ⟨n, hn⟩ := Int.eq_ofNat_of_zero_le h0
  unfold BitBuffer.Valid at hv
  unfold writeBitBuffer BitBuffer.bits
  refine (emits_writeVar .varsize _ p h).bind ?_
  rw [hn] at hv ⊢
  simp only [Int.toNat_natCast]
  have hrest : n - n / 8 * 8 = n % 8 := by omega
  rw [hrest]
  have hslice : pySlice b.buffer 0 (n / 8) = b.buffer.take (n / 8) := by simp [pySlice]
  rw [hslice]
  by_cases hr : n % 8 = 0
  · have he : (bytesBits b.buffer).take n = bytesBits (b.buffer.take (n / 8)) ++ [] := by
      rw [bytesBits_take, show 8 * (n / 8) = n by omega]; simp
    rw [he]
    refine (emits_writeByteBlock _ _).bind ?_
    simp only [hr, gt_iff_lt, lt_irrefl, if_false]
    exact emits_pure () _
  · have hlt : n / 8 < b.buffer.length := by omega
    obtain ⟨x, hx⟩ : ∃ x, b.buffer[n / 8]? = some x := ⟨_, List.getElem?_eq_getElem hlt⟩
    rw [take_bytesBits_split b.buffer n x hlt hx]
    refine (emits_writeByteBlock _ _).bind ?_
    rw [if_pos (by omega), hx]
    simp only
    have : (byteBits x).take (n % 8) = natBits (n % 8) (x.toNat >>> (8 - n % 8)) := by
      unfold byteBits; rw [natBits_take _ _ _ (by omega)]
    rw [this]
    apply emits_writeBitsUnchecked
    have hx8 := x.toNat_lt
    rw [Nat.shiftRight_eq_div_pow]
    apply Nat.div_lt_of_lt_mul
    rw [← pow_add, show 8 - n % 8 + n % 8 = 8 by omega]
    exact hx8

theorem fails_writeBitBuffer (b : BitBuffer) (p : Nat) (h : ¬ VarType.varsize.InRange b.bitsize) :
    Fails (writeBitBuffer b) p .varRange := (fails_writeVar .varsize _ p h).bind

/-- zero bits needed to reach a multiple of `a` -/
def alignGap (a p : Nat) : Nat := (a - p % a) % a

theorem emits_alignto (a p : Nat) (ha : 0 < a) : Emits (alignto a) p (zeros (alignGap a p)) () := by
  intro b0 hb0
  unfold alignto
  rw [M.bind_ok (M.get_apply _), if_neg (by omega)]
  have hpos : (ofBits b0).pos = p := hb0
  simp only [hpos]
  have hlt := Nat.mod_lt p ha
  by_cases h : p % a = 0
  · rw [if_neg (by simpa using h)]
    simp [alignGap, h]
  · rw [if_pos h]
    have : zeros (alignGap a p) = intBits (a - p % a) 0 := by
      rw [alignGap, Nat.mod_eq_of_lt (by omega), ← natBits_zero_right, intBits_toNat _ _ (by omega)]; rfl
    rw [this]
    exact emits_writeRaw 0 _ _ p (by simp) b0 hb0

end Writer
end Zserio
