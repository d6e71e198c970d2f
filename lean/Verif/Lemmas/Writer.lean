import Verif.Lemmas.Bits
import Verif.Model.BitWriter
import Mathlib.Tactic.Ring
import Mathlib.Tactic.Linarith
/-! Helper lemmas: what the elementary write operations append. -/
set_option linter.unusedSimpArgs false

namespace Zserio

theorem natBits_toNat_emod (n m : Nat) (x : Int) (h : n ≤ m) :
    natBits n (x % (2 : Int) ^ m).toNat = intBits n x := by
  have hpos : (0 : Int) < 2 ^ m := by positivity
  have hposn : (0 : Int) < 2 ^ n := by positivity
  unfold intBits
  rw [← natBits_mod n (x % 2 ^ m).toNat]
  congr 1
  have h1 : ((x % (2 : Int) ^ m).toNat : Int) = x % 2 ^ m := Int.toNat_of_nonneg (Int.emod_nonneg _ hpos.ne')
  have hd : ((2 : Int) ^ n) ∣ 2 ^ m := pow_dvd_pow 2 h
  have h2 : x % (2 : Int) ^ m % 2 ^ n = x % 2 ^ n := Int.emod_emod_of_dvd x hd
  have : (((x % (2 : Int) ^ m).toNat % 2 ^ n : Nat) : Int) = ((x % ((2 ^ n : Nat) : Int)).toNat : Int) := by
    rw [Int.natCast_mod, h1, Int.toNat_of_nonneg (Int.emod_nonneg _ (by positivity))]
    push_cast
    exact h2
  exact_mod_cast this

theorem intBits_ofNat (n v : Nat) : intBits n (v : Int) = natBits n v := by
  unfold intBits
  rw [← natBits_mod n v]
  congr 1

theorem intBits_toNat (n : Nat) (v : Int) (h : 0 ≤ v) : intBits n v = natBits n v.toNat := by
  rw [← intBits_ofNat, Int.toNat_of_nonneg h]

theorem intBits_mul_pow (n s : Nat) (v : Int) : intBits (n + s) (v * 2 ^ s) = intBits n v ++ zeros s := by
  unfold intBits
  rw [← natBits_shiftLeft]
  congr 1
  have h : v * 2 ^ s % ((2 ^ (n + s) : Nat) : Int) = (v % ((2 ^ n : Nat) : Int)) * 2 ^ s := by
    push_cast
    rw [pow_add, mul_comm v, mul_comm ((2 : Int) ^ n), Int.mul_emod_mul_of_pos _ _ (by positivity), mul_comm]
  rw [h, Nat.shiftLeft_eq]
  have hnn : 0 ≤ v % ((2 ^ n : Nat) : Int) := Int.emod_nonneg _ (by positivity)
  obtain ⟨k, hk⟩ := Int.eq_ofNat_of_zero_le hnn
  rw [hk]
  have : ((k : Int) * 2 ^ s) = ((k * 2 ^ s : Nat) : Int) := by push_cast; ring
  rw [this, Int.toNat_natCast, Int.toNat_natCast]

@[simp] theorem natToBytes_length (k v : Nat) : (natToBytes k v).length = k := by
  induction k with
  | zero => rfl
  | succ k ih => simp [natToBytes, ih]

theorem byteBits_ofNat (v : Nat) : byteBits (UInt8.ofNat v) = natBits 8 v := by
  unfold byteBits
  rw [UInt8.toNat_ofNat']
  exact natBits_mod 8 v

theorem bytesBits_natToBytes (k v : Nat) : bytesBits (natToBytes k v) = natBits (8 * k) v := by
  induction k with
  | zero => rfl
  | succ k ih =>
    rw [natToBytes, bytesBits_cons, ih, byteBits_ofNat, show 8 * (k + 1) = 8 + 8 * k by omega, natBits_add]

/-- Bits that complete `n` bits to whole bytes. -/
def padLen (n : Nat) : Nat := (8 - n % 8) % 8

/-- The writer object holds exactly the bits `bs`. -/
def Writer.Holds (w : Writer) (bs : List Bool) : Prop :=
  w.pos = bs.length ∧ bytesBits w.bytes = bs ++ zeros (padLen bs.length)

theorem Writer.holds_init : Writer.init.Holds [] := by
  constructor <;> rfl

theorem orLast_append (l : List UInt8) (b x : UInt8) : Writer.orLast (l ++ [b]) x = .ok (l ++ [b ||| x]) := by
  induction l with
  | nil => rfl
  | cons a l ih =>
    cases l with
    | nil => rfl
    | cons c l =>
      simp only [List.cons_append] at ih ⊢
      rw [Writer.orLast, ih]; rfl

theorem orLast_bits {l : List UInt8} {bs : List Bool} {f : Nat} (x : UInt8) (hf : 0 < f) (hf8 : f < 8)
    (h : bytesBits l = bs ++ zeros f) (hx : x.toNat < 2 ^ f) :
    ∃ l', Writer.orLast l x = .ok l' ∧ bytesBits l' = bs ++ natBits f x.toNat := by
  have hne : l ≠ [] := by
    rintro rfl
    have := congrArg List.length h
    simp at this; omega
  obtain ⟨init, b, rfl⟩ : ∃ i b, l = i ++ [b] := ⟨l.dropLast, l.getLast hne, (List.dropLast_concat_getLast hne).symm⟩
  refine ⟨_, orLast_append _ _ _, ?_⟩
  have hlen := congrArg List.length h
  simp at hlen
  simp only [bytesBits_append, bytesBits_cons, bytesBits_nil, List.append_nil] at h ⊢
  have e8 : (8 : Nat) = (8 - f) + f := by omega
  have hb : byteBits b = natBits (8 - f) (b.toNat >>> f) ++ natBits f b.toNat := by
    unfold byteBits
    conv => lhs; rw [e8]
    rw [natBits_add]
  rw [hb, ← List.append_assoc] at h
  have h2 := List.append_inj h (by simp; omega)
  have hz : natBits f b.toNat = zeros f := h2.2
  rw [← h2.1, List.append_assoc]
  congr 1
  have hlow : ∀ i, i < f → b.toNat.testBit i = false := by
    intro i hi
    have hi' : f - 1 - i < (natBits f b.toNat).length := by simp; omega
    have := natBits_getElem f b.toNat (f - 1 - i) hi'
    rw [show f - 1 - (f - 1 - i) = i by omega] at this
    rw [← this]
    simp only [hz, List.getElem_replicate]
  unfold byteBits
  conv => lhs; rw [e8]
  rw [natBits_add, UInt8.toNat_or]
  congr 1
  · apply natBits_ext
    intro i hi
    simp only [Nat.testBit_shiftRight, Nat.testBit_or]
    rw [Nat.testBit_lt_two_pow (x := x.toNat) (i := f + i)]
    · simp
    · exact lt_of_lt_of_le hx (Nat.pow_le_pow_right (by omega) (by omega))
  · apply natBits_ext
    intro i hi
    simp [Nat.testBit_or, hlow i hi]

/-- `_write_bits` appends the two's complement representation of a value that fits. -/
theorem writeRaw_ok (v : Int) (n : Nat) (signed : Bool) (w : Writer) (bs : List Bool) (hw : w.Holds bs)
    (hfit : if signed then -(2 ^ n : Int) ≤ 2 * v ∧ 2 * v < 2 ^ n else 0 ≤ v ∧ v < 2 ^ n) :
    ∃ w', Writer.writeRaw v n signed w = (.ok (), w') ∧ w'.Holds (bs ++ intBits n v) := by
  obtain ⟨hpos, hbits⟩ := hw
  set L := bs.length with hL
  set f := (if L % 8 ≠ 0 then 8 - L % 8 else 0) with hf
  set first := (if n % 8 ≠ 0 then n % 8 else 8) with hfirst
  set ls := Writer.leftShift f first with hls
  set K := (n + ls + 7) / 8 with hK
  have hfpad : f = padLen L := by
    unfold padLen; rw [hf]; split <;> omega
  have hT : (f = 0 ∧ n + ls = 8 * K) ∨ (0 < f ∧ f < 8 ∧ 1 ≤ K ∧ n + ls = 8 * (K - 1) + f) := by
    have : ls = if first ≤ f then f - first else f + 8 - first := hls
    have hf8 : f < 8 := by rw [hf]; split <;> omega
    have h1 : first ≤ 8 := by rw [hfirst]; split <;> omega
    have h2 : 1 ≤ first := by rw [hfirst]; split <;> omega
    have h3 : (n = 0 ∧ first = 8) ∨ ∃ q, n = 8 * q + first := by
      rw [hfirst]
      split
      · right; exact ⟨n / 8, by omega⟩
      · by_cases h0 : n = 0
        · left; exact ⟨h0, rfl⟩
        · right; exact ⟨n / 8 - 1, by omega⟩
    clear_value f first
    split at this <;> rcases h3 with ⟨h3, h4⟩ | ⟨q, h3⟩ <;> omega
  have hpadEnd : ls = padLen (L + n) := by
    have : ls = if first ≤ f then f - first else f + 8 - first := hls
    have hls8 : ls < 8 := by
      have h1 : first ≤ 8 := by rw [hfirst]; split <;> omega
      have h2 : 1 ≤ first := by rw [hfirst]; split <;> omega
      have hf8 : f < 8 := by rw [hf]; split <;> omega
      rw [this]; split <;> omega
    unfold padLen at hfpad ⊢
    rcases hT with ⟨h0, hT⟩ | ⟨h0, h1, h2, hT⟩ <;> omega
  have hTle : n + ls ≤ 8 * K := by rcases hT with ⟨_, hT⟩ | ⟨_, _, _, hT⟩ <;> omega
  have hpow : (2 : Int) ^ n * 2 ^ ls ≤ 2 ^ (8 * K) := by
    rw [← pow_add]; exact pow_le_pow_right₀ (by norm_num) hTle
  have hlspos : (0 : Int) < 2 ^ ls := by positivity
  -- the bytes produced by to_bytes
  obtain ⟨X, hX1, hX2⟩ : ∃ X : Nat, intToBytes (v * 2 ^ ls) K signed = .ok (natToBytes K X) ∧
      natBits (n + ls) X = intBits n v ++ zeros ls := by
    refine ⟨(v * 2 ^ ls % (2 : Int) ^ (8 * K)).toNat, ?_, ?_⟩
    · unfold intToBytes
      cases signed with
      | true =>
        simp only [if_true] at hfit ⊢
        rw [if_pos]
        constructor
        · nlinarith
        · nlinarith
      | false =>
        simp only [Bool.false_eq_true, if_false] at hfit ⊢
        have h1 : 0 ≤ v * 2 ^ ls := by nlinarith
        have h2 : v * 2 ^ ls < 2 ^ (8 * K) := by nlinarith
        rw [if_pos ⟨h1, h2⟩, Int.emod_eq_of_lt h1 h2]
    · rw [natBits_toNat_emod _ _ _ hTle, intBits_mul_pow]
  have hunf : Writer.writeRaw v n signed w =
      (if f = 0 then
        M.set ⟨w.bytes ++ natToBytes K X, w.pos + n⟩
      else
        match natToBytes K X with
        | [] => M.throw .index
        | v0 :: rest => do
          let firstByte := v0 &&& UInt8.ofNat (2 ^ f - 1)
          let bytes ← M.lift (Writer.orLast w.bytes firstByte)
          M.set ⟨bytes ++ rest, w.pos + n⟩ : M Writer Unit) w := by
    unfold Writer.writeRaw
    rw [M.bind_ok (M.get_apply w)]
    simp only [hpos]
    rw [M.bind_ok (s' := w) (a := natToBytes K X)]
    · simp only [← hL, ← hf]; rfl
    · simp only [M.lift_apply, ← hL, ← hf, ← hfirst, ← hls, ← hK, hX1]
  rw [hunf]
  rcases hT with ⟨h0, hT⟩ | ⟨h0, h8, hK1, hT⟩
  · rw [if_pos h0]
    refine ⟨_, rfl, ?_, ?_⟩
    · simp [hpos]; rfl
    · simp only [bytesBits_append, hbits, bytesBits_natToBytes]
      rw [← hT, hX2]
      have : padLen L = 0 := by omega
      rw [this]
      simp only [List.length_append, intBits_length, ← hL]
      rw [← hpadEnd]
      simp
  · rw [if_neg (by omega)]
    clear_value K
    obtain ⟨k, rfl⟩ : ∃ k, K = k + 1 := ⟨K - 1, by omega⟩
    simp only [natToBytes]
    have hm : ((2 ^ f - 1 : Nat)) < 2 ^ 8 := by
      have : 2 ^ f < 2 ^ 8 := Nat.pow_lt_pow_right (by omega) h8
      omega
    have hx : (UInt8.ofNat (X >>> (8 * k)) &&& UInt8.ofNat (2 ^ f - 1)).toNat =
        ((X >>> (8 * k)) % 2 ^ 8) % 2 ^ f := by
      rw [UInt8.toNat_and, UInt8.toNat_ofNat', UInt8.toNat_ofNat', Nat.mod_eq_of_lt hm,
        Nat.and_two_pow_sub_one_eq_mod]
    obtain ⟨l', hl1, hl2⟩ := orLast_bits (bs := bs) (f := f) (l := w.bytes)
      (UInt8.ofNat (X >>> (8 * k)) &&& UInt8.ofNat (2 ^ f - 1)) h0 h8 (by rw [hbits, hfpad])
      (by rw [hx]; exact Nat.mod_lt _ (by positivity))
    rw [M.bind_ok (s' := w) (a := l') (by simp [hl1])]
    refine ⟨_, rfl, ?_, ?_⟩
    · simp [hpos]; rfl
    · simp only [bytesBits_append, hl2, bytesBits_natToBytes, hx]
      rw [List.length_append, intBits_length, ← hL, ← hpadEnd, List.append_assoc, List.append_assoc, ← hX2, hT]
      congr 1
      rw [show k + 1 - 1 = k by omega, Nat.add_comm (8 * k) f, natBits_add]
      congr 1
      rw [natBits_mod, natBits_mod_of_le _ (by omega)]

theorem bytesBits_packBits (bs : List Bool) : bytesBits (packBits bs) = bs ++ zeros (padLen bs.length) := by
  induction bs using packBits.induct with
  | case1 => rw [packBits]; rfl
  | case2 b rest ih =>
    rw [packBits, bytesBits_cons, ih, byteBits_ofNat]
    set l := b :: rest with hl
    have hlen : (l.take 8 ++ zeros (8 - l.length)).length = 8 := by simp; omega
    have h8 : natBits 8 (bitsVal (l.take 8 ++ zeros (8 - l.length))) = l.take 8 ++ zeros (8 - l.length) := by
      have := natBits_bitsVal (l.take 8 ++ zeros (8 - l.length))
      rwa [hlen] at this
    rw [h8]
    by_cases hle : 8 ≤ l.length
    · rw [show 8 - l.length = 0 by omega]
      simp only [zeros, List.replicate_zero, List.append_nil]
      rw [← List.append_assoc, List.take_append_drop]
      congr 2
      simp [padLen]; omega
    · have hpos : 0 < l.length := by simp [hl]
      rw [List.take_of_length_le (by omega), List.drop_of_length_le (by omega)]
      simp [padLen]; omega

namespace Writer

/-- The writer object that holds exactly the bits `bs`. -/
def ofBits (bs : List Bool) : Writer := ⟨packBits bs, bs.length⟩

theorem holds_ofBits (bs : List Bool) : (ofBits bs).Holds bs := ⟨rfl, bytesBits_packBits bs⟩

theorem Holds.eq {w : Writer} {bs : List Bool} (h : w.Holds bs) : w = ofBits bs := by
  obtain ⟨h1, h2⟩ := h
  have := bytesBits_inj (h2.trans (bytesBits_packBits bs).symm)
  cases w
  simp_all [ofBits]

/-- Executed at bit position `p`, the operation succeeds, appends exactly `bs` and returns `a`. -/
def Emits {α : Type} (m : M Writer α) (p : Nat) (bs : List Bool) (a : α) : Prop :=
  ∀ b0 : List Bool, b0.length = p → m (ofBits b0) = (.ok a, ofBits (b0 ++ bs))

/-- Executed at bit position `p`, the operation raises `e` and changes nothing. -/
def Fails {α : Type} (m : M Writer α) (p : Nat) (e : Err) : Prop :=
  ∀ b0 : List Bool, b0.length = p → m (ofBits b0) = (.error e, ofBits b0)

theorem emits_pure {α : Type} (a : α) (p : Nat) : Emits (pure a) p [] a := by
  intro b0 _; simp

theorem Emits.bind {α β : Type} {m : M Writer α} {f : α → M Writer β} {p : Nat} {bs bs' : List Bool} {a : α} {b : β}
    (h : Emits m p bs a) (h' : Emits (f a) (p + bs.length) bs' b) : Emits (m >>= f) p (bs ++ bs') b := by
  intro b0 hb
  rw [M.bind_ok (h b0 hb), h' (b0 ++ bs) (by simp [hb]), List.append_assoc]

theorem Fails.bind {α β : Type} {m : M Writer α} {f : α → M Writer β} {p : Nat} {e : Err}
    (h : Fails m p e) : Fails (m >>= f) p e := by
  intro b0 hb
  rw [M.bind_error (h b0 hb)]

theorem emits_lift_bind {α β : Type} {x : Except Err α} {f : α → M Writer β} {p : Nat} {bs : List Bool} {a : α} {b : β}
    (h : x = .ok a) (h' : Emits (f a) p bs b) : Emits (M.lift x >>= f) p bs b := by
  intro b0 hb
  rw [M.bind_ok (s' := ofBits b0) (a := a) (by simp [h]), h' b0 hb]

theorem fails_lift_bind {α β : Type} {x : Except Err α} {f : α → M Writer β} {p : Nat} {e : Err}
    (h : x = .error e) : Fails (M.lift x >>= f) p e := by
  intro b0 hb
  rw [M.bind_error (s' := ofBits b0) (e := e) (by simp [h])]

theorem fails_throw {α : Type} (p : Nat) (e : Err) : Fails (M.throw e : M Writer α) p e := by
  intro b0 hb; rfl

theorem emits_writeRaw (v : Int) (n : Nat) (signed : Bool) (p : Nat)
    (hfit : if signed then -(2 ^ n : Int) ≤ 2 * v ∧ 2 * v < 2 ^ n else 0 ≤ v ∧ v < 2 ^ n) :
    Emits (writeRaw v n signed) p (intBits n v) () := by
  intro b0 _
  obtain ⟨w', h1, h2⟩ := writeRaw_ok v n signed (ofBits b0) b0 (holds_ofBits b0) hfit
  rw [h1, h2.eq]

theorem emits_writeBitsUnchecked (v n p : Nat) (h : v < 2 ^ n) :
    Emits (writeBitsUnchecked (v : Int) n) p (natBits n v) () := by
  have hv : (v : Int) < 2 ^ n := by exact_mod_cast h
  unfold writeBitsUnchecked
  rw [if_neg (by omega), ← intBits_ofNat]
  exact emits_writeRaw _ _ _ _ (by simpa using hv)

theorem emits_writeSignedBitsUnchecked (v : Int) (n p : Nat) (hn : 0 < n)
    (h1 : -(2 ^ (n - 1)) ≤ v) (h2 : v ≤ 2 ^ (n - 1) - 1) :
    Emits (writeSignedBitsUnchecked v n) p (intBits n v) () := by
  unfold writeSignedBitsUnchecked
  rw [if_neg (by omega), if_neg (by omega)]
  obtain ⟨k, rfl⟩ : ∃ k, n = k + 1 := ⟨n - 1, by omega⟩
  simp only [Nat.add_sub_cancel] at h1 h2
  apply emits_writeRaw
  simp only [if_true, pow_succ]
  omega

end Writer

end Zserio
