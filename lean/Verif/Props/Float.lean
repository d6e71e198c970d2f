import Verif.Lemmas.FloatValue
import Mathlib.Order.Monotone.Basic
import Mathlib.Tactic.Push
/-
Properties C23, C24: half precision conversions.
-/
set_option linter.unusedSimpArgs false
namespace Zserio

/-! ### C23 -/

/-- **C23**, value: the float read for a half precision pattern denotes exactly the IEEE 754 binary16 value of the pattern, sign of
zero, infinities and NaN included. -/
theorem C23_value (v : Nat) (hv : v < 2 ^ 16) : double (uint16ToFloat v).toNat = half v := by
  have hm : v % 2 ^ 10 < 1024 := Nat.mod_lt _ (by norm_num)
  have he : v / 2 ^ 10 % 2 ^ 5 < 32 := Nat.mod_lt _ (by norm_num)
  have hs : v / 2 ^ 15 % 2 < 2 := Nat.mod_lt _ (by norm_num)
  unfold uint16ToFloat uint32ToFloat
  rw [double_unpackF32 _ (by rw [f16ToF32_eq]; exact (widen16_fields _ _ _ hs he hm).2.2.2), single_f16ToF32]

/-- `float_to_uint16(uint16_to_float(v))` for every pattern. -/
theorem f16_cycle (v : Nat) (hv : v < 2 ^ 16) :
    floatToUint16 (uint16ToFloat v) = .ok (if isSignalingHalf v then v + 512 else v) := by
  have hm : v % 2 ^ 10 < 1024 := Nat.mod_lt _ (by norm_num)
  have he : v / 2 ^ 10 % 2 ^ 5 < 32 := Nat.mod_lt _ (by norm_num)
  have hs : v / 2 ^ 15 % 2 < 2 := Nat.mod_lt _ (by norm_num)
  obtain ⟨h1, h2, h3, h4⟩ := widen16_fields _ _ _ hs he hm
  unfold floatToUint16 uint16ToFloat floatToUint32 uint32ToFloat
  rw [pack_unpack _ (by rw [f16ToF32_eq]; exact h4)]
  show Except.ok _ = Except.ok _
  congr 1
  by_cases hnan : expOf (f16ToF32 v) = 255 ∧ manOf (f16ToF32 v) ≠ 0
  · rw [if_pos hnan]
    rw [f16ToF32_eq, h1, h2, h3] at *
    obtain ⟨he31, hmne⟩ := hnan
    have h0 : v / 2 ^ 10 % 2 ^ 5 ≠ 0 := by
      intro h0
      rw [if_pos h0] at he31
      split at he31
      · omega
      · rename_i hm0
        have : (v % 2 ^ 10).log2 < 10 := (Nat.log2_lt hm0).2 hm
        omega
    rw [if_neg h0] at he31 hmne ⊢
    have h31 : v / 2 ^ 10 % 2 ^ 5 = 31 := by
      by_contra hc; rw [if_neg hc] at he31; omega
    have hm0 : v % 2 ^ 10 ≠ 0 := by intro h; rw [h] at hmne; simp at hmne
    have hor : v % 2 ^ 10 * 2 ^ 13 ||| 2 ^ 22 = (v % 2 ^ 10 ||| 2 ^ 9) * 2 ^ 13 := by
      rw [← Nat.shiftLeft_eq, ← Nat.shiftLeft_eq, Nat.shiftLeft_or_distrib]; rfl
    have hlt : (v % 2 ^ 10 ||| 2 ^ 9) < 2 ^ 10 := Nat.or_lt_two_pow hm (by norm_num)
    rw [hor, f32ToF16_eq]
    have e1 : sgnOf ((v / 2 ^ 15 % 2) * 2 ^ 31 + 255 * 2 ^ 23 + (v % 2 ^ 10 ||| 2 ^ 9) * 2 ^ 13) = v / 2 ^ 15 % 2 := by
      unfold sgnOf; omega
    have e2 : expOf ((v / 2 ^ 15 % 2) * 2 ^ 31 + 255 * 2 ^ 23 + (v % 2 ^ 10 ||| 2 ^ 9) * 2 ^ 13) = 255 := by
      unfold expOf; omega
    have e3 : manOf ((v / 2 ^ 15 % 2) * 2 ^ 31 + 255 * 2 ^ 23 + (v % 2 ^ 10 ||| 2 ^ 9) * 2 ^ 13) =
        (v % 2 ^ 10 ||| 2 ^ 9) * 2 ^ 13 := by unfold manOf; omega
    rw [e1, e2, e3]
    unfold half16
    rw [if_neg (by norm_num), if_pos rfl, Nat.mul_div_cancel _ (by norm_num)]
    have hbit : ∀ m : Fin 1024, (m.1 ||| 2 ^ 9) = if m.1 < 512 then m.1 + 512 else m.1 := by decide +kernel
    have hb := hbit ⟨v % 2 ^ 10, hm⟩
    simp only at hb
    rw [hb]
    unfold isSignalingHalf
    by_cases hlt : v % 1024 < 512
    · rw [if_pos (by omega), if_pos (by simp; omega)]; omega
    · rw [if_neg (by omega), if_neg (by simp; omega)]; omega
  · rw [if_neg hnan, f32ToF16_f16ToF32 v hv]
    rw [if_neg]
    intro hsig
    simp only [isSignalingHalf, decide_eq_true_eq] at hsig
    apply hnan
    rw [f16ToF32_eq, h2, h3]
    rw [if_neg (by omega), if_pos (by omega), if_neg (by omega)]
    exact ⟨rfl, by omega⟩

/-- **C23**, patterns (partial: all patterns but the signalling NaNs, see below).  Converting a half precision pattern to a float and
back gives the same pattern. -/
theorem C23_round_trip_partial (v : Nat) (hv : v < 2 ^ 16) (hsig : isSignalingHalf v = false) :
    floatToUint16 (uint16ToFloat v) = .ok v := by
  rw [f16_cycle v hv, hsig]; rfl

/-- **C23**: a signalling NaN comes back as the quiet NaN with the same sign and payload, so the full claim is false (the C conversions
between `float` and `double` behind `struct.pack`/`struct.unpack` quieten it). -/
theorem C23_signaling (v : Nat) (hv : v < 2 ^ 16) (hsig : isSignalingHalf v = true) :
    floatToUint16 (uint16ToFloat v) = .ok (v + 512) ∧ half (v + 512) = .nan := by
  rw [f16_cycle v hv, hsig]
  refine ⟨rfl, ?_⟩
  simp only [isSignalingHalf, decide_eq_true_eq] at hsig
  rw [half_eq]
  simp only
  rw [if_pos (by omega), if_neg (by omega)]

example : isSignalingHalf 0x03FF = false ∧ isSignalingHalf 0x7C01 = true ∧ isSignalingHalf 0x7E01 = false := by decide
/-- the full statement fails for the pattern 0x7C01 -/
theorem C23_counterexample : ¬ ∀ v, v < 2 ^ 16 → floatToUint16 (uint16ToFloat v) = .ok v := by
  intro h
  have := (C23_signaling 0x7C01 (by norm_num) (by decide)).1
  rw [h 0x7C01 (by norm_num)] at this
  injection this with this; omega

/-! ### C24 -/

/-- magnitude of a half precision pattern without sign, in units of 2^-24 (also defined for 0x7C00, the would-be next value) -/
def hmag (p : Nat) : Nat := if p / 1024 = 0 then p else (1024 + p % 1024) * 2 ^ (p / 1024 - 1)

/-- magnitude of a single precision pattern, in units of 2^-149 -/
def xmag (e m : Nat) : Nat := if e = 0 then m else (2 ^ 23 + m) * 2 ^ (e - 1)

/-- distance from a half precision value to the next one -/
theorem hmag_succ (p : Nat) : hmag (p + 1) = hmag p + 2 ^ (p / 1024 - 1) := by
  unfold hmag
  by_cases hc : p % 1024 = 1023
  · have h1 : (p + 1) / 1024 = p / 1024 + 1 := by omega
    have h2 : (p + 1) % 1024 = 0 := by omega
    rw [h1, h2, if_neg (by omega), Nat.add_sub_cancel]
    by_cases h0 : p / 1024 = 0
    · rw [if_pos h0, h0]; norm_num; omega
    · rw [if_neg h0, hc]
      obtain ⟨k, hk⟩ : ∃ k, p / 1024 = k + 1 := ⟨p / 1024 - 1, by omega⟩
      rw [hk, Nat.add_sub_cancel, pow_succ]; ring
  · have h1 : (p + 1) / 1024 = p / 1024 := by omega
    have h2 : (p + 1) % 1024 = p % 1024 + 1 := by omega
    rw [h1, h2]
    by_cases h0 : p / 1024 = 0
    · rw [if_pos h0, if_pos h0, h0]; norm_num
    · rw [if_neg h0, if_neg h0]; ring

theorem hmag_mono : Monotone hmag := monotone_nat_of_le_succ fun p => by rw [hmag_succ]; exact Nat.le_add_right _ _

theorem half_val (v : Nat) (h : v % 2 ^ 15 < 0x7C00) :
    half v = .num (v / 2 ^ 15 % 2 = 1) (sgnQ (v / 2 ^ 15 % 2) * (hmag (v % 2 ^ 15)) * (2 : ℚ) ^ (-24 : Int)) := by
  rw [half_eq]
  simp only
  have he : v % 2 ^ 15 / 1024 = v / 2 ^ 10 % 2 ^ 5 := by omega
  have hm : v % 2 ^ 15 % 1024 = v % 2 ^ 10 := by omega
  unfold hmag
  rw [if_neg (by omega), he, hm]
  by_cases h0 : v / 2 ^ 10 % 2 ^ 5 = 0
  · rw [if_pos h0, if_pos h0]
    have : v % 2 ^ 15 = v % 2 ^ 10 := by omega
    rw [this]
  · rw [if_neg h0, if_neg h0]
    congr 1
    rw [mul_assoc, mul_assoc, scale_eq _ _ ((v / 2 ^ 10 % 2 ^ 5 : ℕ) - 25 : Int) _ (by omega)]
    norm_num

theorem half_num (v : Nat) (s : Bool) (q : ℚ) (h : half v = .num s q) :
    v % 2 ^ 15 < 0x7C00 ∧ s = decide (v / 2 ^ 15 % 2 = 1) ∧
      q = sgnQ (v / 2 ^ 15 % 2) * (hmag (v % 2 ^ 15)) * (2 : ℚ) ^ (-24 : Int) := by
  have hlt : v % 2 ^ 15 < 0x7C00 := by
    by_contra hc
    rw [half_eq] at h
    simp only at h
    rw [if_pos (by omega)] at h
    split at h <;> simp at h
  rw [half_val v hlt] at h
  injection h with h1 h2
  exact ⟨hlt, h1.symm, h2.symm⟩

theorem single_num (y : Nat) (s : Bool) (q : ℚ) (h : single y = .num s q) :
    expOf y ≠ 255 ∧ s = decide (sgnOf y = 1) ∧
      q = sgnQ (sgnOf y) * (xmag (expOf y) (manOf y)) * (2 : ℚ) ^ (-149 : Int) := by
  rw [single_eq] at h
  by_cases h255 : expOf y = 255
  · rw [if_pos h255] at h
    split at h <;> simp at h
  rw [if_neg h255] at h
  unfold xmag
  by_cases h0 : expOf y = 0
  · rw [if_pos h0] at h ⊢
    injection h with h1 h2
    exact ⟨h255, h1.symm, h2.symm⟩
  · rw [if_neg h0] at h ⊢
    injection h with h1 h2
    refine ⟨h255, h1.symm, ?_⟩
    rw [← h2, mul_assoc, mul_assoc, scale_eq _ _ ((expOf y : ℕ) - 150 : Int) _ (by omega)]

theorem sgnQ_abs (s : Nat) : |sgnQ s| = 1 := by unfold sgnQ; split <;> simp

theorem sgnQ_cases (s : Nat) : sgnQ s = 1 ∨ sgnQ s = -1 := by unfold sgnQ; split <;> simp

/-- Rounding by the first dropped bit picks a nearest element of an increasing sequence. -/
theorem nearest_of_bit (t b X K : Nat) (h1 : hmag t * K ≤ X) (h2 : X ≤ hmag (t + 1) * K)
    (hb : (b = 0 ∧ 2 * X ≤ (hmag t + hmag (t + 1)) * K) ∨ (b = 1 ∧ (hmag t + hmag (t + 1)) * K ≤ 2 * X)) (w : Nat) :
    |((hmag (t + b) * K : ℕ) : Int) - X| ≤ |((hmag w * K : ℕ) : Int) - X| := by
  have hw : hmag w * K ≤ hmag t * K ∨ hmag (t + 1) * K ≤ hmag w * K := by
    rcases Nat.lt_or_ge t w with h | h
    · exact Or.inr (Nat.mul_le_mul_right _ (hmag_mono h))
    · exact Or.inl (Nat.mul_le_mul_right _ (hmag_mono h))
  rw [Nat.add_mul] at hb
  generalize hmag w * K = W at *
  rcases hb with ⟨rfl, hb⟩ | ⟨rfl, hb⟩
  · rw [Nat.add_zero]
    generalize hmag t * K = T at *
    generalize hmag (t + 1) * K = T1 at *
    rw [abs_le]; constructor <;> rcases abs_cases ((W : Int) - X) with ⟨h, _⟩ | ⟨h, _⟩ <;> omega
  · generalize hmag t * K = T at *
    generalize hmag (t + 1) * K = T1 at *
    rw [abs_le]; constructor <;> rcases abs_cases ((W : Int) - X) with ⟨h, _⟩ | ⟨h, _⟩ <;> omega

/-- The magnitude conversion picks a nearest half precision magnitude. -/
theorem half16_nearest (e m : Nat) (hm : m < 2 ^ 23) (he : e ≤ 142) (hsmall : xmag e m ≤ 2 ^ 124 ∨ 2 ^ 125 ≤ xmag e m) (w : Nat) :
    |((hmag (half16 e m) * 2 ^ 125 : ℕ) : Int) - (xmag e m : ℕ)| ≤ |((hmag w * 2 ^ 125 : ℕ) : Int) - (xmag e m : ℕ)| := by
  by_cases h102 : e ≤ 102
  · have hz : half16 e m = 0 + 0 := by
      unfold half16
      split_ifs <;> omega
    have hx : xmag e m < 2 ^ 125 := by
      unfold xmag
      split
      · omega
      · calc (2 ^ 23 + m) * 2 ^ (e - 1) < 2 ^ 24 * 2 ^ (e - 1) := Nat.mul_lt_mul_of_pos_right (by omega) (by positivity)
          _ ≤ 2 ^ 24 * 2 ^ 101 := Nat.mul_le_mul_left _ (Nat.pow_le_pow_right (by norm_num) (by omega))
          _ = 2 ^ 125 := by norm_num
    rw [hz]
    have h0 : hmag 0 = 0 := by decide
    have h1 : hmag (0 + 1) = 1 := by decide
    refine nearest_of_bit 0 0 _ _ ?_ ?_ (Or.inl ⟨rfl, ?_⟩) w
    · exact le_of_eq_of_le (by rw [h0, Nat.zero_mul]) (Nat.zero_le _)
    · rw [h1, Nat.one_mul]; exact le_of_lt hx
    · rw [h0, h1, Nat.zero_add, Nat.one_mul]; omega
  have hx : xmag e m = (2 ^ 23 + m) * 2 ^ (e - 1) := by unfold xmag; rw [if_neg (by omega)]
  by_cases h112 : e ≤ 112
  · have hh : half16 e m = (2 ^ 23 + m) / 2 ^ (126 - e) + (2 ^ 23 + m) / 2 ^ (125 - e) % 2 := by
      unfold half16
      rw [if_neg (by omega), if_neg (by omega), if_neg (by omega), if_neg h102, if_pos h112]
    obtain ⟨k, hk⟩ : ∃ k, 125 - e = k := ⟨_, rfl⟩
    have hk1 : 126 - e = k + 1 := by omega
    have hK : 2 ^ 125 = 2 ^ (k + 1) * 2 ^ (e - 1) := by rw [← Nat.pow_add]; congr 1; omega
    rw [hh, hx, hk, hk1, hK]
    generalize hF : 2 ^ 23 + m = F at *
    have hFlt : F / 2 ^ (k + 1) < 1024 := by
      rw [Nat.div_lt_iff_lt_mul (by positivity)]
      calc F < 1024 * 2 ^ 14 := by omega
        _ ≤ 1024 * 2 ^ (k + 1) := Nat.mul_le_mul_left _ (Nat.pow_le_pow_right (by norm_num) (by omega))
    have ht : hmag (F / 2 ^ (k + 1)) = F / 2 ^ (k + 1) := by unfold hmag; rw [if_pos (Nat.div_eq_of_lt hFlt)]
    have ht1 : hmag (F / 2 ^ (k + 1) + 1) = F / 2 ^ (k + 1) + 1 := by
      rw [hmag_succ, ht, Nat.div_eq_of_lt hFlt]; rfl
    have hdd : F / 2 ^ (k + 1) = F / 2 ^ k / 2 := by rw [pow_succ, Nat.div_div_eq_div_mul]
    have hd := Nat.div_add_mod F (2 ^ k)
    have hr : F % 2 ^ k < 2 ^ k := Nat.mod_lt _ (by positivity)
    generalize hG : F / 2 ^ k = G at *
    generalize hR : F % 2 ^ k = R at *
    have hp : 2 ^ (k + 1) = 2 * 2 ^ k := by rw [pow_succ]; ring
    generalize hP : 2 ^ k = P at *
    have hF' : F = 2 * P * (G / 2) + P * (G % 2) + R := by
      rw [← hd]
      have := Nat.div_add_mod G 2
      calc P * G + R = P * (2 * (G / 2) + G % 2) + R := by rw [this]
        _ = _ := by ring
    refine nearest_of_bit _ _ _ _ ?_ ?_ ?_ w
    · rw [ht, hdd, hp, ← mul_assoc]
      apply Nat.mul_le_mul_right
      rw [hF', mul_comm]; omega
    · rw [ht1, hdd, hp, ← mul_assoc]
      apply Nat.mul_le_mul_right
      rcases Nat.mod_two_eq_zero_or_one G with h | h <;> rw [hF', h] <;> nlinarith
    · rw [ht, ht1, hdd, hp]
      rcases Nat.mod_two_eq_zero_or_one G with h | h
      · refine Or.inl ⟨h, ?_⟩
        rw [← mul_assoc, ← mul_assoc]
        apply Nat.mul_le_mul_right
        rw [hF', h]; nlinarith
      · refine Or.inr ⟨h, ?_⟩
        rw [← mul_assoc, ← mul_assoc 2 F]
        apply Nat.mul_le_mul_right
        rw [hF', h]; nlinarith
  · have hh : half16 e m = ((e - 112) * 2 ^ 10 + m / 2 ^ 13) + m / 2 ^ 12 % 2 := by
      unfold half16
      rw [if_neg (by omega), if_neg (by omega), if_neg (by omega), if_neg h102, if_neg h112]
    obtain ⟨k, hk⟩ : ∃ k, e = 113 + k := ⟨e - 113, by omega⟩
    have ht : hmag ((e - 112) * 2 ^ 10 + m / 2 ^ 13) = (1024 + m / 2 ^ 13) * 2 ^ k := by
      unfold hmag
      rw [show ((e - 112) * 2 ^ 10 + m / 2 ^ 13) / 1024 = k + 1 by omega, if_neg (by omega),
        show ((e - 112) * 2 ^ 10 + m / 2 ^ 13) % 1024 = m / 2 ^ 13 by omega, Nat.add_sub_cancel]
    have ht1 : hmag ((e - 112) * 2 ^ 10 + m / 2 ^ 13 + 1) = (1024 + m / 2 ^ 13 + 1) * 2 ^ k := by
      rw [hmag_succ, ht, show ((e - 112) * 2 ^ 10 + m / 2 ^ 13) / 1024 - 1 = k by omega]; ring
    have hp : 2 ^ (e - 1) = 2 ^ k * 2 ^ 112 := by rw [← Nat.pow_add]; congr 1; omega
    rw [hh, hx, hp, show (2 : Nat) ^ 125 = 2 ^ 13 * 2 ^ 112 by norm_num]
    have hpp : 0 < 2 ^ k * 2 ^ 112 := by positivity
    refine nearest_of_bit _ _ _ _ ?_ ?_ ?_ w
    · rw [ht]
      calc _ = ((1024 + m / 2 ^ 13) * 2 ^ 13) * (2 ^ k * 2 ^ 112) := by ring
        _ ≤ _ := Nat.mul_le_mul_right _ (by omega)
    · rw [ht1]
      calc _ ≤ ((1024 + m / 2 ^ 13 + 1) * 2 ^ 13) * (2 ^ k * 2 ^ 112) := Nat.mul_le_mul_right _ (by omega)
        _ = _ := by ring
    · rw [ht, ht1]
      rcases Nat.mod_two_eq_zero_or_one (m / 2 ^ 12) with h | h
      · refine Or.inl ⟨h, ?_⟩
        calc _ = (2 * (2 ^ 23 + m)) * (2 ^ k * 2 ^ 112) := by ring
          _ ≤ ((2 * (1024 + m / 2 ^ 13) + 1) * 2 ^ 13) * (2 ^ k * 2 ^ 112) := Nat.mul_le_mul_right _ (by omega)
          _ = _ := by ring
      · refine Or.inr ⟨h, ?_⟩
        calc _ = ((2 * (1024 + m / 2 ^ 13) + 1) * 2 ^ 13) * (2 ^ k * 2 ^ 112) := by ring
          _ ≤ (2 * (2 ^ 23 + m)) * (2 ^ k * 2 ^ 112) := Nat.mul_le_mul_right _ (by omega)
          _ = _ := by ring

theorem abs_single (s X : Nat) : |sgnQ s * (X : ℚ) * (2 : ℚ) ^ (-149 : Int)| = (X : ℚ) * (2 : ℚ) ^ (-149 : Int) := by
  rw [abs_mul, abs_mul, sgnQ_abs, one_mul, abs_of_nonneg (by positivity : (0 : ℚ) ≤ X),
    abs_of_nonneg (by positivity : (0 : ℚ) ≤ (2 : ℚ) ^ (-149 : Int))]

/-- The float produced from a finite single precision pattern converts back to it. -/
theorem floatToUint16_single (y : Nat) (hy : y < 2 ^ 32) (h : expOf y ≠ 255) :
    floatToUint16 (uint32ToFloat y) = .ok (sgnOf y * 2 ^ 15 + half16 (expOf y) (manOf y)) := by
  unfold floatToUint16 floatToUint32 uint32ToFloat
  rw [pack_unpack y hy, if_neg (fun hc => h hc.1)]
  show Except.ok _ = _
  rw [f32ToF16_eq]

/-- **C24**, nearest (partial).  For every single precision value `q` with `|q| ≤ 65504`, except `2^-25 < |q| < 2^-24`,
`float_to_uint16` returns a half precision pattern of the same sign whose value is at minimal distance from `q` among all half
precision values.  Missing for the full claim: the open interval (2^-25, 2^-24), where the claim is false (`C24_flush`), and the values
beyond the range (`C24_overflow_*`). -/
theorem C24_nearest_partial (y : Nat) (hy : y < 2 ^ 32) (s : Bool) (q : ℚ) (hval : single y = .num s q) (hle : |q| ≤ 65504)
    (hsmall : ¬ (1 / 2 ^ 25 < |q| ∧ |q| < 1 / 2 ^ 24)) :
    ∃ v q', floatToUint16 (uint32ToFloat y) = .ok v ∧ v < 2 ^ 16 ∧ half v = .num s q' ∧
      ∀ w s' qw, half w = .num s' qw → |q - q'| ≤ |q - qw| := by
  obtain ⟨h255, hs, hq⟩ := single_num y s q hval
  have hm : manOf y < 2 ^ 23 := Nat.mod_lt _ (by norm_num)
  have hsg : sgnOf y < 2 := Nat.mod_lt _ (by norm_num)
  have habs : |q| = (xmag (expOf y) (manOf y) : ℚ) * (2 : ℚ) ^ (-149 : Int) := by rw [hq]; exact abs_single _ _
  have hU : (2 : ℚ) ^ (-149 : Int) = 1 / 2 ^ 149 := by norm_num [zpow_neg]
  have hX : xmag (expOf y) (manOf y) ≤ 65504 * 2 ^ 149 := by
    rw [habs, hU] at hle
    have : (xmag (expOf y) (manOf y) : ℚ) ≤ 65504 * 2 ^ 149 := by
      rw [mul_one_div, div_le_iff₀ (by positivity)] at hle; exact hle
    exact_mod_cast this
  have hXs : xmag (expOf y) (manOf y) ≤ 2 ^ 124 ∨ 2 ^ 125 ≤ xmag (expOf y) (manOf y) := by
    by_contra hc
    rw [not_or, not_le, not_le] at hc
    apply hsmall
    rw [habs, hU, mul_one_div, div_lt_div_iff₀ (by positivity) (by positivity), div_lt_div_iff₀ (by positivity) (by positivity)]
    have h1 : (2 ^ 124 : ℚ) < xmag (expOf y) (manOf y) := by exact_mod_cast hc.1
    have h2 : (xmag (expOf y) (manOf y) : ℚ) < 2 ^ 125 := by exact_mod_cast hc.2
    constructor <;> linarith
  have he : expOf y ≤ 142 := by
    by_contra hc
    have : xmag (expOf y) (manOf y) ≥ 2 ^ 23 * 2 ^ 142 := by
      unfold xmag; rw [if_neg (by omega)]
      exact Nat.mul_le_mul (by omega) (Nat.pow_le_pow_right (by norm_num) (by omega))
    omega
  have hr : half16 (expOf y) (manOf y) < 0x7C00 := by
    unfold half16
    split_ifs with h1 h2 h3 h4
    · norm_num
    · omega
    · norm_num
    · have hlt : (2 ^ 23 + manOf y) / 2 ^ (126 - expOf y) < 1024 := by
        rw [Nat.div_lt_iff_lt_mul (by positivity)]
        calc 2 ^ 23 + manOf y < 1024 * 2 ^ 14 := by omega
          _ ≤ 1024 * 2 ^ (126 - expOf y) := Nat.mul_le_mul_left _ (Nat.pow_le_pow_right (by norm_num) (by omega))
      have : (2 ^ 23 + manOf y) / 2 ^ (125 - expOf y) % 2 < 2 := Nat.mod_lt _ (by norm_num)
      generalize (2 ^ 23 + manOf y) / 2 ^ (125 - expOf y) % 2 = u at *
      generalize (2 ^ 23 + manOf y) / 2 ^ (126 - expOf y) = u' at *
      omega
    · by_cases h142 : expOf y = 142
      · unfold xmag at hX
        rw [h142, if_neg (by norm_num)] at hX
        have : manOf y ≤ 2 ^ 23 - 2 ^ 13 := by omega
        rw [h142]; omega
      · omega
  refine ⟨_, sgnQ (sgnOf y) * (hmag (half16 (expOf y) (manOf y))) * (2 : ℚ) ^ (-24 : Int),
    floatToUint16_single y hy h255, by omega, ?_, ?_⟩
  · have e1 : (sgnOf y * 2 ^ 15 + half16 (expOf y) (manOf y)) % 2 ^ 15 = half16 (expOf y) (manOf y) := by omega
    have e2 : (sgnOf y * 2 ^ 15 + half16 (expOf y) (manOf y)) / 2 ^ 15 % 2 = sgnOf y := by omega
    rw [half_val _ (by rw [e1]; exact hr), e1, e2, hs]
  · intro w s' qw hw
    obtain ⟨-, -, hqw⟩ := half_num w s' qw hw
    have hn := half16_nearest (expOf y) (manOf y) hm he hXs (w % 2 ^ 15)
    generalize xmag (expOf y) (manOf y) = X at *
    generalize hmag (half16 (expOf y) (manOf y)) = R at *
    generalize hmag (w % 2 ^ 15) = W at *
    have hn' : |((R * 2 ^ 125 : ℕ) : ℚ) - X| ≤ |((W * 2 ^ 125 : ℕ) : ℚ) - X| := by exact_mod_cast hn
    have hsc : ∀ a : Nat, (a : ℚ) * (2 : ℚ) ^ (-24 : Int) = ((a * 2 ^ 125 : ℕ) : ℚ) * (2 : ℚ) ^ (-149 : Int) :=
      fun a => (scale_eq a 125 (-24) (-149) (by norm_num)).symm
    have hUpos : (0 : ℚ) < (2 : ℚ) ^ (-149 : Int) := by positivity
    have hl : |q - sgnQ (sgnOf y) * R * (2 : ℚ) ^ (-24 : Int)| = |((R * 2 ^ 125 : ℕ) : ℚ) - X| * (2 : ℚ) ^ (-149 : Int) := by
      rw [hq, mul_assoc, mul_assoc, hsc, ← mul_sub, ← sub_mul, abs_mul, abs_mul, sgnQ_abs, one_mul, abs_sub_comm,
        abs_of_pos hUpos]
    have hge : |((W * 2 ^ 125 : ℕ) : ℚ) - X| * (2 : ℚ) ^ (-149 : Int) ≤ |q - qw| := by
      rw [hq, hqw, mul_assoc, mul_assoc, hsc]
      obtain ⟨W', hW'⟩ : ∃ W', W * 2 ^ 125 = W' := ⟨_, rfl⟩
      rw [hW']
      have : sgnQ (sgnOf y) * ((X : ℚ) * (2 : ℚ) ^ (-149 : Int)) - sgnQ (w / 2 ^ 15 % 2) * ((W' : ℚ) * (2 : ℚ) ^ (-149 : Int)) =
          (sgnQ (sgnOf y) * X - sgnQ (w / 2 ^ 15 % 2) * W') * (2 : ℚ) ^ (-149 : Int) := by ring
      rw [this, abs_mul, abs_of_pos hUpos]
      apply mul_le_mul_of_nonneg_right _ (le_of_lt hUpos)
      have hW : (0 : ℚ) ≤ W' := Nat.cast_nonneg _
      have hX0 : (0 : ℚ) ≤ X := Nat.cast_nonneg _
      rcases sgnQ_cases (sgnOf y) with h1 | h1 <;> rcases sgnQ_cases (w / 2 ^ 15 % 2) with h2 | h2 <;> rw [h1, h2]
      · rw [one_mul, one_mul, abs_sub_comm]
      · rw [abs_le, show (1 : ℚ) * X - -1 * W' = X + W' by ring, abs_of_nonneg (by linarith)]
        constructor <;> linarith
      · rw [abs_le, show (-1 : ℚ) * X - 1 * W' = -(X + W') by ring, abs_neg, abs_of_nonneg (by linarith)]
        constructor <;> linarith
      · rw [show (-1 : ℚ) * X - -1 * W' = W' - X by ring]
    rw [hl]
    exact le_trans (mul_le_mul_of_nonneg_right hn' (le_of_lt hUpos)) hge

/-- 1/3 rounded to single precision meets the hypotheses. -/
example : floatToUint16 (uint32ToFloat 0x3EAAAAAB) = .ok 0x3555 ∧ single 0x3EAAAAAB = .num false (11184811 / 2 ^ 25) := by
  refine ⟨by decide +kernel, ?_⟩
  simp [single, ieee]; norm_num

/-- **C24**, counterexample in the gap: 1.5 * 2^-25 is converted to 0 although 2^-24 (pattern 1) is nearer. -/
theorem C24_flush : floatToUint16 (uint32ToFloat 0x33400000) = .ok 0 ∧ single 0x33400000 = .num false (3 / 2 ^ 26) ∧
    half 0 = .num false 0 ∧ half 1 = .num false (1 / 2 ^ 24) ∧
    ¬ |(3 / 2 ^ 26 : ℚ) - 0| ≤ |(3 / 2 ^ 26 : ℚ) - 1 / 2 ^ 24| := by
  refine ⟨by decide +kernel, ?_, ?_, ?_, ?_⟩
  · simp [single, ieee]; norm_num
  · simp [half, ieee]
  · simp [half, ieee]
  · rw [abs_of_pos (by norm_num), abs_of_neg (by norm_num)]; norm_num

/-- **C24**, overflow counterexamples: finite values above the range which do not become infinity: 98304 becomes NaN, 131071 becomes
-0, and -131071 becomes 0x10000, which is no half precision pattern (so `write_float16` raises). -/
theorem C24_overflow_counterexamples :
    (single 0x47C00000 = .num false 98304 ∧ floatToUint16 (uint32ToFloat 0x47C00000) = .ok 0x7E00 ∧ half 0x7E00 = .nan) ∧
    (single 0x47FFFF80 = .num false 131071 ∧ floatToUint16 (uint32ToFloat 0x47FFFF80) = .ok 0x8000 ∧
      half 0x8000 = .num true 0) ∧
    (single 0xC7FFFF80 = .num true (-131071) ∧ floatToUint16 (uint32ToFloat 0xC7FFFF80) = .ok 0x10000) := by
  refine ⟨⟨?_, by decide +kernel, ?_⟩, ⟨?_, by decide +kernel, ?_⟩, ⟨?_, by decide +kernel⟩⟩
  all_goals first | (simp [single, ieee]; norm_num; done) | (simp [half, ieee]; done)

/-- **C24**, overflow (partial): values in [65520, 65568) become infinity of the same sign.  Beyond, see
`C24_overflow_counterexamples`. -/
theorem C24_overflow_partial (y : Nat) (hy : y < 2 ^ 32) (s : Bool) (q : ℚ) (hval : single y = .num s q) (hlo : 65520 ≤ |q|)
    (hhi : |q| < 65568) : ∃ v, floatToUint16 (uint32ToFloat y) = .ok v ∧ v < 2 ^ 16 ∧ half v = .inf s := by
  obtain ⟨h255, hs, hq⟩ := single_num y s q hval
  have hm : manOf y < 2 ^ 23 := Nat.mod_lt _ (by norm_num)
  have hsg : sgnOf y < 2 := Nat.mod_lt _ (by norm_num)
  have habs : |q| = (xmag (expOf y) (manOf y) : ℚ) * (2 : ℚ) ^ (-149 : Int) := by rw [hq]; exact abs_single _ _
  have hU : (2 : ℚ) ^ (-149 : Int) = 1 / 2 ^ 149 := by norm_num [zpow_neg]
  rw [habs, hU, mul_one_div] at hlo hhi
  have hX1 : 65520 * 2 ^ 149 ≤ xmag (expOf y) (manOf y) := by
    rw [le_div_iff₀ (by positivity)] at hlo; exact_mod_cast hlo
  have hX2 : xmag (expOf y) (manOf y) < 65568 * 2 ^ 149 := by
    rw [div_lt_iff₀ (by positivity)] at hhi; exact_mod_cast hhi
  have he : expOf y = 142 ∨ expOf y = 143 := by
    by_contra hc
    unfold xmag at hX1 hX2
    rcases Nat.lt_or_ge (expOf y) 142 with h | h
    · have : (if expOf y = 0 then manOf y else (2 ^ 23 + manOf y) * 2 ^ (expOf y - 1)) ≤ 2 ^ 24 * 2 ^ 140 := by
        split
        · omega
        · exact Nat.mul_le_mul (by omega) (Nat.pow_le_pow_right (by norm_num) (by omega))
      omega
    · have : (if expOf y = 0 then manOf y else (2 ^ 23 + manOf y) * 2 ^ (expOf y - 1)) ≥ 2 ^ 23 * 2 ^ 143 := by
        rw [if_neg (by omega)]
        exact Nat.mul_le_mul (by omega) (Nat.pow_le_pow_right (by norm_num) (by omega))
      omega
  have hr : half16 (expOf y) (manOf y) = 0x7C00 := by
    rcases he with he | he
    · rw [he] at hX1 ⊢
      unfold xmag at hX1
      rw [if_neg (by norm_num)] at hX1
      unfold half16
      rw [if_neg (by norm_num), if_neg (by norm_num), if_neg (by norm_num), if_neg (by norm_num), if_neg (by norm_num)]
      omega
    · rw [he] at hX2 ⊢
      unfold xmag at hX2
      rw [if_neg (by norm_num)] at hX2
      unfold half16
      rw [if_neg (by norm_num), if_neg (by norm_num), if_neg (by norm_num), if_neg (by norm_num), if_neg (by norm_num)]
      omega
  refine ⟨_, floatToUint16_single y hy h255, by omega, ?_⟩
  rw [hr, half_eq]
  simp only
  rw [if_pos (by omega), if_pos (by omega), hs]
  congr 2
  simp only [eq_iff_iff]
  constructor <;> omega

example : single 0x477FF000 = .num false 65520 := by simp [single, ieee]; norm_num

/-- **C24**, NaN: every NaN float is converted to a half precision NaN. -/
theorem C24_nan (x : PyFloat) (h : double x.toNat = .nan) : ∃ v, floatToUint16 x = .ok v ∧ v < 2 ^ 16 ∧ half v = .nan := by
  have hx : x.toNat < 2 ^ 64 := x.toNat_lt
  have hsplit : x.toNat = x.toNat / 2 ^ 63 * 2 ^ 63 + x.toNat / 2 ^ 52 % 2048 * 2 ^ 52 + x.toNat % 2 ^ 52 := by omega
  have hs : x.toNat / 2 ^ 63 < 2 := by omega
  have he : x.toNat / 2 ^ 52 % 2048 < 2048 := by omega
  have hm : x.toNat % 2 ^ 52 < 2 ^ 52 := by omega
  have hx' : x = UInt64.ofNat (x.toNat / 2 ^ 63 * 2 ^ 63 + x.toNat / 2 ^ 52 % 2048 * 2 ^ 52 + x.toNat % 2 ^ 52) := by
    rw [← hsplit]; simp
  rw [hsplit, double_compose _ _ _ hs he hm] at h
  unfold floatToUint16 floatToUint32
  rw [hx', packF32_compose _ _ _ hs he hm]
  generalize x.toNat / 2 ^ 63 = s at *
  generalize x.toNat / 2 ^ 52 % 2048 = e at *
  generalize x.toNat % 2 ^ 52 = m at *
  have he' : e = 2047 := by
    by_contra hc
    rw [if_neg hc] at h
    split at h <;> simp at h
  have hm' : m ≠ 0 := by
    intro hc
    rw [if_pos he', if_pos hc] at h; simp at h
  rw [if_pos he', if_neg hm']
  refine ⟨f32ToF16 (s * 2 ^ 31 + 255 * 2 ^ 23 + (m / 2 ^ 29 ||| 2 ^ 22)), rfl, ?_⟩
  have hlt := or_bit22_lt (m / 2 ^ 29) (by omega)
  have hge := Nat.right_le_or (n := m / 2 ^ 29) (m := 2 ^ 22)
  rw [f32ToF16_eq]
  generalize m / 2 ^ 29 ||| 2 ^ 22 = M at *
  have e1 : sgnOf (s * 2 ^ 31 + 255 * 2 ^ 23 + M) = s := by unfold sgnOf; omega
  have e2 : expOf (s * 2 ^ 31 + 255 * 2 ^ 23 + M) = 255 := by unfold expOf; omega
  have e3 : manOf (s * 2 ^ 31 + 255 * 2 ^ 23 + M) = M := by unfold manOf; omega
  rw [e1, e2, e3]
  unfold half16
  rw [if_neg (by norm_num), if_pos rfl, half_eq]
  simp only
  rw [if_pos (by omega), if_neg (by omega)]
  exact ⟨by omega, rfl⟩

example : double 0x7FF0000000000001 = .nan ∧ floatToUint16 0x7FF0000000000001 = .ok 0x7E00 := by
  constructor
  · simp [double, ieee]
  · decide +kernel

end Zserio
