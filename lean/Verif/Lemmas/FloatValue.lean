import Verif.Lemmas.Float
/-
What the conversions of Model/Float denote.
-/
set_option linter.unusedSimpArgs false
namespace Zserio

/-- the sign as a rational factor -/
def sgnQ (s : Nat) : ℚ := if s = 1 then -1 else 1

theorem half_eq (p : Nat) : half p =
    let s : Nat := p / 2 ^ 15 % 2
    let e : Nat := p / 2 ^ 10 % 2 ^ 5
    let m : Nat := p % 2 ^ 10
    if e = 31 then (if m = 0 then .inf (s = 1) else .nan)
    else if e = 0 then .num (s = 1) (sgnQ s * m * (2 : ℚ) ^ (-24 : Int))
    else .num (s = 1) (sgnQ s * (2 ^ 10 + m : ℕ) * (2 : ℚ) ^ ((e : Int) - 25)) := by
  unfold half ieee sgnQ
  norm_num
  split_ifs <;> simp_all <;> (congr 1; omega)

theorem single_eq (p : Nat) : single p =
    if expOf p = 255 then (if manOf p = 0 then .inf (sgnOf p = 1) else .nan)
    else if expOf p = 0 then .num (sgnOf p = 1) (sgnQ (sgnOf p) * manOf p * (2 : ℚ) ^ (-149 : Int))
    else .num (sgnOf p = 1) (sgnQ (sgnOf p) * (2 ^ 23 + manOf p : ℕ) * (2 : ℚ) ^ ((expOf p : Int) - 150)) := by
  unfold single ieee sgnQ expOf manOf sgnOf
  norm_num
  split_ifs <;> simp_all <;> (congr 1; omega)

theorem double_compose (s e m : Nat) (hs : s < 2) (he : e < 2048) (hm : m < 2 ^ 52) :
    double (s * 2 ^ 63 + e * 2 ^ 52 + m) =
    if e = 2047 then (if m = 0 then .inf (s = 1) else .nan)
    else if e = 0 then .num (s = 1) (sgnQ s * m * (2 : ℚ) ^ (-1074 : Int))
    else .num (s = 1) (sgnQ s * (2 ^ 52 + m : ℕ) * (2 : ℚ) ^ ((e : Int) - 1075)) := by
  have h1 : (s * 2 ^ 63 + e * 2 ^ 52 + m) / 2 ^ (11 + 52) % 2 = s := by omega
  have h2 : (s * 2 ^ 63 + e * 2 ^ 52 + m) / 2 ^ 52 % 2 ^ 11 = e := by omega
  have h3 : (s * 2 ^ 63 + e * 2 ^ 52 + m) % 2 ^ 52 = m := by omega
  unfold double ieee sgnQ
  simp only [h1, h2, h3]
  norm_num
  split_ifs <;> simp_all <;> (congr 1; omega)

theorem zpow_split (a : Nat) (k : Int) : (2 : ℚ) ^ k * (2 : ℚ) ^ a = (2 : ℚ) ^ (k + a) := by
  rw [zpow_add₀ (by norm_num), zpow_natCast]

theorem scale_eq (x a : Nat) (k j : Int) (h : k = j + a) :
    ((x * 2 ^ a : ℕ) : ℚ) * (2 : ℚ) ^ j = (x : ℚ) * (2 : ℚ) ^ k := by
  subst h
  rw [zpow_add₀ (by norm_num), zpow_natCast]; push_cast; ring

/-- Widening single to double precision preserves the denoted value. -/
theorem double_unpackF32 (y : Nat) (hy : y < 2 ^ 32) : double (unpackF32 y).toNat = single y := by
  have hm : manOf y < 2 ^ 23 := Nat.mod_lt _ (by norm_num)
  have he : expOf y < 2 ^ 8 := Nat.mod_lt _ (by norm_num)
  have hs : sgnOf y < 2 := Nat.mod_lt _ (by norm_num)
  have hs' : y / 2 ^ 31 = sgnOf y := by unfold sgnOf; omega
  rw [single_eq]
  unfold unpackF32
  simp only [hs', show y / 2 ^ 23 % 2 ^ 8 = expOf y from rfl, show y % 2 ^ 23 = manOf y from rfl]
  generalize expOf y = e at *
  generalize manOf y = m at *
  generalize sgnOf y = s at *
  by_cases h255 : e = 255
  · subst h255
    rw [if_pos rfl, if_pos rfl]
    by_cases hm0 : m = 0
    · subst hm0
      rw [if_pos rfl, if_pos rfl]
      have h1 := toNat_compose s 2047 0 hs (by norm_num) (by norm_num)
      have h2 := double_compose s 2047 0 hs (by norm_num) (by norm_num)
      rw [Nat.add_zero] at h1 h2
      rw [h1, h2, if_pos rfl, if_pos rfl]
    · rw [if_neg hm0, if_neg hm0]
      have hlt := or_bit22_lt m hm
      have hne : (m ||| 2 ^ 22) ≠ 0 := by
        intro h; have := Nat.right_le_or (n := m) (m := 2 ^ 22); omega
      rw [toNat_compose s 2047 _ hs (by norm_num) (by omega), double_compose s 2047 _ hs (by norm_num) (by omega),
        if_pos rfl, if_neg (by positivity)]
  · rw [if_neg h255, if_neg h255]
    by_cases h0 : e = 0
    · subst h0
      rw [if_pos rfl, if_pos rfl]
      by_cases hm0 : m = 0
      · subst hm0
        rw [if_pos rfl]
        have h1 := toNat_compose s 0 0 hs (by norm_num) (by norm_num)
        have h2 := double_compose s 0 0 hs (by norm_num) (by norm_num)
        rw [Nat.zero_mul, Nat.add_zero] at h1 h2
        rw [h1, h2, if_neg (by norm_num), if_pos rfl]; simp
      · rw [if_neg hm0]
        have hk1 : 2 ^ m.log2 ≤ m := Nat.log2_self_le hm0
        have hk2 : m < 2 ^ (m.log2 + 1) := Nat.lt_log2_self
        have hk : m.log2 < 23 := (Nat.log2_lt hm0).2 hm
        have hpow : 2 ^ m.log2 * 2 ^ (52 - m.log2) = 2 ^ 52 := by rw [← Nat.pow_add]; congr 1; omega
        have hlt : (m - 2 ^ m.log2) * 2 ^ (52 - m.log2) < 2 ^ 52 := by
          rw [← hpow]; apply Nat.mul_lt_mul_of_pos_right _ (by positivity)
          rw [Nat.pow_succ] at hk2; omega
        rw [toNat_compose s _ _ hs (by omega) hlt, double_compose s _ _ hs (by omega) hlt, if_neg (by omega),
          if_neg (by omega)]
        have hsum : 2 ^ 52 + (m - 2 ^ m.log2) * 2 ^ (52 - m.log2) = m * 2 ^ (52 - m.log2) := by
          rw [← hpow, ← Nat.add_mul]; congr 1; omega
        rw [hsum, mul_assoc, mul_assoc, scale_eq _ _ (-149) _ (by push_cast; omega)]
    · rw [if_neg h0, if_neg h0, toNat_compose s _ _ hs (by omega) (by omega),
        double_compose s _ _ hs (by omega) (by omega), if_neg (by omega), if_neg (by omega)]
      have hsum : 2 ^ 52 + m * 2 ^ 29 = (2 ^ 23 + m) * 2 ^ 29 := by ring
      rw [hsum, mul_assoc, mul_assoc, scale_eq _ _ ((e : Int) - 150) _ (by push_cast; omega)]

/-- Widening half to single precision preserves the denoted value. -/
theorem single_f16ToF32 (v : Nat) : single (f16ToF32 v) = half v := by
  have hm : v % 2 ^ 10 < 1024 := Nat.mod_lt _ (by norm_num)
  have he : v / 2 ^ 10 % 2 ^ 5 < 32 := Nat.mod_lt _ (by norm_num)
  have hs : v / 2 ^ 15 % 2 < 2 := Nat.mod_lt _ (by norm_num)
  rw [f16ToF32_eq, single_eq, half_eq]
  obtain ⟨h1, h2, h3, h4⟩ := widen16_fields _ _ _ hs he hm
  simp only [h1, h2, h3]
  generalize v / 2 ^ 10 % 2 ^ 5 = e at *
  generalize v / 2 ^ 15 % 2 = s at *
  generalize v % 2 ^ 10 = m at *
  by_cases h0 : e = 0
  · subst h0
    simp only [if_true, if_neg (show ¬ (0 : Nat) = 31 by norm_num)]
    by_cases hm0 : m = 0
    · subst hm0; simp
    · simp only [if_neg hm0]
      have hk1 : 2 ^ m.log2 ≤ m := Nat.log2_self_le hm0
      have hk : m.log2 < 10 := (Nat.log2_lt hm0).2 hm
      have hpow : 2 ^ m.log2 * 2 ^ (23 - m.log2) = 2 ^ 23 := by rw [← Nat.pow_add]; congr 1; omega
      rw [if_neg (by omega), if_neg (by omega)]
      have hsum : 2 ^ 23 + (m - 2 ^ m.log2) * 2 ^ (23 - m.log2) = m * 2 ^ (23 - m.log2) := by
        rw [← hpow, ← Nat.add_mul]; congr 1; omega
      rw [hsum, mul_assoc, mul_assoc, scale_eq _ _ (-24) _ (by push_cast; omega)]
  · simp only [if_neg h0]
    by_cases h31 : e = 31
    · simp only [if_pos h31]
      by_cases hm0 : m = 0
      · subst hm0; simp
      · rw [if_pos trivial, if_neg (by omega), if_neg hm0]
    · simp only [if_neg h31]
      rw [if_neg (by omega), if_neg (by omega)]
      have hsum : 2 ^ 23 + m * 2 ^ 13 = (2 ^ 10 + m) * 2 ^ 13 := by ring
      rw [hsum, mul_assoc, mul_assoc, scale_eq _ _ ((e : Int) - 25) _ (by push_cast; omega)]

end Zserio
