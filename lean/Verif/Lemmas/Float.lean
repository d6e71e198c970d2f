import Verif.Model.Float
import Verif.Spec.Ieee
import Mathlib.Tactic.Ring
import Mathlib.Tactic.Linarith
import Mathlib.Tactic.FieldSimp
import Mathlib.Algebra.Order.Field.Basic
/-
Lemmas about the conversions of Model/Float.
-/
set_option linter.unusedSimpArgs false
namespace Zserio

/-! ### Arithmetic form of the bit manipulations -/

theorem and_7F800000 (v : Nat) : (v &&& 0x7F800000) >>> 23 = v / 2 ^ 23 % 2 ^ 8 := by
  rw [Nat.shiftRight_and_distrib, Nat.shiftRight_eq_div_pow, show (0x7F800000 >>> 23 : Nat) = 2 ^ 8 - 1 from rfl,
    Nat.and_two_pow_sub_one_eq_mod]

theorem and_7FFFFF (v : Nat) : v &&& 0x007FFFFF = v % 2 ^ 23 := by
  rw [show (0x007FFFFF : Nat) = 2 ^ 23 - 1 from rfl, Nat.and_two_pow_sub_one_eq_mod]

theorem and_80000000 (v : Nat) : (v &&& 0x80000000) >>> 16 = (v / 2 ^ 31 % 2) <<< 15 := by
  have h : v &&& 0x80000000 = (v / 2 ^ 31 % 2) <<< 31 := by
    have : (v / 2 ^ 31 % 2) = (v >>> 31) &&& 1 := by
      rw [Nat.shiftRight_eq_div_pow, show (1 : Nat) = 2 ^ 1 - 1 from rfl, Nat.and_two_pow_sub_one_eq_mod]
    rw [this]
    apply Nat.eq_of_testBit_eq
    intro i
    rw [Nat.testBit_and, Nat.testBit_shiftLeft, Nat.testBit_and, Nat.testBit_shiftRight,
      show (0x80000000 : Nat) = 2 ^ 31 from rfl, Nat.testBit_two_pow]
    by_cases hi : 31 = i
    · subst hi; simp
    · simp only [hi, decide_false, Bool.and_false]
      by_cases h2 : 31 ≤ i
      · have : Nat.testBit 1 (i - 31) = false := by
          rw [show (1 : Nat) = 2 ^ 0 from rfl, Nat.testBit_two_pow]; simp; omega
        simp [this]
      · simp [h2]
  rw [h, Nat.shiftLeft_eq, Nat.shiftLeft_eq, Nat.shiftRight_eq_div_pow]
  have : v / 2 ^ 31 % 2 < 2 := Nat.mod_lt _ (by norm_num)
  omega

theorem or_fields (s e m : Nat) (he : e < 32) (hm : m < 1024) :
    (s <<< 15 ||| e <<< 10 ||| m) = s * 2 ^ 15 + e * 2 ^ 10 + m := by
  have h1 : s <<< 15 ||| e <<< 10 = s * 2 ^ 15 + e * 2 ^ 10 := by
    have : s <<< 15 ||| e <<< 10 = (s <<< 5 + e) <<< 10 := by
      rw [Nat.shiftLeft_add_eq_or_of_lt (by omega : e < 2 ^ 5), Nat.shiftLeft_or_distrib, ← Nat.shiftLeft_add]
    rw [this, Nat.shiftLeft_eq, Nat.shiftLeft_eq]; ring
  have h2 : (s <<< 15 ||| e <<< 10) = (s <<< 5 + e) <<< 10 := by
    rw [h1, Nat.shiftLeft_eq, Nat.shiftLeft_eq]; ring
  rw [h2, ← Nat.shiftLeft_add_eq_or_of_lt (by omega : m < 2 ^ 10), Nat.shiftLeft_eq, Nat.shiftLeft_eq]; ring

theorem or_implicit (m : Nat) (h : m < 2 ^ 23) : m ||| (0x007FFFFF + 1) = 2 ^ 23 + m := by
  have := Nat.shiftLeft_add_eq_or_of_lt h 1
  rw [Nat.or_comm, show (0x007FFFFF + 1 : Nat) = 1 <<< 23 from rfl, ← this]; rfl

theorem and_one_ne (a : Nat) : ((a &&& 1) != 0) = decide (a % 2 = 1) := by
  rw [Nat.and_one_is_mod]
  rcases Nat.mod_two_eq_zero_or_one a with h | h <;> simp [h]

/-- sign, exponent and significand of a binary32 pattern -/
def sgnOf (y : Nat) : Nat := y / 2 ^ 31 % 2
def expOf (y : Nat) : Nat := y / 2 ^ 23 % 2 ^ 8
def manOf (y : Nat) : Nat := y % 2 ^ 23

theorem split32 (y : Nat) (h : y < 2 ^ 32) : y = sgnOf y * 2 ^ 31 + expOf y * 2 ^ 23 + manOf y := by
  unfold sgnOf expOf manOf; omega

/-- `f32ToF16` without the sign: the truncated pattern and the rounding bit. -/
def half16 (e m : Nat) : Nat :=
  if e = 0 then 0
  else if e = 255 then 31 * 2 ^ 10 + m / 2 ^ 13
  else if 143 < e then 31 * 2 ^ 10 + m / 2 ^ 13
  else if e ≤ 102 then 0
  else if e ≤ 112 then (2 ^ 23 + m) / 2 ^ (126 - e) + (2 ^ 23 + m) / 2 ^ (125 - e) % 2
  else (e - 112) * 2 ^ 10 + m / 2 ^ 13 + m / 2 ^ 12 % 2

theorem f32ToF16_eq (y : Nat) : f32ToF16 y = sgnOf y * 2 ^ 15 + half16 (expOf y) (manOf y) := by
  unfold f32ToF16 half16
  have hm : manOf y < 2 ^ 23 := Nat.mod_lt _ (by norm_num)
  have he : expOf y < 2 ^ 8 := Nat.mod_lt _ (by norm_num)
  have hdiv : manOf y / 2 ^ 13 < 1024 := by omega
  simp only [and_7F800000, and_7FFFFF, show (31 - 15 : Nat) = 16 from rfl, and_80000000]
  simp only [show y / 2 ^ 23 % 2 ^ 8 = expOf y from rfl, show y % 2 ^ 23 = manOf y from rfl,
    show y / 2 ^ 31 % 2 = sgnOf y from rfl,
    or_implicit _ hm, and_one_ne, Nat.shiftRight_eq_div_pow, Nat.reduceSub]
  generalize expOf y = e at *
  generalize manOf y = m at *
  generalize sgnOf y = s at *
  by_cases h0 : e = 0
  · subst h0
    rw [if_pos (show ((0 : Nat) : Int) = 0 from rfl), if_pos rfl]
    simp only [Bool.false_eq_true, if_false]
    by_cases hm0 : m = 0
    · subst hm0; rw [if_neg (by simp), or_fields _ _ _ (by norm_num) (by norm_num)]; simp
    · rw [if_pos hm0, or_fields _ _ _ (by norm_num) (by norm_num)]; omega
  rw [if_neg (show ¬ (e : Int) = 0 by omega), if_neg h0]
  by_cases h255 : e = 255
  · subst h255
    rw [if_pos (show ((255 : Nat) : Int) = 255 from rfl), if_pos rfl]
    simp only [Bool.false_eq_true, if_false]
    rw [or_fields _ _ _ (by norm_num) hdiv]; ring
  rw [if_neg (show ¬ (e : Int) = 255 by omega), if_neg h255]
  by_cases h143 : 143 < e
  · rw [if_pos (show (e : Int) - 127 + 15 > 31 by omega), if_pos h143]
    simp only [Bool.false_eq_true, if_false]
    rw [or_fields _ _ _ (by norm_num) hdiv]; ring
  rw [if_neg (show ¬ (e : Int) - 127 + 15 > 31 by omega), if_neg h143]
  by_cases h112 : e ≤ 112
  · rw [if_pos (show (e : Int) - 127 + 15 ≤ 0 by omega)]
    by_cases h102 : e ≤ 102
    · rw [if_pos (show (e : Int) - 127 + 15 ≤ -10 by omega), if_pos h102]
      simp only [Bool.false_eq_true, if_false]
      rw [or_fields _ _ _ (by norm_num) (by norm_num)]; omega
    · rw [if_neg (show ¬ (e : Int) - 127 + 15 ≤ -10 by omega), if_neg h102, if_pos h112]
      have hs : (1 - ((e : Int) - 127 + 15)).toNat = 113 - e := by omega
      simp only [hs, show 13 + (113 - e) = 126 - e by omega, show 126 - e - 1 = 125 - e by omega]
      have hlt : (2 ^ 23 + m) / 2 ^ (126 - e) < 1024 := by
        rw [Nat.div_lt_iff_lt_mul (by positivity)]
        calc 2 ^ 23 + m < 1024 * 2 ^ 14 := by omega
          _ ≤ 1024 * 2 ^ (126 - e) := Nat.mul_le_mul_left _ (Nat.pow_le_pow_right (by norm_num) (by omega))
      rw [or_fields _ _ _ (by norm_num) hlt]
      rcases Nat.mod_two_eq_zero_or_one ((2 ^ 23 + m) / 2 ^ (125 - e)) with h | h <;>
        simp only [h, decide_true, decide_false, Nat.zero_ne_one, if_true, if_false, Bool.false_eq_true] <;> omega
  · rw [if_neg (show ¬ (e : Int) - 127 + 15 ≤ 0 by omega), if_neg (show ¬ e ≤ 102 by omega), if_neg h112]
    have hs : ((e : Int) - 127 + 15).toNat = e - 112 := by omega
    simp only [hs]
    rw [or_fields _ _ _ (by omega) hdiv]
    rcases Nat.mod_two_eq_zero_or_one (m / 2 ^ 12) with h | h <;>
      simp only [h, decide_true, decide_false, Nat.zero_ne_one, if_true, if_false, Bool.false_eq_true] <;> omega

/-! ### Single precision survives widening to double precision and back -/

theorem rne_exact (v s : Nat) : rne (v * 2 ^ s) s = v := by
  unfold rne
  have h1 : v * 2 ^ s / 2 ^ s = v := Nat.mul_div_cancel _ (by positivity)
  have h2 : v * 2 ^ s % 2 ^ s = 0 := Nat.mul_mod_left _ _
  simp only [h1, h2]
  rw [if_neg]
  have : 0 < 2 ^ s := by positivity
  omega

theorem toNat_compose (s e m : Nat) (hs : s < 2) (he : e < 2048) (hm : m < 2 ^ 52) :
    (UInt64.ofNat (s * 2 ^ 63 + e * 2 ^ 52 + m)).toNat = s * 2 ^ 63 + e * 2 ^ 52 + m := by
  rw [UInt64.toNat_ofNat', Nat.mod_eq_of_lt]; omega

theorem packF32_compose (s e m : Nat) (hs : s < 2) (he : e < 2048) (hm : m < 2 ^ 52) :
    packF32 (UInt64.ofNat (s * 2 ^ 63 + e * 2 ^ 52 + m)) =
      if e = 2047 then
        if m = 0 then .ok (s * 2 ^ 31 + 255 * 2 ^ 23)
        else .ok (s * 2 ^ 31 + 255 * 2 ^ 23 + (m / 2 ^ 29 ||| 2 ^ 22))
      else
        let mag :=
          if 897 ≤ e then rne ((e - 896) * 2 ^ 52 + m) 29
          else if e = 0 then 0
          else rne (2 ^ 52 + m) (29 + (897 - e))
        if mag < 255 * 2 ^ 23 then .ok (s * 2 ^ 31 + mag) else .error .overflow := by
  unfold packF32
  rw [toNat_compose s e m hs he hm]
  have h1 : (s * 2 ^ 63 + e * 2 ^ 52 + m) / 2 ^ 63 = s := by omega
  have h2 : (s * 2 ^ 63 + e * 2 ^ 52 + m) / 2 ^ 52 % 2 ^ 11 = e := by omega
  have h3 : (s * 2 ^ 63 + e * 2 ^ 52 + m) % 2 ^ 52 = m := by omega
  simp only [h1, h2, h3]

theorem or_bit22_lt (m : Nat) (hm : m < 2 ^ 23) : m ||| 2 ^ 22 < 2 ^ 23 :=
  Nat.or_lt_two_pow hm (by norm_num)

/-- `float_to_uint32(uint32_to_float(y))`: a NaN becomes quiet, everything else is unchanged. -/
theorem pack_unpack (y : Nat) (hy : y < 2 ^ 32) :
    packF32 (unpackF32 y) = .ok (if expOf y = 255 ∧ manOf y ≠ 0 then
      sgnOf y * 2 ^ 31 + 255 * 2 ^ 23 + (manOf y ||| 2 ^ 22) else y) := by
  have hsplit := split32 y hy
  have hm : manOf y < 2 ^ 23 := Nat.mod_lt _ (by norm_num)
  have he : expOf y < 2 ^ 8 := Nat.mod_lt _ (by norm_num)
  have hs : sgnOf y < 2 := Nat.mod_lt _ (by norm_num)
  have hs' : y / 2 ^ 31 = sgnOf y := by unfold sgnOf; omega
  unfold unpackF32
  simp only [hs', show y / 2 ^ 23 % 2 ^ 8 = expOf y from rfl, show y % 2 ^ 23 = manOf y from rfl]
  generalize expOf y = e at *
  generalize manOf y = m at *
  generalize sgnOf y = s at *
  by_cases h255 : e = 255
  · subst h255
    rw [if_pos rfl]
    by_cases hm0 : m = 0
    · subst hm0
      rw [if_pos rfl]
      have := packF32_compose s 2047 0 hs (by norm_num) (by norm_num)
      rw [Nat.add_zero] at this
      rw [this, if_pos rfl, if_pos rfl, if_neg (by simp), hsplit]; simp
    · rw [if_neg hm0]
      have hlt := or_bit22_lt m hm
      rw [packF32_compose s 2047 _ hs (by norm_num) (by omega), if_pos rfl]
      have hne : (m ||| 2 ^ 22) ≠ 0 := by
        intro h; have := Nat.right_le_or (n := m) (m := 2 ^ 22); omega
      rw [if_neg (by positivity), Nat.mul_div_cancel _ (by positivity), if_pos ⟨rfl, hm0⟩]
      congr 2
      rw [Nat.or_assoc, Nat.or_self]
  · rw [if_neg h255]
    rw [if_neg (by tauto : ¬ (e = 255 ∧ m ≠ 0))]
    by_cases h0 : e = 0
    · subst h0
      rw [if_pos rfl]
      by_cases hm0 : m = 0
      · subst hm0
        rw [if_pos rfl]
        have := packF32_compose s 0 0 hs (by norm_num) (by norm_num)
        rw [Nat.zero_mul, Nat.add_zero, Nat.add_zero] at this
        rw [this, hsplit]; simp
      · rw [if_neg hm0]
        have hk1 : 2 ^ m.log2 ≤ m := Nat.log2_self_le hm0
        have hk2 : m < 2 ^ (m.log2 + 1) := Nat.lt_log2_self
        have hk : m.log2 < 23 := (Nat.log2_lt hm0).2 hm
        have hpow : 2 ^ m.log2 * 2 ^ (52 - m.log2) = 2 ^ 52 := by rw [← Nat.pow_add]; congr 1; omega
        have hlt : (m - 2 ^ m.log2) * 2 ^ (52 - m.log2) < 2 ^ 52 := by
          rw [← hpow]; apply Nat.mul_lt_mul_of_pos_right _ (by positivity)
          rw [Nat.pow_succ] at hk2; omega
        rw [packF32_compose s _ _ hs (by omega) hlt, if_neg (by omega)]
        simp only
        rw [if_neg (show ¬ 897 ≤ m.log2 + 874 by omega), if_neg (show ¬ m.log2 + 874 = 0 by omega)]
        have hsum : 2 ^ 52 + (m - 2 ^ m.log2) * 2 ^ (52 - m.log2) = m * 2 ^ (52 - m.log2) := by
          rw [← hpow, ← Nat.add_mul]; congr 1; omega
        rw [hsum, show 29 + (897 - (m.log2 + 874)) = 52 - m.log2 by omega, rne_exact, if_pos (by omega), hsplit]
        simp
    · rw [if_neg h0, packF32_compose s _ _ hs (by omega) (by omega), if_neg (by omega)]
      simp only
      rw [if_pos (show 897 ≤ e + 896 by omega)]
      have hsum : (e + 896 - 896) * 2 ^ 52 + m * 2 ^ 29 = (e * 2 ^ 23 + m) * 2 ^ 29 := by
        rw [Nat.add_sub_cancel]; ring
      rw [hsum, rne_exact, if_pos (by omega), hsplit]; simp [Nat.add_assoc]

/-! ### Half precision to single precision -/

/-- `f16ToF32` without the sign, in arithmetic form. -/
def widen16 (e m : Nat) : Nat :=
  if e = 0 then
    if m = 0 then 0 else (m.log2 + 103) * 2 ^ 23 + (m - 2 ^ m.log2) * 2 ^ (23 - m.log2)
  else if e = 31 then 255 * 2 ^ 23 + m * 2 ^ 13
  else (e + 112) * 2 ^ 23 + m * 2 ^ 13

/-- The normalisation loop on the 1023 subnormal significands (the whole domain). -/
theorem normalize_table : ∀ m : Fin 1024, m.1 ≠ 0 →
    (normalizeLoop 23 113 (m.1 <<< 13)).1 = m.1.log2 + 103 ∧
    (normalizeLoop 23 113 (m.1 <<< 13)).2 &&& 0x007FFFFF = (m.1 - 2 ^ m.1.log2) * 2 ^ (23 - m.1.log2) ∧
    (m.1 - 2 ^ m.1.log2) * 2 ^ (23 - m.1.log2) < 2 ^ 23 := by decide +kernel

theorem and_7C00 (v : Nat) : (v &&& 0x7C00) >>> 10 = v / 2 ^ 10 % 2 ^ 5 := by
  rw [Nat.shiftRight_and_distrib, Nat.shiftRight_eq_div_pow, show (0x7C00 >>> 10 : Nat) = 2 ^ 5 - 1 from rfl,
    Nat.and_two_pow_sub_one_eq_mod]

theorem and_3FF (v : Nat) : v &&& 0x03FF = v % 2 ^ 10 := by
  rw [show (0x03FF : Nat) = 2 ^ 10 - 1 from rfl, Nat.and_two_pow_sub_one_eq_mod]

theorem and_8000 (v : Nat) : (v &&& 0x8000) <<< 16 = (v / 2 ^ 15 % 2) <<< 31 := by
  have h : v &&& 0x8000 = (v / 2 ^ 15 % 2) <<< 15 := by
    have : (v / 2 ^ 15 % 2) = (v >>> 15) &&& 1 := by
      rw [Nat.shiftRight_eq_div_pow, show (1 : Nat) = 2 ^ 1 - 1 from rfl, Nat.and_two_pow_sub_one_eq_mod]
    rw [this]
    apply Nat.eq_of_testBit_eq
    intro i
    rw [Nat.testBit_and, Nat.testBit_shiftLeft, Nat.testBit_and, Nat.testBit_shiftRight,
      show (0x8000 : Nat) = 2 ^ 15 from rfl, Nat.testBit_two_pow]
    by_cases hi : 15 = i
    · subst hi; simp
    · simp only [hi, decide_false, Bool.and_false]
      by_cases h2 : 15 ≤ i
      · have : Nat.testBit 1 (i - 15) = false := by
          rw [show (1 : Nat) = 2 ^ 0 from rfl, Nat.testBit_two_pow]; simp; omega
        simp [this]
      · simp [h2]
  rw [h, ← Nat.shiftLeft_add]

theorem or_fields32 (s e m : Nat) (he : e < 256) (hm : m < 2 ^ 23) :
    (s <<< 31 ||| e <<< 23 ||| m) = s * 2 ^ 31 + (e * 2 ^ 23 + m) := by
  have h2 : (s <<< 31 ||| e <<< 23) = (s <<< 8 + e) <<< 23 := by
    rw [Nat.shiftLeft_add_eq_or_of_lt (by omega : e < 2 ^ 8), Nat.shiftLeft_or_distrib, ← Nat.shiftLeft_add]
  rw [h2, ← Nat.shiftLeft_add_eq_or_of_lt hm, Nat.shiftLeft_eq, Nat.shiftLeft_eq]; ring

theorem f16ToF32_eq (v : Nat) :
    f16ToF32 v = (v / 2 ^ 15 % 2) * 2 ^ 31 + widen16 (v / 2 ^ 10 % 2 ^ 5) (v % 2 ^ 10) := by
  unfold f16ToF32 widen16
  have hm : v % 2 ^ 10 < 1024 := Nat.mod_lt _ (by norm_num)
  have he : v / 2 ^ 10 % 2 ^ 5 < 32 := Nat.mod_lt _ (by norm_num)
  simp only [and_7C00, and_3FF, show (31 - 15 : Nat) = 16 from rfl, show (23 - 10 : Nat) = 13 from rfl,
    show (1 + 127 - 15 : Nat) = 113 from rfl, and_8000]
  generalize v / 2 ^ 10 % 2 ^ 5 = e at *
  generalize v / 2 ^ 15 % 2 = s at *
  generalize v % 2 ^ 10 = m at *
  have hsh : m <<< 13 = m * 2 ^ 13 := Nat.shiftLeft_eq _ _
  by_cases h0 : e = 0
  · subst h0
    rw [if_pos rfl, if_pos rfl]
    by_cases hm0 : m = 0
    · subst hm0
      rw [if_neg (by simp), if_pos rfl]
      simp only [Nat.zero_shiftLeft, Nat.or_zero]
      simp only [Nat.shiftLeft_eq, Nat.add_zero]
    · rw [if_pos (by rw [hsh]; positivity), if_neg hm0]
      obtain ⟨h1, h2, h3⟩ := normalize_table ⟨m, hm⟩ hm0
      simp only at h1 h2 h3
      simp only [h1, h2]
      have hk : m.log2 < 10 := (Nat.log2_lt hm0).2 hm
      rw [or_fields32 _ _ _ (by omega) h3]
  · rw [if_neg h0, if_neg h0]
    by_cases h31 : e = 31
    · rw [if_pos h31, if_pos h31]
      simp only [hsh]
      rw [or_fields32 _ _ _ (by omega) (by omega)]
    · rw [if_neg h31, if_neg h31]
      simp only [hsh]
      rw [or_fields32 _ _ _ (by omega) (by omega)]
      omega

theorem widen16_lt (e m : Nat) (he : e < 32) (hm : m < 1024) : widen16 e m < 2 ^ 31 := by
  unfold widen16
  by_cases h0 : e = 0
  · rw [if_pos h0]
    by_cases hm0 : m = 0
    · rw [if_pos hm0]; norm_num
    · rw [if_neg hm0]
      have h3 := (normalize_table ⟨m, hm⟩ hm0).2.2
      simp only at h3
      have hk : m.log2 < 10 := (Nat.log2_lt hm0).2 hm
      omega
  · rw [if_neg h0]
    split <;> omega

/-- exponent and significand of the widened pattern -/
theorem widen16_fields (s e m : Nat) (hs : s < 2) (he : e < 32) (hm : m < 1024) :
    let y := s * 2 ^ 31 + widen16 e m
    sgnOf y = s ∧
    expOf y = (if e = 0 then (if m = 0 then 0 else m.log2 + 103) else if e = 31 then 255 else e + 112) ∧
    manOf y = (if e = 0 then (if m = 0 then 0 else (m - 2 ^ m.log2) * 2 ^ (23 - m.log2)) else m * 2 ^ 13) ∧
    y < 2 ^ 32 := by
  have hlt := widen16_lt e m he hm
  refine ⟨by unfold sgnOf; omega, ?_, ?_, by omega⟩
  · unfold expOf widen16
    by_cases h0 : e = 0
    · rw [if_pos h0, if_pos h0]
      by_cases hm0 : m = 0
      · rw [if_pos hm0, if_pos hm0]; omega
      · rw [if_neg hm0, if_neg hm0]
        have h3 := (normalize_table ⟨m, hm⟩ hm0).2.2
        simp only at h3
        have hk : m.log2 < 10 := (Nat.log2_lt hm0).2 hm
        omega
    · rw [if_neg h0, if_neg h0]
      split <;> omega
  · unfold manOf widen16
    by_cases h0 : e = 0
    · rw [if_pos h0, if_pos h0]
      by_cases hm0 : m = 0
      · rw [if_pos hm0, if_pos hm0]; omega
      · rw [if_neg hm0, if_neg hm0]
        have h3 := (normalize_table ⟨m, hm⟩ hm0).2.2
        simp only at h3
        omega
    · rw [if_neg h0, if_neg h0]
      split <;> omega

/-- Narrowing undoes widening, on magnitudes. -/
theorem half16_widen16_sub : ∀ m : Fin 1024, m.1 ≠ 0 →
    half16 (m.1.log2 + 103) ((m.1 - 2 ^ m.1.log2) * 2 ^ (23 - m.1.log2)) = m.1 := by decide +kernel

/-- `f32ToF16` undoes `f16ToF32`. -/
theorem f32ToF16_f16ToF32 (v : Nat) (hv : v < 2 ^ 16) : f32ToF16 (f16ToF32 v) = v := by
  have hm : v % 2 ^ 10 < 1024 := Nat.mod_lt _ (by norm_num)
  have he : v / 2 ^ 10 % 2 ^ 5 < 32 := Nat.mod_lt _ (by norm_num)
  have hs : v / 2 ^ 15 % 2 < 2 := Nat.mod_lt _ (by norm_num)
  have hsplit : v = (v / 2 ^ 15 % 2) * 2 ^ 15 + ((v / 2 ^ 10 % 2 ^ 5) * 2 ^ 10 + v % 2 ^ 10) := by omega
  rw [f16ToF32_eq]
  obtain ⟨h1, h2, h3, h4⟩ := widen16_fields _ _ _ hs he hm
  rw [f32ToF16_eq, h1, h2, h3]
  generalize v / 2 ^ 10 % 2 ^ 5 = e at *
  generalize v / 2 ^ 15 % 2 = s at *
  generalize v % 2 ^ 10 = m at *
  rw [hsplit]
  congr 1
  by_cases h0 : e = 0
  · simp only [if_pos h0]
    by_cases hm0 : m = 0
    · simp only [if_pos hm0]; subst h0 hm0; rfl
    · simp only [if_neg hm0]
      have := half16_widen16_sub ⟨m, hm⟩ hm0
      simp only at this
      rw [this]; omega
  · simp only [if_neg h0]
    unfold half16
    by_cases h31 : e = 31
    · simp only [if_pos h31]
      rw [if_neg (by norm_num), if_pos trivial, Nat.mul_div_cancel _ (by norm_num)]; omega
    · simp only [if_neg h31]
      rw [if_neg (by omega), if_neg (by omega), if_neg (by omega), if_neg (by omega), if_neg (by omega)]
      omega

end Zserio
