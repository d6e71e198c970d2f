import Verif.Lemmas.VarSize
set_option linter.unusedSimpArgs false
namespace Zserio

theorem bits_next (x : Nat) : natBits 8 (128 ||| (x &&& 127)) = true :: natBits 7 x := by
  simp [natBits, Nat.testBit_or, Nat.testBit_and,
    show Nat.testBit 128 7 = true by decide, show Nat.testBit 127 7 = false by decide,
    show Nat.testBit 128 6 = false by decide, show Nat.testBit 127 6 = true by decide,
    show Nat.testBit 128 5 = false by decide, show Nat.testBit 127 5 = true by decide,
    show Nat.testBit 128 4 = false by decide, show Nat.testBit 127 4 = true by decide,
    show Nat.testBit 128 3 = false by decide, show Nat.testBit 127 3 = true by decide,
    show Nat.testBit 128 2 = false by decide, show Nat.testBit 127 2 = true by decide,
    show Nat.testBit 128 1 = false by decide, show Nat.testBit 127 1 = true by decide,
    show Nat.testBit 128 0 = false by decide, show Nat.testBit 127 0 = true by decide, -Nat.testBit_zero]

theorem natBits_succ_and (n x : Nat) : natBits (n + 1) (x &&& (2 ^ n - 1)) = false :: natBits n x := by
  rw [Nat.and_two_pow_sub_one_eq_mod, natBits, natBits_mod]
  simp [Nat.testBit_mod_two_pow]

theorem natBits_succ_or (n x : Nat) (y : Nat) (h : y < 2 ^ n) :
    natBits (n + 1) (2 ^ n ||| y) = true :: natBits n y := by
  rw [natBits]
  congr 1
  · simp [Nat.testBit_or, Nat.testBit_two_pow_self]
  · apply natBits_ext
    intro i hi
    simp [Nat.testBit_or, Nat.testBit_two_pow_of_ne (show n ≠ i by omega)]

namespace Writer

theorem emits_byte (b p : Nat) (h : b < 256) : Emits (writeBitsUnchecked (b : Int) 8) p (natBits 8 b) () :=
  emits_writeBitsUnchecked b 8 p (by simpa using h)

theorem or_lt_256 {a b : Nat} (ha : a < 256) (hb : b < 256) : a ||| b < 256 :=
  Nat.or_lt_two_pow (n := 8) ha hb

theorem and_lt_256 {a b : Nat} (hb : b < 256) : a &&& b < 256 :=
  lt_of_le_of_lt Nat.and_le_right hb

/-- The bytes after the first one (or all bytes of an unsigned type). -/
theorem emits_varnumLoop_tail (v : Int) (maxB n : Nat) (signed : Bool) (r i p : Nat) (hi : i + r = n)
    (hs : signed = false ∨ 0 < i) :
    Emits (writeVarnumLoop v maxB n signed (List.range' i r)) p
      (varGroups (decide (n = maxB)) r
        (natBits (7 * r + (if n = maxB then 1 else 0)) v.natAbs)) () := by
  induction r generalizing i p with
  | zero => exact emits_pure () p
  | succ r ih =>
    have hsign : (signed && i == 0) = false := by
      rcases hs with h | h
      · simp [h]
      · simp; intro _; omega
    rw [List.range'_succ, writeVarnumLoop]
    cases r with
    | zero =>
      -- last byte
      have hnext : decide (i + 1 < n) = false := by simp; omega
      have hshift : n - (i + 1) = 0 := by omega
      by_cases hm : n = maxB
      · have hb : varnumByte v maxB n i signed = v.natAbs &&& 255 := by
          have : (n == maxB) = true := by simp [hm]
          simp [varnumByte, hsign, hnext, hshift, this, VAR_NUM_BIT_MASKS]
        have he : varGroups (decide (n = maxB)) (0 + 1)
            (natBits (7 * (0 + 1) + (if n = maxB then 1 else 0)) v.natAbs) = natBits 8 (v.natAbs &&& 255) ++ [] := by
          simp only [hm, decide_true, varGroups, if_true, List.append_nil]
          rw [show (255 : Nat) = 2 ^ 8 - 1 by rfl, Nat.and_two_pow_sub_one_eq_mod, natBits_mod]
        rw [he, hb]
        exact (emits_byte _ _ (and_lt_256 (by omega))).bind (emits_pure () _)
      · have hb : varnumByte v maxB n i signed = v.natAbs &&& 127 := by
          have : (n == maxB) = false := by simp [hm]
          simp [varnumByte, hsign, hnext, hshift, this, VAR_NUM_BIT_MASKS]
        have he : varGroups (decide (n = maxB)) (0 + 1)
            (natBits (7 * (0 + 1) + (if n = maxB then 1 else 0)) v.natAbs) = natBits 8 (v.natAbs &&& 127) ++ [] := by
          simp only [hm, decide_false, varGroups, if_false, List.append_nil, Bool.false_eq_true]
          rw [show (127 : Nat) = 2 ^ 7 - 1 by rfl, natBits_succ_and]
        rw [he, hb]
        exact (emits_byte _ _ (and_lt_256 (by omega))).bind (emits_pure () _)
    | succ r =>
      have hnext : decide (i + 1 < n) = true := by simp; omega
      set rest := 7 * (r + 1) + (if n = maxB then 1 else 0) with hrest
      have hshift : (n - (i + 1)) * 7 + (if ((n == maxB) && true) = true then 1 else 0) = rest := by
        rw [hrest]
        have : n - (i + 1) = r + 1 := by omega
        rw [this]
        by_cases hm : n = maxB <;> simp [hm] <;> omega
      have hb : varnumByte v maxB n i signed = 128 ||| ((v.natAbs >>> rest) &&& 127) := by
        simp only [varnumByte, hsign, hnext, Bool.false_eq_true, if_false, if_true, hshift, VAR_NUM_BIT_MASKS]
        simp
      have he : varGroups (decide (n = maxB)) (r + 1 + 1)
          (natBits (7 * (r + 1 + 1) + (if n = maxB then 1 else 0)) v.natAbs) =
          natBits 8 (128 ||| ((v.natAbs >>> rest) &&& 127)) ++
            varGroups (decide (n = maxB)) (r + 1) (natBits rest v.natAbs) := by
        rw [bits_next, show 7 * (r + 1 + 1) + (if n = maxB then 1 else 0) = 7 + rest by rw [hrest]; omega,
          varGroups, natBits_add]
        rw [List.take_append_of_le_length (by simp), List.drop_append_of_le_length (by simp),
          List.take_of_length_le (by simp), List.drop_of_length_le (by simp)]
        simp
      rw [he, hb]
      refine (emits_byte _ _ (or_lt_256 (by omega) (and_lt_256 (by omega)))).bind ?_
      exact ih (i + 1) _ (by omega) (Or.inr (by omega))

theorem bits_sign_last (neg : Bool) (x : Nat) :
    natBits 8 ((if neg then 128 else 0) ||| (x &&& 63)) = neg :: false :: natBits 6 x := by
  have h : x &&& 63 < 2 ^ 7 := lt_of_le_of_lt Nat.and_le_right (by decide)
  cases neg with
  | false =>
    simp only [Bool.false_eq_true, if_false, Nat.zero_or]
    rw [natBits, show natBits 7 (x &&& 63) = false :: natBits 6 x from natBits_succ_and 6 x,
      Nat.testBit_lt_two_pow h]
  | true =>
    simp only [if_true]
    rw [show (128 : Nat) = 2 ^ 7 by rfl, natBits_succ_or 7 0 _ h,
      show natBits 7 (x &&& 63) = false :: natBits 6 x from natBits_succ_and 6 x]

theorem bits_sign_next (neg : Bool) (x : Nat) :
    natBits 8 ((if neg then 128 else 0) ||| 64 ||| (x &&& 63)) = neg :: true :: natBits 6 x := by
  have h0 : x &&& 63 < 2 ^ 6 := lt_of_le_of_lt Nat.and_le_right (by decide)
  have h : 64 ||| (x &&& 63) < 2 ^ 7 := Nat.or_lt_two_pow (by decide) (lt_trans h0 (by decide))
  have h7 : natBits 7 (64 ||| (x &&& 63)) = true :: natBits 6 x := by
    rw [show (64 : Nat) = 2 ^ 6 by rfl, natBits_succ_or 6 0 _ h0, show (63 : Nat) = 2 ^ 6 - 1 by rfl,
      Nat.and_two_pow_sub_one_eq_mod, natBits_mod]
  cases neg with
  | false =>
    simp only [Bool.false_eq_true, if_false, Nat.zero_or]
    rw [natBits, h7, Nat.testBit_lt_two_pow h]
  | true =>
    simp only [if_true]
    rw [Nat.or_assoc, show (128 : Nat) = 2 ^ 7 by rfl, natBits_succ_or 7 0 _ h, h7]

theorem emits_varnum_unsigned (v : Int) (maxB n p : Nat) :
    Emits (writeVarnum v maxB n false) p
      (varGroups (decide (n = maxB)) n (natBits (7 * n + (if n = maxB then 1 else 0)) v.natAbs)) () := by
  unfold writeVarnum
  rw [List.range_eq_range']
  exact emits_varnumLoop_tail v maxB n false n 0 p (by omega) (Or.inl rfl)

theorem emits_varnum_signed (v : Int) (maxB n p : Nat) (hn : 0 < n) (hm : 1 < maxB) :
    Emits (writeVarnum v maxB n true) p
      (varGroupsSigned (decide (n = maxB)) (decide (v < 0)) n
        (natBits (7 * n - 1 + (if n = maxB then 1 else 0)) v.natAbs)) () := by
  unfold writeVarnum
  rw [List.range_eq_range']
  obtain ⟨r, rfl⟩ : ∃ r, n = r + 1 := ⟨n - 1, by omega⟩
  rw [List.range'_succ, writeVarnumLoop]
  cases r with
  | zero =>
    have hmax : (0 + 1 == maxB) = false := by simp; omega
    have hb : varnumByte v maxB (0 + 1) 0 true = (if decide (v < 0) then 128 else 0) ||| (v.natAbs &&& 63) := by
      simp [varnumByte, hmax, VAR_NUM_BIT_MASKS]
    have hne : ¬ (0 + 1 = maxB) := by omega
    have he : varGroupsSigned (decide (0 + 1 = maxB)) (decide (v < 0)) (0 + 1)
        (natBits (7 * (0 + 1) - 1 + (if 0 + 1 = maxB then 1 else 0)) v.natAbs) =
        natBits 8 ((if decide (v < 0) then 128 else 0) ||| (v.natAbs &&& 63)) ++ [] := by
      rw [bits_sign_last, if_neg hne]
      simp [varGroupsSigned]
    rw [he, hb]
    exact (emits_byte _ _ (or_lt_256 (by split <;> omega) (and_lt_256 (by omega)))).bind (emits_pure () _)
  | succ r =>
    set rest := 7 * (r + 1) + (if r + 1 + 1 = maxB then 1 else 0) with hrest
    have hshift : (r + 1 + 1 - (0 + 1)) * 7 + (if ((r + 1 + 1 == maxB) && decide (0 + 1 < r + 1 + 1)) = true then 1 else 0)
        = rest := by
      rw [hrest]
      have h2 : decide (0 + 1 < r + 1 + 1) = true := by simp
      rw [h2]
      by_cases hm : r + 1 + 1 = maxB
      · have : (r + 1 + 1 == maxB) = true := by simp [hm]
        rw [this, if_pos hm]; simp; omega
      · have : (r + 1 + 1 == maxB) = false := by simp [hm]
        rw [this, if_neg hm]; simp; omega
    have hb : varnumByte v maxB (r + 1 + 1) 0 true =
        (if decide (v < 0) then 128 else 0) ||| 64 ||| ((v.natAbs >>> rest) &&& 63) := by
      simp only [varnumByte, hshift, VAR_NUM_BIT_MASKS]
      simp
    have he : varGroupsSigned (decide (r + 1 + 1 = maxB)) (decide (v < 0)) (r + 1 + 1)
        (natBits (7 * (r + 1 + 1) - 1 + (if r + 1 + 1 = maxB then 1 else 0)) v.natAbs) =
        natBits 8 ((if decide (v < 0) then 128 else 0) ||| 64 ||| ((v.natAbs >>> rest) &&& 63)) ++
          varGroups (decide (r + 1 + 1 = maxB)) (r + 1) (natBits rest v.natAbs) := by
      rw [bits_sign_next, show 7 * (r + 1 + 1) - 1 + (if r + 1 + 1 = maxB then 1 else 0) = 6 + rest by rw [hrest]; omega,
        varGroupsSigned, natBits_add]
      rw [List.take_append_of_le_length (by simp), List.drop_append_of_le_length (by simp),
        List.take_of_length_le (by simp), List.drop_of_length_le (by simp)]
      simp
    rw [he, hb]
    refine (emits_byte _ _ (or_lt_256 (or_lt_256 (by split <;> omega) (by omega)) (and_lt_256 (by omega)))).bind ?_
    exact emits_varnumLoop_tail v maxB (r + 1 + 1) true (r + 1) 1 _ (by omega) (Or.inr (by omega))

theorem numBytes_spec (t : VarType) (v : Int) (h : t.InRange v) (h' : ¬ (t = .varint ∧ v = -(2 ^ 63))) :
    0 < t.numBytes v ∧ t.numBytes v ≤ t.maxBytes ∧ v.natAbs < 2 ^ t.capacity (t.numBytes v) ∧
      ∀ m, 0 < m → m < t.numBytes v → 2 ^ t.capacity m ≤ v.natAbs := by
  have hs : ((List.range' 1 t.maxBytes).find? (fun n => decide (v.natAbs < 2 ^ t.capacity n))).isSome := by
    rw [find_isSome_iff]
    cases t <;> simp only [VarType.InRange, VarType.lo, VarType.hi, VarType.capacity, VarType.maxBytes,
      VarType.signed] at * <;> norm_num at * <;> omega
  rw [numBytes_def]
  obtain ⟨n, hn⟩ := Option.isSome_iff_exists.mp hs
  rw [hn, Option.getD_some]
  have h1 := List.find?_some hn
  have h2 := List.mem_of_find?_eq_some hn
  rw [List.mem_range'_1] at h2
  refine ⟨by omega, by omega, by simpa using h1, ?_⟩
  intro m hm hmn
  rw [List.find?_range'_eq_some] at hn
  have := hn.2.2 m (by omega) hmn
  simpa using this

/-- Every variable-length write appends the specified representation or raises without effect. -/
theorem emits_writeVar (t : VarType) (v : Int) (p : Nat) (h : t.InRange v) :
    Emits (writeVar t v) p (t.encode v) () := by
  have hsize := bitsizeofVar_eq t v
  rw [if_pos h] at hsize
  have hU : ∀ t : VarType, t.signed = false → ¬ t = .varint → t.InRange v → bitsizeofVar t v = .ok (8 * t.numBytes v) →
      Emits (M.lift (bitsizeofVar t v) >>= fun n => writeVarnum v t.maxBytes (n / 8) false) p (t.encode v) () := by
    intro t ht hv _ hb
    refine emits_lift_bind hb ?_
    have := emits_varnum_unsigned v t.maxBytes (t.numBytes v) p
    rw [show 8 * t.numBytes v / 8 = t.numBytes v by omega]
    convert this using 1
    simp only [VarType.encode, hv, false_and, if_false, ht, Bool.false_eq_true, VarType.capacity, Nat.sub_zero]
  have hS : ∀ t : VarType, t.signed = true → ¬ (t = .varint ∧ v = -(2 ^ 63)) → t.InRange v →
      bitsizeofVar t v = .ok (8 * t.numBytes v) →
      Emits (M.lift (bitsizeofVar t v) >>= fun n => writeVarnum v t.maxBytes (n / 8) true) p (t.encode v) () := by
    intro t ht hv hr hb
    refine emits_lift_bind hb ?_
    have := emits_varnum_signed v t.maxBytes (t.numBytes v) p (numBytes_spec t v hr hv).1
      (by cases t <;> simp [VarType.maxBytes])
    rw [show 8 * t.numBytes v / 8 = t.numBytes v by omega]
    convert this using 1
    simp only [VarType.encode, hv, if_false, ht, if_true, VarType.capacity]
  cases t with
  | varint16 => exact hS .varint16 rfl (by simp) h (by simpa using hsize)
  | varint32 => exact hS .varint32 rfl (by simp) h (by simpa using hsize)
  | varint64 => exact hS .varint64 rfl (by simp) h (by simpa using hsize)
  | varint =>
    by_cases hv : v = -(2 ^ 63)
    · have hI : v = INT64_MIN := hv
      simp only [writeVar, writeVarint]
      rw [if_pos hI]
      have : VarType.varint.encode v = intBits 8 0x80 := by rw [hv]; decide
      rw [this]
      exact emits_writeRaw _ _ _ _ (by simp)
    · have hI : ¬ v = INT64_MIN := hv
      simp only [writeVar, writeVarint]
      rw [if_neg hI]
      exact hS .varint rfl (by simpa using hv) h (by rw [hsize, if_neg (fun h => hv h.2)])
  | varuint16 => exact hU .varuint16 rfl (by simp) h (by simpa using hsize)
  | varuint32 => exact hU .varuint32 rfl (by simp) h (by simpa using hsize)
  | varuint64 => exact hU .varuint64 rfl (by simp) h (by simpa using hsize)
  | varuint => exact hU .varuint rfl (by simp) h (by simpa using hsize)
  | varsize => exact hU .varsize rfl (by simp) h (by simpa using hsize)

theorem fails_writeVar (t : VarType) (v : Int) (p : Nat) (h : ¬ t.InRange v) :
    Fails (writeVar t v) p .varRange := by
  have hsize := bitsizeofVar_eq t v
  rw [if_neg h] at hsize
  cases t with
  | varint =>
    have hI : ¬ v = INT64_MIN := by
      rintro rfl; exact h (by decide)
    simp only [writeVar, writeVarint]
    rw [if_neg hI]
    exact fails_lift_bind hsize
  | _ => exact fails_lift_bind hsize

end Writer
end Zserio
