import Verif.Lemmas.Reader
set_option linter.unusedSimpArgs false
namespace Zserio

theorem and_pow_eq (x i : Nat) : x &&& 2 ^ i = if x.testBit i then 2 ^ i else 0 := by
  apply Nat.eq_of_testBit_eq
  intro j
  rw [Nat.testBit_and, Nat.testBit_two_pow]
  by_cases h : i = j
  · subst h
    cases hx : x.testBit i <;> simp
  · split <;> simp [h, Nat.testBit_two_pow]

theorem and_pow_eq_zero_iff (x i : Nat) : x &&& 2 ^ i = 0 ↔ x.testBit i = false := by
  rw [and_pow_eq]
  cases x.testBit i <;> simp

theorem byte_flag7 (b : Bool) (l : List Bool) (h : l.length = 7) : (bitsVal (b :: l) &&& 0x80 = 0) ↔ b = false := by
  rw [show (0x80 : Nat) = 2 ^ 7 by rfl, and_pow_eq_zero_iff, bitsVal_testBit _ _ (by simp [h])]
  simp [h]

theorem byte_low7 (b : Bool) (l : List Bool) (h : l.length = 7) : bitsVal (b :: l) &&& 0x7F = bitsVal l := by
  rw [show (0x7F : Nat) = 2 ^ 7 - 1 by rfl, Nat.and_two_pow_sub_one_eq_mod, bitsVal_mod _ _ (by simp [h])]
  simp [h]

theorem byte_flag6 (b c : Bool) (l : List Bool) (h : l.length = 6) :
    (bitsVal (b :: c :: l) &&& 0x40 = 0) ↔ c = false := by
  rw [show (0x40 : Nat) = 2 ^ 6 by rfl, and_pow_eq_zero_iff, bitsVal_testBit _ _ (by simp [h])]
  simp [h]

theorem byte_low6 (b c : Bool) (l : List Bool) (h : l.length = 6) : bitsVal (b :: c :: l) &&& 0x3F = bitsVal l := by
  rw [show (0x3F : Nat) = 2 ^ 6 - 1 by rfl, Nat.and_two_pow_sub_one_eq_mod, bitsVal_mod _ _ (by simp [h])]
  simp [h]

theorem shiftLeft_or_eq (a n x : Nat) (h : x < 2 ^ n) : a <<< n ||| x = a * 2 ^ n + x := by
  rw [← Nat.shiftLeft_add_eq_or_of_lt h, Nat.shiftLeft_eq]

theorem join_mod (acc v rest : Nat) :
    (acc * 2 ^ 7 + (v >>> rest) % 2 ^ 7) * 2 ^ rest + v % 2 ^ rest = acc * 2 ^ (7 + rest) + v % 2 ^ (7 + rest) := by
  have h := Nat.mod_mul (x := v) (a := 2 ^ rest) (b := 2 ^ 7)
  rw [Nat.shiftRight_eq_div_pow, Nat.add_comm 7 rest, pow_add, h]
  ring

theorem join_mod6 (v rest : Nat) :
    ((v >>> rest) % 2 ^ 6) * 2 ^ rest + v % 2 ^ rest = v % 2 ^ (6 + rest) := by
  have h := Nat.mod_mul (x := v) (a := 2 ^ rest) (b := 2 ^ 6)
  rw [Nat.shiftRight_eq_div_pow, Nat.add_comm 6 rest, pow_add, h]
  ring

namespace Reader

/-- Read a byte whose bits are known and continue. -/
theorem Parses.byte_bind {β : Type} {f : Nat → M Reader β} {p : Nat} {bs bs' s : List Bool} {b : β}
    (hl : bs.length = 8) (h' : Parses (f (bitsVal bs)) (p + 8) bs' s b) :
    Parses (readBitsUnchecked 8 >>= f) p (bs ++ bs') s b :=
  (parses_readBitsUnchecked' bs 8 p (bs' ++ s) hl).bind (by rwa [hl])

theorem parses_varTail (isMax : Bool) (v : Nat) (s : List Bool) (k r acc p : Nat)
    (h1 : isMax = true → r = k + 1) (h2 : isMax = false → 1 ≤ r ∧ r ≤ k) :
    Parses (readVarTail k acc) p (varGroups isMax r (natBits (7 * r + (if isMax then 1 else 0)) v)) s
      (acc * 2 ^ (7 * r + (if isMax then 1 else 0)) + v % 2 ^ (7 * r + (if isMax then 1 else 0))) := by
  induction k generalizing r acc p with
  | zero =>
    cases isMax with
    | false => have := h2 rfl; omega
    | true =>
      obtain rfl : r = 1 := h1 rfl
      simp only [if_true, varGroups]
      have h := Parses.byte_bind (f := fun byte => (pure (acc <<< 8 ||| byte) : M Reader Nat)) (p := p) (s := s)
        (bs := natBits 8 v) (bs' := []) (by simp) (parses_pure _ _ _)
      rw [bitsVal_natBits, shiftLeft_or_eq _ _ _ (Nat.mod_lt _ (by positivity)), List.append_nil] at h
      exact h
  | succ k ih =>
    match r with
    | 0 => cases isMax with
      | false => have := h2 rfl; omega
      | true => have := h1 rfl; omega
    | 1 =>
      cases isMax with
      | true => have := h1 rfl; omega
      | false =>
        simp only [if_false, varGroups, Bool.false_eq_true]
        have hl : (false :: natBits (7 * 1 + 0) v).length = 8 := by simp
        have h := Parses.byte_bind (f := fun byte => do
            let result := acc <<< 7 ||| (byte &&& 0x7F)
            if byte &&& 0x80 = 0 then pure result else readVarTail k result)
          (p := p) (s := s) (bs := false :: natBits 7 v) (bs' := [])
          (b := acc * 2 ^ (7 * 1 + 0) + v % 2 ^ (7 * 1 + 0)) (by simp) (by
            simp only
            rw [if_pos ((byte_flag7 _ _ (by simp)).mpr rfl), byte_low7 _ _ (by simp), bitsVal_natBits,
              shiftLeft_or_eq _ _ _ (Nat.mod_lt _ (by positivity))]
            exact parses_pure _ _ _)
        rw [List.append_nil] at h
        exact h
    | r + 2 =>
      set rest := 7 * (r + 1) + (if isMax then 1 else 0) with hrest
      have hT : 7 * (r + 2) + (if isMax then 1 else 0) = 7 + rest := by rw [hrest]; omega
      rw [hT]
      have he : varGroups isMax (r + 2) (natBits (7 + rest) v) =
          (true :: natBits 7 (v >>> rest)) ++ varGroups isMax (r + 1) (natBits rest v) := by
        rw [varGroups, natBits_add]
        rw [List.take_append_of_le_length (by simp), List.drop_append_of_le_length (by simp),
          List.take_of_length_le (by simp), List.drop_of_length_le (by simp)]
        simp
      rw [he]
      refine Parses.byte_bind (by simp) ?_
      simp only
      rw [if_neg (by rw [byte_flag7 _ _ (by simp)]; simp), byte_low7 _ _ (by simp), bitsVal_natBits,
        shiftLeft_or_eq _ _ _ (Nat.mod_lt _ (by positivity)), ← join_mod]
      have := ih (r + 1) (acc * 2 ^ 7 + (v >>> rest) % 2 ^ 7) (p + 8) (by intro h; have := h1 h; omega)
        (by intro h; have := h2 h; omega)
      exact this

theorem parses_varUnsigned (isMax : Bool) (v : Nat) (s : List Bool) (k n p : Nat)
    (h1 : isMax = true → n = k + 2) (h2 : isMax = false → 1 ≤ n ∧ n ≤ k + 1) :
    Parses (readVarUnsigned k) p (varGroups isMax n (natBits (7 * n + (if isMax then 1 else 0)) v)) s
      (v % 2 ^ (7 * n + (if isMax then 1 else 0))) := by
  -- the first byte is treated exactly as a continuation byte with accumulator 0
  have : readVarUnsigned k = readVarTail (k + 1) 0 := by
    unfold readVarUnsigned
    conv => rhs; unfold readVarTail
    simp
  rw [this]
  have := parses_varTail isMax v s (k + 1) n 0 p (fun h => by have := h1 h; omega) (fun h => by have := h2 h; omega)
  simpa using this

theorem parses_varSigned_body (neg isMax : Bool) (v : Nat) (s : List Bool) (k n p : Nat) {β : Type}
    (single : Nat → Nat → β) (multi : Nat → Nat → β)
    (h1 : isMax = true → n = k + 2) (h2 : isMax = false → 1 ≤ n ∧ n ≤ k + 1) :
    Parses (do
        let byte ← readBitsUnchecked 8
        let sign := byte &&& 0x80
        let result := byte &&& 0x3F
        if byte &&& 0x40 = 0 then pure (single sign result)
        else do
          let result ← readVarTail k result
          pure (multi sign result)) p
      (varGroupsSigned isMax neg n (natBits (7 * n - 1 + (if isMax then 1 else 0)) v)) s
      ((if n = 1 then single else multi) (if neg then 128 else 0) (v % 2 ^ (7 * n - 1 + (if isMax then 1 else 0)))) := by
  have hsign : ∀ (c : Bool) (l : List Bool), l.length = 6 → bitsVal (neg :: c :: l) &&& 0x80 = if neg then 128 else 0 := by
    intro c l hl
    rw [show (0x80 : Nat) = 2 ^ 7 by rfl, and_pow_eq, bitsVal_testBit _ _ (by simp [hl])]
    simp [hl]
  match n with
  | 0 => cases isMax with
    | false => have := h2 rfl; omega
    | true => have := h1 rfl; omega
  | 1 =>
    cases isMax with
    | true => have := h1 rfl; omega
    | false =>
      simp only [varGroupsSigned, Bool.false_eq_true, if_false]
      rw [← List.append_nil (neg :: false :: natBits (7 * 1 - 1 + 0) v)]
      refine Parses.byte_bind (by simp) ?_
      rw [if_pos ((byte_flag6 _ _ _ (by simp)).mpr rfl), byte_low6 _ _ _ (by simp), hsign _ _ (by simp), bitsVal_natBits]
      exact parses_pure _ _ _
  | n + 2 =>
    set rest := 7 * (n + 1) + (if isMax then 1 else 0) with hrest
    have hT : 7 * (n + 2) - 1 + (if isMax then 1 else 0) = 6 + rest := by rw [hrest]; omega
    rw [hT]
    have he : varGroupsSigned isMax neg (n + 2) (natBits (6 + rest) v) =
        (neg :: true :: natBits 6 (v >>> rest)) ++ varGroups isMax (n + 1) (natBits rest v) := by
      rw [varGroupsSigned, natBits_add]
      rw [List.take_append_of_le_length (by simp), List.drop_append_of_le_length (by simp),
        List.take_of_length_le (by simp), List.drop_of_length_le (by simp)]
      simp
    rw [he]
    refine Parses.byte_bind (by simp) ?_
    simp only
    rw [if_neg (by rw [byte_flag6 _ _ _ (by simp)]; simp), byte_low6 _ _ _ (by simp), hsign _ _ (by simp), bitsVal_natBits]
    have h := parses_varTail isMax v s k (n + 1) ((v >>> rest) % 2 ^ 6) (p + 8) (by intro h; have := h1 h; omega)
      (by intro h; have := h2 h; omega)
    rw [if_neg (show ¬ (n + 2 = 1) by omega), ← join_mod6]
    exact h.map

theorem parses_varSigned (neg isMax : Bool) (v : Nat) (s : List Bool) (k n p : Nat)
    (h1 : isMax = true → n = k + 2) (h2 : isMax = false → 1 ≤ n ∧ n ≤ k + 1) :
    Parses (readVarSigned k) p
      (varGroupsSigned isMax neg n (natBits (7 * n - 1 + (if isMax then 1 else 0)) v)) s
      (if neg then -((v % 2 ^ (7 * n - 1 + (if isMax then 1 else 0)) : Nat) : Int)
        else ((v % 2 ^ (7 * n - 1 + (if isMax then 1 else 0)) : Nat) : Int)) := by
  have := parses_varSigned_body neg isMax v s k n p
    (fun sign result => if sign ≠ 0 then -(result : Int) else result)
    (fun sign result => if sign ≠ 0 then -(result : Int) else result) h1 h2
  have he : ∀ x : Nat, (if n = 1 then (fun sign result : Nat => if sign ≠ 0 then -(result : Int) else (result : Int)) else
      (fun sign result : Nat => if sign ≠ 0 then -(result : Int) else (result : Int))) (if neg then 128 else 0) x =
      if neg then -(x : Int) else (x : Int) := by
    intro x
    cases neg <;> simp
  rw [he] at this
  exact this

/-- Every variable-length read returns the value whose representation is ahead. -/
theorem parses_readVar (t : VarType) (v : Int) (p : Nat) (s : List Bool) (h : t.InRange v) :
    Parses (readVar t) p (t.encode v) s v := by
  have hU : ∀ (t : VarType) (k : Nat), t.signed = false → t ≠ .varint → t.maxBytes = k + 2 → t.InRange v → 0 ≤ v →
      Parses (readVarUnsigned k) p (t.encode v) s v.natAbs := by
    intro t k ht hne hk hr hv
    obtain ⟨b1, b2, b3, _⟩ := Writer.numBytes_spec t v hr (by simp [hne])
    have := parses_varUnsigned (decide (t.numBytes v = t.maxBytes)) v.natAbs s k (t.numBytes v) p
      (by simp; omega) (by simp; omega)
    have hc : t.capacity (t.numBytes v) =
        7 * t.numBytes v + (if decide (t.numBytes v = t.maxBytes) = true then 1 else 0) := by
      simp [VarType.capacity, ht]
    rw [hc] at b3
    rw [Nat.mod_eq_of_lt b3] at this
    simp only [VarType.encode, hne, false_and, if_false, ht, Bool.false_eq_true, hc]
    exact this
  have hS : ∀ (t : VarType) (k : Nat), t.signed = true → t ≠ .varint → t.maxBytes = k + 2 → t.InRange v →
      Parses (readVarSigned k) p (t.encode v) s v := by
    intro t k ht hne hk hr
    obtain ⟨b1, b2, b3, _⟩ := Writer.numBytes_spec t v hr (by simp [hne])
    have := parses_varSigned (decide (v < 0)) (decide (t.numBytes v = t.maxBytes)) v.natAbs s k (t.numBytes v) p
      (by simp; omega) (by simp; omega)
    have hc : t.capacity (t.numBytes v) =
        7 * t.numBytes v - 1 + (if decide (t.numBytes v = t.maxBytes) = true then 1 else 0) := by
      simp [VarType.capacity, ht]
    rw [hc] at b3
    rw [Nat.mod_eq_of_lt b3] at this
    simp only [VarType.encode, hne, false_and, if_false, ht, if_true, hc]
    have hres : (if decide (v < 0) = true then -((v.natAbs : Nat) : Int) else ((v.natAbs : Nat) : Int)) = v := by
      by_cases hv : v < 0
      · rw [if_pos (by simpa using hv)]; omega
      · rw [if_neg (by simpa using hv)]; omega
    rw [hres] at this
    exact this
  cases t with
  | varint16 => exact hS .varint16 0 rfl (by simp) rfl h
  | varint32 => exact hS .varint32 2 rfl (by simp) rfl h
  | varint64 => exact hS .varint64 6 rfl (by simp) rfl h
  | varint =>
    have hbody := fun (neg isMax : Bool) (m n : Nat) => parses_varSigned_body neg isMax m s 7 n p
      (fun sign result => if sign ≠ 0 then (if result = 0 then INT64_MIN else -(result : Int)) else (result : Int))
      (fun sign result => if sign ≠ 0 then -(result : Int) else (result : Int))
    by_cases hv : v = -(2 ^ 63)
    · subst hv
      have := hbody true false 0 1 (by simp) (by simp)
      have he : VarType.varint.encode (-(2 ^ 63)) = varGroupsSigned false true 1
          (natBits (7 * 1 - 1 + (if false then 1 else 0)) 0) := by decide
      rw [he]
      exact this
    · obtain ⟨b1, b2, b3, _⟩ := Writer.numBytes_spec .varint v h (by simpa using hv)
      have := hbody (decide (v < 0)) (decide (VarType.varint.numBytes v = VarType.varint.maxBytes)) v.natAbs
        (VarType.varint.numBytes v) (by intro h; exact of_decide_eq_true h)
        (by
          intro h
          have h := of_decide_eq_false h
          have hm : VarType.varint.maxBytes = 9 := rfl
          omega)
      have hc : VarType.varint.capacity (VarType.varint.numBytes v) =
          7 * VarType.varint.numBytes v - 1 +
            (if decide (VarType.varint.numBytes v = VarType.varint.maxBytes) = true then 1 else 0) := by
        simp [VarType.capacity, VarType.signed]
      rw [hc] at b3
      rw [Nat.mod_eq_of_lt b3] at this
      simp only [VarType.encode, hv, and_false, if_false, VarType.signed, if_true, hc]
      generalize VarType.varint.numBytes v = n at this ⊢
      have hres : ((if n = 1 then fun sign result : Nat =>
            if sign ≠ 0 then if result = 0 then INT64_MIN else -(result : Int) else (result : Int)
          else fun sign result => if sign ≠ 0 then -(result : Int) else (result : Int))
          (if decide (v < 0) = true then 128 else 0) v.natAbs) = v := by
        by_cases hneg : v < 0
        · have hz : v.natAbs ≠ 0 := by omega
          have hd : decide (v < 0) = true := by simpa using hneg
          rw [if_pos hd]
          by_cases hn : n = 1
          · rw [if_pos hn]
            simp only [hz, if_false]
            rw [if_pos (by decide)]; omega
          · rw [if_neg hn]
            rw [if_pos (by decide)]; omega
        · have hd : ¬ decide (v < 0) = true := by simpa using hneg
          rw [if_neg hd]
          by_cases hn : n = 1
          · rw [if_pos hn]
            simp only [ne_eq, not_true_eq_false, if_false]; omega
          · rw [if_neg hn]
            simp only [ne_eq, not_true_eq_false, if_false]; omega
      rw [hres] at this
      exact this
  | varuint16 =>
    have h0 : 0 ≤ v := h.1
    have := (hU .varuint16 0 rfl (by simp) rfl h h0).map (f := fun x : Nat => (x : Int))
    rwa [show ((v.natAbs : Nat) : Int) = v by omega] at this
  | varuint32 =>
    have h0 : 0 ≤ v := h.1
    have := (hU .varuint32 2 rfl (by simp) rfl h h0).map (f := fun x : Nat => (x : Int))
    rwa [show ((v.natAbs : Nat) : Int) = v by omega] at this
  | varuint64 =>
    have h0 : 0 ≤ v := h.1
    have := (hU .varuint64 6 rfl (by simp) rfl h h0).map (f := fun x : Nat => (x : Int))
    rwa [show ((v.natAbs : Nat) : Int) = v by omega] at this
  | varuint =>
    have h0 : 0 ≤ v := h.1
    have := (hU .varuint 7 rfl (by simp) rfl h h0).map (f := fun x : Nat => (x : Int))
    rwa [show ((v.natAbs : Nat) : Int) = v by omega] at this
  | varsize =>
    have h0 : 0 ≤ v := h.1
    have h1 : v ≤ 2 ^ 31 - 1 := h.2
    have := hU .varsize 3 rfl (by simp) rfl h h0
    intro r hr hp hrest
    have hm := this r hr hp hrest
    simp only [readVar, asInt, readVarsize]
    rw [M.bind_assoc', M.bind_ok hm]
    have : ¬ v.natAbs > VARSIZE_MAX_VALUE := by unfold VARSIZE_MAX_VALUE; omega
    rw [if_neg this]
    simp only [M.pure_bind', M.pure_apply]
    rw [show ((v.natAbs : Nat) : Int) = v by omega]

end Reader
end Zserio
