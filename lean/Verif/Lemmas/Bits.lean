import Verif.Spec.Bits
/-! Helper lemmas about bit lists. -/
namespace Zserio

@[simp] theorem natBits_length (n v : Nat) : (natBits n v).length = n := by
  induction n with
  | zero => rfl
  | succ n ih => simp [natBits, ih]

@[simp] theorem natBits_zero_left (v : Nat) : natBits 0 v = [] := rfl

theorem natBits_getElem (n v i : Nat) (h : i < (natBits n v).length) :
    (natBits n v)[i] = v.testBit (n - 1 - i) := by
  induction n generalizing i with
  | zero => simp at h
  | succ n ih =>
    cases i with
    | zero => simp [natBits]
    | succ i =>
      simp only [natBits, List.getElem_cons_succ]
      rw [ih]
      congr 1
      omega

theorem natBits_ext {n a b : Nat} (h : ∀ i, i < n → a.testBit i = b.testBit i) :
    natBits n a = natBits n b := by
  induction n with
  | zero => rfl
  | succ n ih =>
    simp only [natBits]
    rw [h n (by omega), ih (fun i hi => h i (by omega))]

theorem natBits_mod (n v : Nat) : natBits n (v % 2 ^ n) = natBits n v := by
  apply natBits_ext
  intro i hi
  simp [Nat.testBit_mod_two_pow, hi]

theorem natBits_mod_of_le {n m : Nat} (v : Nat) (h : n ≤ m) : natBits n (v % 2 ^ m) = natBits n v := by
  apply natBits_ext
  intro i hi
  simp only [Nat.testBit_mod_two_pow]
  simp
  omega

theorem natBits_add (a b v : Nat) : natBits (a + b) v = natBits a (v >>> b) ++ natBits b v := by
  induction a with
  | zero => simp
  | succ a ih =>
    have : a + 1 + b = (a + b) + 1 := by omega
    rw [this]
    simp only [natBits, ih, List.cons_append]
    simp [Nat.testBit_shiftRight, Nat.add_comm]

theorem natBits_zero_right (n : Nat) : natBits n 0 = zeros n := by
  induction n with
  | zero => rfl
  | succ n ih => simp [natBits, ih, zeros, List.replicate_succ]

theorem natBits_shiftLeft (n s v : Nat) : natBits (n + s) (v <<< s) = natBits n v ++ zeros s := by
  rw [natBits_add]
  congr 1
  · congr 1
    apply Nat.eq_of_testBit_eq
    intro i
    simp
  · rw [← natBits_zero_right]
    apply natBits_ext
    intro i hi
    simp [Nat.testBit_shiftLeft]
    omega

theorem natBits_drop (n k v : Nat) (h : k ≤ n) : (natBits n v).drop k = natBits (n - k) v := by
  have hn : n = k + (n - k) := by omega
  conv => lhs; rw [hn, natBits_add]
  rw [List.drop_append]
  simp

theorem natBits_take (n k v : Nat) (h : k ≤ n) : (natBits n v).take k = natBits k (v >>> (n - k)) := by
  have hn : n = k + (n - k) := by omega
  conv => lhs; rw [hn, natBits_add]
  rw [List.take_append]
  simp [List.take_of_length_le]

theorem bitsVal_append (a b : List Bool) : bitsVal (a ++ b) = bitsVal a * 2 ^ b.length + bitsVal b := by
  induction a with
  | nil => simp [bitsVal]
  | cons x xs ih =>
    simp only [List.cons_append, bitsVal, ih, List.length_append, Nat.pow_add]
    rw [Nat.add_mul, Nat.mul_assoc, Nat.add_assoc]

theorem bitsVal_lt (l : List Bool) : bitsVal l < 2 ^ l.length := by
  induction l with
  | nil => simp [bitsVal]
  | cons x xs ih =>
    simp only [bitsVal, List.length_cons, Nat.pow_succ]
    cases x <;> simp <;> omega

@[simp] theorem bitsVal_natBits (n v : Nat) : bitsVal (natBits n v) = v % 2 ^ n := by
  induction n with
  | zero => simp [bitsVal, Nat.mod_one]
  | succ n ih =>
    simp only [natBits, bitsVal, natBits_length, ih]
    have h := Nat.mod_mul (x := v) (a := 2 ^ n) (b := 2)
    rw [Nat.pow_succ, h, Nat.toNat_testBit, Nat.mul_comm, Nat.add_comm]

theorem bitsVal_natBits_of_lt {n v : Nat} (h : v < 2 ^ n) : bitsVal (natBits n v) = v := by
  rw [bitsVal_natBits, Nat.mod_eq_of_lt h]

theorem bitsVal_testBit (l : List Bool) (i : Nat) (h : i < l.length) :
    (bitsVal l).testBit i = l[l.length - 1 - i] := by
  induction l generalizing i with
  | nil => simp at h
  | cons x xs ih =>
    simp only [bitsVal]
    have hlt := bitsVal_lt xs
    rw [Nat.mul_comm]
    by_cases hi : i < xs.length
    · rw [Nat.testBit_two_pow_mul_add _ hlt]
      simp only [hi, if_true]
      rw [ih i hi]
      rw [List.getElem_cons]
      have : ¬ ((x :: xs).length - 1 - i = 0) := by simp; omega
      simp only [this, dite_false]
      congr 1
      simp; omega
    · have hi' : i = xs.length := by simp at h; omega
      subst hi'
      rw [Nat.testBit_two_pow_mul_add _ hlt]
      cases x <;> simp

@[simp] theorem natBits_bitsVal (l : List Bool) : natBits l.length (bitsVal l) = l := by
  apply List.ext_getElem
  · simp
  · intro i h1 h2
    rw [natBits_getElem, bitsVal_testBit]
    · congr 1; omega
    · omega

theorem bitsVal_inj {a b : List Bool} (hl : a.length = b.length) (h : bitsVal a = bitsVal b) : a = b := by
  rw [← natBits_bitsVal a, ← natBits_bitsVal b, hl, h]

@[simp] theorem bitsVal_zeros (n : Nat) : bitsVal (zeros n) = 0 := by
  rw [← natBits_zero_right, bitsVal_natBits]; simp

@[simp] theorem intBits_length (n : Nat) (v : Int) : (intBits n v).length = n := by simp [intBits]

@[simp] theorem byteBits_length (b : UInt8) : (byteBits b).length = 8 := by simp [byteBits]

@[simp] theorem bytesBits_nil : bytesBits [] = [] := rfl

@[simp] theorem bytesBits_cons (b : UInt8) (l : List UInt8) :
    bytesBits (b :: l) = byteBits b ++ bytesBits l := by simp [bytesBits]

@[simp] theorem bytesBits_append (a b : List UInt8) : bytesBits (a ++ b) = bytesBits a ++ bytesBits b := by
  simp [bytesBits]

@[simp] theorem bytesBits_length (l : List UInt8) : (bytesBits l).length = 8 * l.length := by
  induction l with
  | nil => rfl
  | cons x xs ih => simp [ih]; omega

theorem byteBits_inj {a b : UInt8} (h : byteBits a = byteBits b) : a = b := by
  have := congrArg bitsVal h
  simp only [byteBits, bitsVal_natBits] at this
  have ha := a.toNat_lt
  have hb := b.toNat_lt
  apply UInt8.toNat_inj.mp
  omega

theorem bytesBits_inj {a b : List UInt8} (h : bytesBits a = bytesBits b) : a = b := by
  induction a generalizing b with
  | nil =>
    cases b with
    | nil => rfl
    | cons y ys =>
      have := congrArg List.length h
      simp at this; omega
  | cons x xs ih =>
    cases b with
    | nil =>
      have := congrArg List.length h
      simp at this
    | cons y ys =>
      simp only [bytesBits_cons] at h
      have := List.append_inj h (by simp)
      rw [byteBits_inj this.1, ih this.2]

theorem bytesBits_take (l : List UInt8) (k : Nat) : bytesBits (l.take k) = (bytesBits l).take (8 * k) := by
  induction l generalizing k with
  | nil => simp
  | cons x xs ih =>
    cases k with
    | zero => simp
    | succ k =>
      simp only [List.take_succ_cons, bytesBits_cons, ih]
      rw [List.take_append, byteBits_length, List.take_of_length_le (l := byteBits x) (by simp; omega)]
      rw [show 8 * (k + 1) - 8 = 8 * k by omega]

theorem bytesBits_drop (l : List UInt8) (k : Nat) : bytesBits (l.drop k) = (bytesBits l).drop (8 * k) := by
  induction l generalizing k with
  | nil => simp
  | cons x xs ih =>
    cases k with
    | zero => simp
    | succ k =>
      simp only [List.drop_succ_cons, bytesBits_cons, ih]
      rw [List.drop_append, byteBits_length, List.drop_of_length_le (l := byteBits x) (by simp; omega)]
      rw [show 8 * (k + 1) - 8 = 8 * k by omega, List.nil_append]

end Zserio
