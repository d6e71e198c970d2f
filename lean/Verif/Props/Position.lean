import Verif.Lemmas.Calls
import Verif.Lemmas.ReaderAny
import Verif.Model.Builtin
/-
Properties C16, C19, C20, C21.
-/
namespace Zserio

/-- `q` is the least multiple of `a` not below `p`. -/
def IsLeastMultiple (a p q : Nat) : Prop := a ∣ q ∧ p ≤ q ∧ ∀ m, a ∣ m → p ≤ m → q ≤ m

theorem isLeastMultiple_gap (a p : Nat) (ha : 0 < a) : IsLeastMultiple a p (p + gapTo a p) := by
  have h1 := Nat.div_add_mod p a
  have h2 := Nat.mod_lt p ha
  unfold gapTo
  by_cases h0 : p % a = 0
  · rw [h0, Nat.sub_zero, Nat.mod_self, Nat.add_zero]
    exact ⟨Nat.dvd_of_mod_eq_zero h0, le_refl _, fun m _ h => h⟩
  · rw [Nat.mod_eq_of_lt (show a - p % a < a by omega)]
    have he : p + (a - p % a) = a * (p / a + 1) := by rw [Nat.mul_add]; omega
    rw [he]
    refine ⟨⟨_, rfl⟩, by rw [← he]; omega, ?_⟩
    rintro m ⟨k, rfl⟩ hk
    apply Nat.mul_le_mul_left
    by_contra hlt
    have : a * k ≤ a * (p / a) := Nat.mul_le_mul_left _ (by omega)
    omega

/-! ### C16 -/

/-- **C16.** For every alignment `a ≥ 1` there is one end position `q`, the least multiple of `a` not below the position `p`,
such that the writer at `p` appends exactly `q - p` zero bits, a reader at `p` moves to `q` or, if that lies beyond the end
of the stream, raises without moving, and the size computation gives `q`. -/
theorem C16_alignto_agree (a p : Nat) (ha : 1 ≤ a) :
    ∃ q, IsLeastMultiple a p q ∧
      (∀ bs : List Bool, bs.length = p →
        Writer.alignto a (Writer.ofBits bs) = (.ok (), Writer.ofBits (bs ++ zeros (q - p)))) ∧
      (∀ r : Reader, r.WF → r.pos = p → Reader.alignto a r =
        if (q : Int) ≤ r.bitsize then (.ok (), { r with pos := q }) else (.error .position, r)) ∧
      alignTo a p = q := by
  refine ⟨p + gapTo a p, isLeastMultiple_gap a p ha, ?_, ?_, ?_⟩
  · intro bs hbs
    have := Writer.emits_alignto a p ha bs hbs
    rw [this]
    simp [gapTo, Writer.alignGap]
  · intro r hr hp
    have h2 := Nat.mod_lt p ha
    have hwf := hr.2
    unfold Reader.alignto
    rw [M.bind_ok (M.get_apply _), if_neg (by omega)]
    have hmod : Int.fmod (r.pos : Int) (a : Int) = ((p % a : Nat) : Int) := by
      rw [hp, Int.fmod_eq_emod_of_nonneg _ (by omega)]; rfl
    simp only [hmod]
    by_cases h0 : p % a = 0
    · rw [if_neg (by simp [h0])]
      simp only [gapTo, h0, Nat.sub_zero, Nat.mod_self, Nat.add_zero]
      rw [if_pos (by omega), ← hp]; rfl
    · rw [if_pos (by omega)]
      have hg : gapTo a p = a - p % a := Nat.mod_eq_of_lt (by omega)
      rw [hg]
      unfold Reader.setBitposition
      rw [M.bind_ok (M.get_apply _), if_neg (by omega)]
      by_cases hb : ((p + (a - p % a) : Nat) : Int) ≤ r.bitsize
      · rw [if_neg (by omega), if_pos hb, M.set_apply]
        congr 2
        omega
      · rw [if_pos (by omega), if_neg hb]; rfl
  · have h1 := Nat.div_add_mod p a
    have h2 := Nat.mod_lt p ha
    unfold alignTo
    by_cases hp : p = 0
    · subst hp; simp [gapTo]
    · rw [if_neg (by omega)]
      have hd : Int.fdiv ((p : Int) - 1) (a : Int) = (((p - 1) / a : Nat) : Int) := by
        rw [Int.fdiv_eq_ediv_of_nonneg _ (by omega)]
        have : (p : Int) - 1 = ((p - 1 : Nat) : Int) := by omega
        rw [this]; rfl
      rw [hd]
      have : ((p - 1) / a + 1) * a = p + gapTo a p := by
        obtain ⟨hd1, hd2, hd3⟩ := isLeastMultiple_gap a p ha
        apply le_antisymm
        · obtain ⟨k, hk⟩ := hd1
          rw [hk, Nat.mul_comm]
          apply Nat.mul_le_mul_left
          have : (p - 1) / a < k := by
            rw [Nat.div_lt_iff_lt_mul ha, Nat.mul_comm]; omega
          omega
        · apply hd3 _ ⟨_, Nat.mul_comm _ _⟩
          have := Nat.lt_div_mul_add (a := p - 1) ha
          rw [Nat.add_mul, Nat.one_mul]; omega
      exact_mod_cast this

/-- Every reachable writer is of the form used above. -/
theorem C16_writer_states (w : Writer) : w.Reachable ↔ ∃ bs, w = Writer.ofBits bs :=
  ⟨fun h => h.eq_ofBits, by rintro ⟨bs, rfl⟩; exact Writer.reachable_ofBits bs⟩

example : IsLeastMultiple 12 13 24 ∧ alignTo 12 13 = 24 :=
  ⟨⟨⟨2, rfl⟩, by omega, by rintro m ⟨k, rfl⟩ h; omega⟩, by decide⟩

/-! ### C19 -/

/-- **C19**, bits and bytes. -/
theorem C19_bits_bytes (n : Nat) :
    bitsToBytes (bytesToBits n) = .ok n ∧
    ((∃ e, bitsToBytes n = .error e) ↔ ¬ 8 ∣ n) ∧
    (∀ k, bitsToBytes n = .ok k → bytesToBits k = n) := by
  have hm : Int.fmod (n : Int) 8 = ((n % 8 : Nat) : Int) := by
    rw [Int.fmod_eq_emod_of_nonneg _ (by omega)]; rfl
  have hd : Int.fdiv (n : Int) 8 = ((n / 8 : Nat) : Int) := by
    rw [Int.fdiv_eq_ediv_of_nonneg _ (by omega)]; rfl
  refine ⟨?_, ?_, ?_⟩
  · unfold bitsToBytes bytesToBits
    have h1 : Int.fmod ((n : Int) * 8) 8 = 0 := by rw [Int.fmod_eq_emod_of_nonneg _ (by omega)]; simp
    have h2 : Int.fdiv ((n : Int) * 8) 8 = n := by rw [Int.fdiv_eq_ediv_of_nonneg _ (by omega)]; simp
    rw [h1, h2]; simp
  · unfold bitsToBytes
    rw [hm, Nat.dvd_iff_mod_eq_zero]
    by_cases h : n % 8 = 0
    · rw [if_neg (by simp [h])]; simp [h]
    · rw [if_pos (by exact_mod_cast h)]; simp [h]
  · intro k hk
    unfold bitsToBytes at hk
    rw [hm] at hk
    split at hk
    · simp at hk
    · rename_i h
      injection hk with hk
      rw [hd] at hk
      unfold bytesToBits
      omega

/-- **C19**, least number of bytes. -/
theorem C19_bitsize_to_bytesize (n : Nat) :
    ∃ k : Nat, bitsizeToBytesize n = k ∧ n ≤ 8 * k ∧ ∀ j, n ≤ 8 * j → k ≤ j := by
  refine ⟨(n + 7) / 8, ?_, by omega, fun j hj => by omega⟩
  unfold bitsizeToBytesize
  rw [Int.fdiv_eq_ediv_of_nonneg _ (by omega)]
  rfl

/-- **C19**, alignment: the least multiple; alignment 0 means no alignment. -/
theorem C19_alignto (a p : Nat) :
    (a = 0 → alignTo a p = p) ∧ (1 ≤ a → ∃ q : Nat, alignTo a p = q ∧ IsLeastMultiple a p q) := by
  constructor
  · rintro rfl; simp [alignTo]
  · intro ha
    obtain ⟨q, h1, _, _, h2⟩ := C16_alignto_agree a p ha
    exact ⟨q, h2, h1⟩

example : bitsToBytes 24 = .ok 3 ∧ bitsToBytes 25 = .error .notByteAligned ∧ bitsizeToBytesize 25 = 4 := by decide

/-! ### C20 -/

/-- **C20.** `numbits(n)` is the least number of bits distinguishing `n` values. -/
theorem C20_numbits (n : Nat) (hn : 2 ≤ n) : n ≤ 2 ^ numbits n ∧ ∀ k, n ≤ 2 ^ k → numbits n ≤ k := by
  have hb : numbits n = (n - 1).log2 + 1 := by
    unfold numbits bitLength
    rw [if_neg (by omega), if_neg (by omega), if_neg (by omega)]
    congr 2
    omega
  rw [hb]
  constructor
  · have := Nat.lt_log2_self (n := n - 1)
    omega
  · intro k hk
    have : (n - 1).log2 < k := by
      rw [Nat.log2_lt (by omega)]; omega
    omega

theorem C20_small : numbits 0 = 0 ∧ numbits 1 = 1 := by decide

/-- **C20**, monotone. -/
theorem C20_monotone (m n : Nat) (h : m ≤ n) : numbits m ≤ numbits n := by
  by_cases hm : 2 ≤ m
  · exact (C20_numbits m hm).2 _ (le_trans h (C20_numbits n (by omega)).1)
  · by_cases hn : 2 ≤ n
    · have h1 : numbits m ≤ 1 := by
        rcases (show m = 0 ∨ m = 1 by omega) with rfl | rfl <;> decide
      have h2 := (C20_numbits n hn).1
      have : 1 ≤ numbits n := by
        by_contra hc
        have h0 : numbits n = 0 := by omega
        rw [h0] at h2; omega
      omega
    · have hm' : m = 0 ∨ m = 1 := by omega
      have hn' : n = 0 ∨ n = 1 := by omega
      rcases hm' with rfl | rfl <;> rcases hn' with rfl | rfl <;> first | decide | omega

example : numbits 256 = 8 ∧ numbits 257 = 9 := by decide

/-! ### C21 -/

/-- **C21.** For every length the bounds are exactly the smallest and largest values the stream accepts for that length;
lengths not in 1..64 raise. -/
theorem C21_bounds (w : Writer) (hw : w.Reachable) (length v : Int) :
    (1 ≤ length ∧ length ≤ 64 → ∃ lo hi slo shi,
      bitfieldLowerbound length = .ok lo ∧ bitfieldUpperbound length = .ok hi ∧
      signedBitfieldLowerbound length = .ok slo ∧ signedBitfieldUpperbound length = .ok shi ∧
      ((Writer.writeBits v length w).1 = .ok () ↔ (lo ≤ v ∧ v ≤ hi)) ∧
      ((Writer.writeSignedBits v length w).1 = .ok () ↔ (slo ≤ v ∧ v ≤ shi))) ∧
    (¬ (1 ≤ length ∧ length ≤ 64) → ∃ e,
      bitfieldLowerbound length = .error e ∧ bitfieldUpperbound length = .error e ∧
      signedBitfieldLowerbound length = .error e ∧ signedBitfieldUpperbound length = .error e) := by
  constructor
  · intro hl
    have hc : checkBitfieldLength length = .ok () := by
      unfold checkBitfieldLength MAX_BITFIELD_BITS; rw [if_neg (by omega)]
    refine ⟨0, 2 ^ length.toNat - 1, -(2 ^ (length - 1).toNat), 2 ^ (length - 1).toNat - 1, ?_, ?_, ?_, ?_, ?_, ?_⟩
    · unfold bitfieldLowerbound; rw [hc]; rfl
    · unfold bitfieldUpperbound; rw [hc]; rfl
    · unfold signedBitfieldLowerbound; rw [hc]; rfl
    · unfold signedBitfieldUpperbound; rw [hc]; rfl
    · obtain ⟨bs, rfl⟩ := hw.eq_ofBits
      have h := (WCall.bits v length).run_spec bs.length
      simp only [WCall.spec, WCall.run] at h
      by_cases hv : fitsUnsigned v length.toNat
      · rw [if_pos ⟨hl, hv⟩] at h
        rw [h bs rfl]
        simp only [true_iff]; exact hv
      · rw [if_neg (fun h => hv h.2)] at h
        obtain ⟨e, h⟩ := h
        rw [h bs rfl]
        simp only [reduceCtorEq, false_iff]; exact hv
    · have hsub : (length - 1).toNat = length.toNat - 1 := by omega
      rw [hsub]
      obtain ⟨bs, rfl⟩ := hw.eq_ofBits
      have h := (WCall.signedBits v length).run_spec bs.length
      simp only [WCall.spec, WCall.run] at h
      by_cases hv : fitsSigned v length.toNat
      · rw [if_pos ⟨hl, hv⟩] at h
        rw [h bs rfl]
        simp only [true_iff]; exact hv.2
      · rw [if_neg (fun h => hv h.2)] at h
        obtain ⟨e, h⟩ := h
        rw [h bs rfl]
        simp only [reduceCtorEq, false_iff]
        exact fun hh => hv ⟨by omega, hh⟩
  · intro hl
    have hc : checkBitfieldLength length = .error .bitfieldLength := by
      unfold checkBitfieldLength MAX_BITFIELD_BITS; rw [if_pos (by omega)]
    refine ⟨.bitfieldLength, ?_, ?_, ?_, ?_⟩
    · unfold bitfieldLowerbound; rw [hc]; rfl
    · unfold bitfieldUpperbound; rw [hc]; rfl
    · unfold signedBitfieldLowerbound; rw [hc]; rfl
    · unfold signedBitfieldUpperbound; rw [hc]; rfl

example : bitfieldUpperbound 64 = .ok (2 ^ 64 - 1) ∧ signedBitfieldLowerbound 1 = .ok (-1) ∧
    bitfieldUpperbound 65 = .error .bitfieldLength := by decide

end Zserio
