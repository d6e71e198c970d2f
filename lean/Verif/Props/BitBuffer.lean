import Verif.Lemmas.Calls
import Verif.Model.HashCode
/-
Properties C17, C18, C22: bit buffer equality and hash, hash codes.
-/
namespace Zserio

/-- The object was produced by the constructor `BitBuffer(buffer, bitsize)`. -/
def BitBuffer.Constructed (b : BitBuffer) : Prop := ∃ buf n, BitBuffer.make buf n = .ok b

theorem BitBuffer.Constructed.valid {b : BitBuffer} (h : b.Constructed) : b.bitsize ≤ 8 * b.buffer.length := by
  obtain ⟨buf, n, hb⟩ := h
  unfold BitBuffer.make at hb
  cases n with
  | none => injection hb with hb; subst hb; simp only; omega
  | some n =>
    simp only at hb
    split at hb
    · simp at hb
    · injection hb with hb; subst hb; simp only; omega

/-- The bits in use: the first `bitsize` bits. -/
def BitBuffer.usedBits (b : BitBuffer) : List Bool := (bytesBits b.buffer).take b.bitsize.toNat

/-- the masked last byte, for a given number of used bits in it -/
def maskByte (x : Nat) (r : Nat) : Nat := if r = 0 then x else x &&& (0xFF <<< (8 - r))

/-- number of used bits in the last byte, 1..8 -/
def lastBits (n : Nat) : Nat := if n % 8 = 0 then 8 else n % 8

theorem maskByte_table : ∀ r : Fin 8, ∀ x : Fin 256,
    natBits 8 (maskByte x.1 r.1) = (natBits 8 x.1).take (lastBits r.1) ++ zeros (8 - lastBits r.1) ∧
      maskByte x.1 r.1 < 256 := by decide +kernel

theorem maskByte_eq_iff (r : Nat) (hr : r < 8) (x y : UInt8) :
    maskByte x.toNat r = maskByte y.toNat r ↔ (byteBits x).take (lastBits r) = (byteBits y).take (lastBits r) := by
  have hx := maskByte_table ⟨r, hr⟩ ⟨x.toNat, x.toNat_lt⟩
  have hy := maskByte_table ⟨r, hr⟩ ⟨y.toNat, y.toNat_lt⟩
  simp only at hx hy
  unfold byteBits
  constructor
  · intro h
    have h8 := hx.1.symm.trans ((congrArg (natBits 8) h).trans hy.1)
    exact List.append_cancel_right h8
  · intro h
    have h8 : natBits 8 (maskByte x.toNat r) = natBits 8 (maskByte y.toNat r) := by rw [hx.1, hy.1, h]
    have := congrArg bitsVal h8
    rwa [bitsVal_natBits_of_lt hx.2, bitsVal_natBits_of_lt hy.2] at this

/-- Decomposition of a non-empty buffer: whole bytes and last byte. -/
theorem usedBits_split (l : List UInt8) (n : Nat) (hn : 0 < n) (h : n ≤ 8 * l.length) :
    ∃ x, l[(n - 1) / 8]? = some x ∧
      (bytesBits l).take n = bytesBits (l.take ((n - 1) / 8)) ++ (byteBits x).take (lastBits (n % 8)) ∧
      (l.take ((n - 1) / 8)).length = (n - 1) / 8 := by
  have hlt : (n - 1) / 8 < l.length := by omega
  refine ⟨l[(n - 1) / 8], List.getElem?_eq_getElem hlt, ?_, by simp; omega⟩
  have hsplit : l = l.take ((n - 1) / 8) ++ l[(n - 1) / 8] :: l.drop ((n - 1) / 8 + 1) := by
    rw [List.getElem_cons_drop, List.take_append_drop]
  conv => lhs; rw [hsplit]
  rw [bytesBits_append, bytesBits_cons]
  have hl : (bytesBits (l.take ((n - 1) / 8))).length = 8 * ((n - 1) / 8) := by simp; omega
  have hn' : n = (bytesBits (l.take ((n - 1) / 8))).length + lastBits (n % 8) := by
    rw [hl]; unfold lastBits; split <;> omega
  conv => lhs; arg 1; rw [hn']
  rw [List.take_length_add_append]
  rw [List.take_append_of_le_length (by simp [lastBits]; split <;> omega)]

theorem maskedLastByte_eq (b : BitBuffer) (n : Nat) (x : UInt8) (hb : b.bitsize = n) (hn : 0 < n)
    (hx : b.buffer[(n - 1) / 8]? = some x) : b.maskedLastByte = .ok (maskByte x.toNat (n % 8)) := by
  have hd : Int.fdiv (n : Int) 8 = ((n / 8 : Nat) : Int) := by
    rw [Int.fdiv_eq_ediv_of_nonneg _ (by omega)]; rfl
  unfold BitBuffer.maskedLastByte maskByte
  simp only [hb, hd]
  by_cases h : n % 8 = 0
  · rw [if_pos (by omega), if_pos (by omega)]
    have : (((n / 8 : Nat) : Int) - 1).toNat = (n - 1) / 8 := by omega
    rw [this, hx]
  · rw [if_neg (by omega), if_neg (by omega)]
    have : (((n / 8 : Nat) : Int)).toNat = (n - 1) / 8 := by omega
    rw [this, hx]
    have : ((8 : Int) - ((n : Int) - 8 * ((n / 8 : Nat) : Int))).toNat = 8 - n % 8 := by omega
    rw [this]

theorem pySlice_zero {α : Type} (l : List α) (k : Nat) : pySlice l 0 k = l.take k := by simp [pySlice]

/-! ### C17 -/

/-- **C17.** Two constructed bit buffers compare equal exactly when they have the same bit size and the same used bits. -/
theorem C17_eq_iff_used_bits (a b : BitBuffer) (ha : a.Constructed) (hb : b.Constructed) :
    ∃ res, BitBuffer.eq a b = .ok res ∧
      (res = true ↔ (a.bitsize = b.bitsize ∧ a.usedBits = b.usedBits)) := by
  have hva := ha.valid
  have hvb := hb.valid
  unfold BitBuffer.eq
  by_cases hsz : a.bitsize = b.bitsize
  · rw [if_neg (by simpa using hsz)]
    by_cases hpos : 0 < a.bitsize
    · obtain ⟨n, hn⟩ := Int.eq_ofNat_of_zero_le (le_of_lt hpos)
      have hnpos : 0 < n := by omega
      have hby : bitsizeToBytesize a.bitsize = (((n - 1) / 8 + 1 : Nat) : Int) := by
        unfold bitsizeToBytesize
        rw [hn, Int.fdiv_eq_ediv_of_nonneg _ (by omega)]
        have : ((n : Int) + 7) / 8 = (((n + 7) / 8 : Nat) : Int) := by rfl
        rw [this]
        congr 1; omega
      have hk : ((((n - 1) / 8 + 1 : Nat) : Int) - 1).toNat = (n - 1) / 8 := by omega
      obtain ⟨x, hx, hxs, hxl⟩ := usedBits_split a.buffer n hnpos (by
        have : (Int.ofNat n : Int) = (n : Int) := rfl
        omega)
      obtain ⟨y, hy, hys, hyl⟩ := usedBits_split b.buffer n hnpos (by
        have : (Int.ofNat n : Int) = (n : Int) := rfl
        omega)
      have hma := maskedLastByte_eq a n x hn hnpos hx
      have hmb := maskedLastByte_eq b n y (by rw [← hsz, hn]) hnpos hy
      simp only [hby, hk, pySlice_zero]
      rw [if_pos (by omega)]
      have hused : a.usedBits = b.usedBits ↔
          (a.buffer.take ((n - 1) / 8) = b.buffer.take ((n - 1) / 8) ∧
            maskByte x.toNat (n % 8) = maskByte y.toNat (n % 8)) := by
        unfold BitBuffer.usedBits
        rw [← hsz, hn]
        show (bytesBits a.buffer).take n = (bytesBits b.buffer).take n ↔ _
        rw [hxs, hys, maskByte_eq_iff _ (Nat.mod_lt _ (by omega))]
        constructor
        · intro h
          obtain ⟨h1, h2⟩ := List.append_inj h (by simp [hxl, hyl])
          exact ⟨bytesBits_inj h1, h2⟩
        · rintro ⟨h1, h2⟩; rw [h1, h2]
      by_cases hc : ((((n - 1) / 8 + 1 : Nat) : Int) > 1 ∧
          a.buffer.take ((n - 1) / 8) ≠ b.buffer.take ((n - 1) / 8))
      · rw [if_pos hc]
        refine ⟨false, rfl, ?_⟩
        simp only [hsz, true_and, Bool.false_eq_true, false_iff, hused]
        exact fun h => hc.2 h.1
      · rw [if_neg hc, hma, hmb]
        have htake : a.buffer.take ((n - 1) / 8) = b.buffer.take ((n - 1) / 8) := by
          by_contra hne
          by_cases hk0 : (n - 1) / 8 = 0
          · rw [hk0] at hne; simp at hne
          · exact hc ⟨by omega, hne⟩
        by_cases hm : maskByte x.toNat (n % 8) = maskByte y.toNat (n % 8)
        · refine ⟨true, by show (if _ then _ else _) = _; rw [if_neg (by simpa using hm)], ?_⟩
          simp only [hsz, true_and, true_iff, hused]
          exact ⟨htake, hm⟩
        · refine ⟨false, by show (if _ then _ else _) = _; rw [if_pos (by simpa using hm)], ?_⟩
          simp only [hsz, true_and, Bool.false_eq_true, false_iff, hused]
          exact fun h => hm h.2
    · have hby : ¬ bitsizeToBytesize a.bitsize > 0 := by
        unfold bitsizeToBytesize
        rw [Int.fdiv_eq_ediv_of_nonneg _ (by omega)]
        omega
      rw [if_neg hby]
      refine ⟨true, rfl, ?_⟩
      unfold BitBuffer.usedBits
      rw [← hsz, Int.toNat_eq_zero.2 (by omega)]
      simp
  · rw [if_pos (by simpa using hsz)]
    exact ⟨false, rfl, by simp [hsz]⟩

/-- `a == b` for constructed buffers (it never raises). -/
def BitBuffer.Equal (a b : BitBuffer) : Prop := BitBuffer.eq a b = .ok true

theorem equal_iff (a b : BitBuffer) (ha : a.Constructed) (hb : b.Constructed) :
    a.Equal b ↔ (a.bitsize = b.bitsize ∧ a.usedBits = b.usedBits) := by
  obtain ⟨res, h1, h2⟩ := C17_eq_iff_used_bits a b ha hb
  unfold BitBuffer.Equal
  rw [h1, ← h2]
  simp

/-- **C17**, equivalence relation. -/
theorem C17_equivalence :
    (∀ a : BitBuffer, a.Constructed → a.Equal a) ∧
    (∀ a b : BitBuffer, a.Constructed → b.Constructed → a.Equal b → b.Equal a) ∧
    (∀ a b c : BitBuffer, a.Constructed → b.Constructed → c.Constructed → a.Equal b → b.Equal c → a.Equal c) := by
  refine ⟨?_, ?_, ?_⟩
  · intro a ha; rw [equal_iff a a ha ha]; exact ⟨rfl, rfl⟩
  · intro a b ha hb h
    rw [equal_iff a b ha hb] at h
    rw [equal_iff b a hb ha]
    exact ⟨h.1.symm, h.2.symm⟩
  · intro a b c ha hb hc h h'
    rw [equal_iff a b ha hb] at h
    rw [equal_iff b c hb hc] at h'
    rw [equal_iff a c ha hc]
    exact ⟨h.1.trans h'.1, h.2.trans h'.2⟩

/-- A bit buffer read back from a stream compares equal to the one written (completes C14). -/
theorem C14_bitbuffer_read_back_equal (buf : List UInt8) (n : Nat) (hn : n ≤ 8 * buf.length)
    (b' : BitBuffer) (hb' : b'.Constructed) (hsz : b'.bitsize = n)
    (hbits : (bytesBits b'.buffer).take n = (bytesBits buf).take n) : BitBuffer.Equal ⟨buf, n⟩ b' := by
  rw [equal_iff ⟨buf, n⟩ b' ⟨buf, some n, by unfold BitBuffer.make; simp only; rw [if_neg (by omega)]⟩ hb']
  exact ⟨hsz.symm, by unfold BitBuffer.usedBits; rw [hsz]; simpa using hbits.symm⟩

example : BitBuffer.Constructed ⟨[0xAB, 0xFF, 0x00], 11⟩ ∧ BitBuffer.Constructed ⟨[0xAB, 0xE3], 11⟩ ∧
    BitBuffer.eq ⟨[0xAB, 0xFF, 0x00], 11⟩ ⟨[0xAB, 0xE3], 11⟩ = .ok true ∧
    BitBuffer.eq ⟨[0xAB, 0xFF, 0x00], 12⟩ ⟨[0xAB, 0xE3], 12⟩ = .ok false :=
  ⟨⟨[0xAB, 0xFF, 0x00], some 11, by decide⟩, ⟨[0xAB, 0xE3], some 11, by decide⟩, by decide, by decide⟩

/-! ### C18 -/

theorem calcHashInt32_range (seed v : Int) : 0 ≤ calcHashInt32 seed v ∧ calcHashInt32 seed v < 2 ^ 32 := by
  unfold calcHashInt32
  rw [Int.fmod_eq_emod_of_nonneg _ (by norm_num)]
  exact ⟨Int.emod_nonneg _ (by norm_num), Int.emod_lt_of_pos _ (by norm_num)⟩

/-- The hash in terms of whole bytes and masked last byte. -/
theorem bitbuffer_hash_eq (b : BitBuffer) (hb : b.Constructed) :
    BitBuffer.hash b = .ok (if 0 < b.bitsize then
        calcHashInt32 ((b.buffer.take ((b.bitsize.toNat - 1) / 8)).foldl
          (fun r e => calcHashInt32 r (e.toNat : Int)) HASH_SEED)
          (maskByte (b.buffer[(b.bitsize.toNat - 1) / 8]?.getD 0).toNat (b.bitsize.toNat % 8))
      else HASH_SEED) := by
  have hv := hb.valid
  unfold BitBuffer.hash
  by_cases hpos : 0 < b.bitsize
  · obtain ⟨n, hn⟩ := Int.eq_ofNat_of_zero_le (le_of_lt hpos)
    have hn' : b.bitsize = (n : Int) := hn
    have hnpos : 0 < n := by omega
    have hby : bitsizeToBytesize b.bitsize = (((n - 1) / 8 + 1 : Nat) : Int) := by
      unfold bitsizeToBytesize
      rw [hn', Int.fdiv_eq_ediv_of_nonneg _ (by omega)]
      have : ((n : Int) + 7) / 8 = (((n + 7) / 8 : Nat) : Int) := by rfl
      rw [this]
      congr 1; omega
    have hk : ((((n - 1) / 8 + 1 : Nat) : Int) - 1).toNat = (n - 1) / 8 := by omega
    obtain ⟨x, hx, _, _⟩ := usedBits_split b.buffer n hnpos (by omega)
    have hm := maskedLastByte_eq b n x hn' hnpos hx
    simp only [hby, hk, pySlice_zero]
    rw [if_pos (by omega), hm, if_pos hpos, hn', Int.toNat_natCast, hx]
    show Except.ok _ = Except.ok _
    congr 2
    split
    · rfl
    · have : (n - 1) / 8 = 0 := by omega
      rw [this]; rfl
  · have hby : ¬ bitsizeToBytesize b.bitsize > 0 := by
      unfold bitsizeToBytesize
      rw [Int.fdiv_eq_ediv_of_nonneg _ (by omega)]
      omega
    simp only [if_neg hby, if_neg hpos]

/-- **C18.** The hash never raises and is in [0, 2^32); equal buffers have equal hashes. -/
theorem C18_hash_consistent (a b : BitBuffer) (ha : a.Constructed) (hb : b.Constructed) :
    ∃ h h', BitBuffer.hash a = .ok h ∧ BitBuffer.hash b = .ok h' ∧ 0 ≤ h ∧ h < 2 ^ 32 ∧
      (a.Equal b → h = h') := by
  refine ⟨_, _, bitbuffer_hash_eq a ha, bitbuffer_hash_eq b hb, ?_, ?_, ?_⟩
  · split
    · exact (calcHashInt32_range _ _).1
    · decide
  · split
    · exact (calcHashInt32_range _ _).2
    · decide
  · intro heq
    rw [equal_iff a b ha hb] at heq
    obtain ⟨hsz, hbits⟩ := heq
    rw [← hsz]
    by_cases hpos : 0 < a.bitsize
    · rw [if_pos hpos, if_pos hpos]
      have hva := ha.valid
      have hvb := hb.valid
      obtain ⟨x, hx, hxs, hxl⟩ := usedBits_split a.buffer a.bitsize.toNat (by omega) (by omega)
      obtain ⟨y, hy, hys, hyl⟩ := usedBits_split b.buffer a.bitsize.toNat (by omega) (by omega)
      unfold BitBuffer.usedBits at hbits
      rw [← hsz, hxs, hys] at hbits
      obtain ⟨h1, h2⟩ := List.append_inj hbits (by simp [hxl, hyl])
      rw [bytesBits_inj h1, hx, hy, Option.getD_some, Option.getD_some,
        (maskByte_eq_iff _ (Nat.mod_lt _ (by omega)) x y).2 h2]
    · rw [if_neg hpos, if_neg hpos]

example : BitBuffer.hash ⟨[0xAB, 0xFF, 0x00], 11⟩ = BitBuffer.hash ⟨[0xAB, 0xE3], 11⟩ ∧
    BitBuffer.hash ⟨[0xAB, 0xFF, 0x00], 11⟩ = .ok 38038 := by decide

/-! ### C22 -/

/-- a 32-bit hash code -/
def Is32 (h : Int) : Prop := 0 ≤ h ∧ h < 2 ^ 32

theorem hashInt32_is32 (s : Int) (v : Option Int) : Is32 (hashInt32 s v) := by
  cases v <;> exact calcHashInt32_range _ _

theorem hashInt64_is32 (s : Int) (v : Option Int) : Is32 (hashInt64 s v) := by
  cases v with
  | none => exact hashInt32_is32 s (some 0)
  | some v => exact calcHashInt32_range _ _

theorem hashFold_is32 {α : Type} (f : Int → α → Int) (hf : ∀ s x, Is32 s → Is32 (f s x)) (s : Int) (hs : Is32 s)
    (l : Option (List α)) : Is32 (hashFold f s l) := by
  cases l with
  | none => exact hashInt32_is32 s (some 0)
  | some l =>
    show Is32 (l.foldl f s)
    induction l generalizing s with
    | nil => exact hs
    | cons x l ih => exact ih _ (hf s x hs)

/-- **C22**, range: every hash function maps a 32-bit seed and any value to a 32-bit result (`calc_hashcode_float32*`: if it
does not raise). -/
theorem C22_range (s : Int) (hs : Is32 s) :
    (∀ v, Is32 (hashBool s v)) ∧ (∀ v, Is32 (hashInt32 s v)) ∧ (∀ v, Is32 (hashInt64 s v)) ∧
    (∀ v h, hashFloat32 s v = .ok h → Is32 h) ∧ (∀ v, Is32 (hashFloat64 s v)) ∧ (∀ v, Is32 (hashBytes s v)) ∧
    (∀ v, Is32 (hashString s v)) ∧ (∀ v, Is32 (hashObject s v)) ∧ (∀ v, Is32 (hashBoolArray s v)) ∧
    (∀ v, Is32 (hashIntArray s v)) ∧ (∀ v h, hashFloat32Array s v = .ok h → Is32 h) ∧
    (∀ v, Is32 (hashFloat64Array s v)) ∧ (∀ v, Is32 (hashBytesArray s v)) ∧ (∀ v, Is32 (hashStringArray s v)) ∧
    (∀ v, Is32 (hashObjectArray s v)) := by
  have hbool : ∀ s v, Is32 (hashBool s v) := by
    intro s v; unfold hashBool; split <;> exact hashInt32_is32 _ _
  have hf32 : ∀ s v h, hashFloat32 s v = .ok h → Is32 h := by
    intro s v h hh
    cases v with
    | none => injection hh with hh; subst hh; exact hashInt32_is32 _ _
    | some x =>
      obtain ⟨n, _, hh⟩ := except_bind_ok hh
      injection hh with hh; subst hh; exact hashInt32_is32 _ _
  have hf64 : ∀ s v, Is32 (hashFloat64 s v) := by
    intro s v; cases v with
    | none => exact hashInt32_is32 s (some 0)
    | some x => exact hashInt64_is32 s (some _)
  have hobj : ∀ s v, Is32 (hashObject s v) := by
    intro s v; cases v with
    | none => exact hashInt32_is32 s (some 0)
    | some x => exact hashInt32_is32 s (some x)
  have hbytes : ∀ s v, Is32 s → Is32 (hashBytes s v) := fun s v h => hashFold_is32 _ (fun _ _ _ => hashInt32_is32 _ _) s h v
  have hstr : ∀ s v, Is32 s → Is32 (hashString s v) := fun s v h => hashFold_is32 _ (fun _ _ _ => hashInt32_is32 _ _) s h v
  refine ⟨hbool s, hashInt32_is32 s, hashInt64_is32 s, hf32 s, hf64 s, fun v => hbytes s v hs, fun v => hstr s v hs,
    hobj s, ?_, ?_, ?_, ?_, ?_, ?_, ?_⟩
  · exact hashFold_is32 _ (fun _ _ _ => hbool _ _) s hs
  · exact hashFold_is32 _ (fun _ _ _ => hashInt32_is32 _ _) s hs
  · intro v h hh
    cases v with
    | none => injection hh with hh; subst hh; exact hashInt32_is32 _ _
    | some l =>
      have hh : l.foldlM (fun r e => hashFloat32 r (some e)) s = .ok h := hh
      clear hbytes hstr
      induction l generalizing s with
      | nil => injection hh with hh; subst hh; exact hs
      | cons x l ih =>
        rw [List.foldlM_cons] at hh
        obtain ⟨n, hn, hh⟩ := except_bind_ok hh
        exact ih n (hf32 _ _ _ hn) hh hh
  · exact hashFold_is32 _ (fun _ _ _ => hf64 _ _) s hs
  · exact hashFold_is32 _ (fun _ _ h => hbytes _ _ h) s hs
  · exact hashFold_is32 _ (fun _ _ h => hstr _ _ h) s hs
  · exact hashFold_is32 _ (fun _ _ _ => hobj _ _) s hs

/-- **C22**, concatenation: hashing `x ++ y` is hashing `y` seeded with the hash of `x`. -/
theorem C22_concatenation (s : Int) :
    (∀ x y : List UInt8, hashBytes s (some (x ++ y)) = hashBytes (hashBytes s (some x)) (some y)) ∧
    (∀ x y : PyStr, hashString s (some (x ++ y)) = hashString (hashString s (some x)) (some y)) ∧
    (∀ x y : List Int, hashIntArray s (some (x ++ y)) = hashIntArray (hashIntArray s (some x)) (some y)) ∧
    (∀ x y : List Bool, hashBoolArray s (some (x ++ y)) = hashBoolArray (hashBoolArray s (some x)) (some y)) ∧
    (∀ x y : List PyFloat, hashFloat64Array s (some (x ++ y)) = hashFloat64Array (hashFloat64Array s (some x)) (some y)) ∧
    (∀ x y : List (List UInt8), hashBytesArray s (some (x ++ y)) = hashBytesArray (hashBytesArray s (some x)) (some y)) ∧
    (∀ x y : List PyStr, hashStringArray s (some (x ++ y)) = hashStringArray (hashStringArray s (some x)) (some y)) ∧
    (∀ x y : List Int, hashObjectArray s (some (x ++ y)) = hashObjectArray (hashObjectArray s (some x)) (some y)) := by
  refine ⟨?_, ?_, ?_, ?_, ?_, ?_, ?_, ?_⟩ <;> intro x y <;> exact List.foldl_append ..

/-- **C22**, what one step is: `37 * seed + value` modulo 2^32. -/
theorem C22_step (s v : Int) : hashInt32 s (some v) = (37 * s + v) % 2 ^ 32 := by
  show Int.fmod _ _ = _
  rw [Int.fmod_eq_emod_of_nonneg _ (by norm_num)]; rfl

/-- **C22**, 64-bit integers hash as the exclusive or of their halves; a negative integer as its two's complement. -/
theorem C22_int64 (s : Int) (hi lo : Nat) (hhi : hi < 2 ^ 32) (hlo : lo < 2 ^ 32) :
    hashInt64 s (some (hi * 2 ^ 32 + lo : Nat)) = (37 * s + (lo ^^^ hi : Nat)) % 2 ^ 32 ∧
    hashInt64 s (some (((hi * 2 ^ 32 + lo : Nat) : Int) - 2 ^ 64)) = (37 * s + (lo ^^^ hi : Nat)) % 2 ^ 32 := by
  have h1 : (Int.fmod ((hi * 2 ^ 32 + lo : Nat) : Int) (2 ^ 32)).toNat = lo := by
    rw [Int.fmod_eq_emod_of_nonneg _ (by norm_num)]; omega
  have h2 : (Int.fmod ((hi * 2 ^ 32 + lo : Nat) : Int) (2 ^ 64)).toNat = hi * 2 ^ 32 + lo := by
    rw [Int.fmod_eq_emod_of_nonneg _ (by norm_num)]; omega
  have h3 : (Int.fmod (((hi * 2 ^ 32 + lo : Nat) : Int) - 2 ^ 64) (2 ^ 32)).toNat = lo := by
    rw [Int.fmod_eq_emod_of_nonneg _ (by norm_num)]; omega
  have h4 : (Int.fmod (((hi * 2 ^ 32 + lo : Nat) : Int) - 2 ^ 64) (2 ^ 64)).toNat = hi * 2 ^ 32 + lo := by
    rw [Int.fmod_eq_emod_of_nonneg _ (by norm_num)]; omega
  have h5 : (hi * 2 ^ 32 + lo) >>> 32 = hi := by
    rw [Nat.shiftRight_eq_div_pow]; omega
  constructor
  · simp only [hashInt64]
    rw [h1, h2, h5, Int.fmod_eq_emod_of_nonneg _ (by norm_num)]; rfl
  · simp only [hashInt64]
    rw [h3, h4, h5, Int.fmod_eq_emod_of_nonneg _ (by norm_num)]; rfl

example : hashInt64 23 (some 0x1234567800000001) = 305420748 ∧ hashInt64 23 (some (-2)) = 852 := by decide

/-- **C22**, the other single values: `None` hashes as 0, a boolean as 0 or 1, floats as the integer of their IEEE bits, an
object as its own hash code. -/
theorem C22_values (s : Int) :
    (hashBool s none = hashInt32 s (some 0) ∧ hashInt32 s none = hashInt32 s (some 0) ∧
      hashInt64 s none = hashInt32 s (some 0) ∧ hashFloat32 s none = .ok (hashInt32 s (some 0)) ∧
      hashFloat64 s none = hashInt32 s (some 0) ∧ hashBytes s none = hashInt32 s (some 0) ∧
      hashString s none = hashInt32 s (some 0) ∧ hashObject s none = hashInt32 s (some 0)) ∧
    (∀ b : Bool, hashBool s (some b) = hashInt32 s (some b.toNat)) ∧
    (∀ x n, floatToUint32 x = .ok n → hashFloat32 s (some x) = .ok (hashInt32 s (some (n : Int)))) ∧
    (∀ x, hashFloat64 s (some x) = hashInt64 s (some (floatToUint64 x : Int))) ∧
    (∀ h, hashObject s (some h) = hashInt32 s (some h)) := by
  refine ⟨⟨rfl, rfl, rfl, rfl, rfl, rfl, rfl, rfl⟩, ?_, ?_, fun _ => rfl, fun _ => rfl⟩
  · intro b; cases b <;> rfl
  · intro x n h
    simp only [hashFloat32, h]
    rfl

/-- The polynomial `37^n * s + Σ 37^(n-1-i) * v_i` of a sequence. -/
def hashPolynomial (s : Int) : List Int → Int
  | [] => s
  | v :: vs => hashPolynomial (37 * s + v) vs

theorem hashPolynomial_sum (s : Int) (vs : List Int) :
    hashPolynomial s vs = 37 ^ vs.length * s + hashPolynomial 0 vs := by
  induction vs generalizing s with
  | nil => simp [hashPolynomial]
  | cons v vs ih =>
    simp only [hashPolynomial, List.length_cons]
    rw [ih (37 * s + v), ih (37 * 0 + v)]
    ring

theorem foldl_hash (s : Int) (vs : List Int) (hs : Is32 s) :
    vs.foldl (fun r e => hashInt32 r (some e)) s = hashPolynomial s vs % 2 ^ 32 := by
  have key : ∀ (vs : List Int) (s t : Int), s % 2 ^ 32 = t % 2 ^ 32 → Is32 s →
      vs.foldl (fun r e => hashInt32 r (some e)) s = hashPolynomial t vs % 2 ^ 32 := by
    intro vs
    induction vs with
    | nil =>
      intro s t h hs
      have := Int.emod_eq_of_lt hs.1 hs.2
      simp only [List.foldl_nil, hashPolynomial]; omega
    | cons v vs ih =>
      intro s t h _
      rw [List.foldl_cons, hashPolynomial]
      refine ih _ _ ?_ (hashInt32_is32 _ _)
      rw [C22_step]; omega
  exact key vs s s rfl hs

/-- **C22**, sequences hash as a polynomial: bytes, strings and arrays of integers. -/
theorem C22_sequence (s : Int) (hs : Is32 s) :
    (∀ vs : List Int, hashIntArray s (some vs) = hashPolynomial s vs % 2 ^ 32) ∧
    (∀ bs : List UInt8, hashBytes s (some bs) = hashPolynomial s (bs.map fun b => (b.toNat : Int)) % 2 ^ 32) ∧
    (∀ cs : PyStr, hashString s (some cs) = hashPolynomial s (List.map (fun c : Nat => (c : Int)) cs) % 2 ^ 32) ∧
    (∀ hs : List Int, hashObjectArray s (some hs) = hashPolynomial s hs % 2 ^ 32) ∧
    (∀ bs : List Bool, hashBoolArray s (some bs) = hashPolynomial s (bs.map fun b => (b.toNat : Int)) % 2 ^ 32) := by
  refine ⟨fun vs => foldl_hash s vs hs, ?_, ?_, fun vs => foldl_hash s vs hs, ?_⟩
  · intro bs
    rw [← foldl_hash s _ hs, List.foldl_map]; rfl
  · intro cs
    rw [← foldl_hash s _ hs, List.foldl_map]; rfl
  · intro bs
    rw [← foldl_hash s _ hs, List.foldl_map]
    show bs.foldl (fun r e => hashBool r (some e)) s = _
    congr 1
    funext r b
    cases b <;> rfl

/-- **C22**, injectivity on 32-bit values for a fixed seed. -/
theorem C22_injective (s v v' : Int) (hv : 0 ≤ v ∧ v < 2 ^ 32) (hv' : 0 ≤ v' ∧ v' < 2 ^ 32)
    (h : hashInt32 s (some v) = hashInt32 s (some v')) : v = v' := by
  rw [C22_step, C22_step] at h
  omega

/-- The same for signed 32-bit values. -/
theorem C22_injective_signed (s v v' : Int) (hv : -(2 ^ 31) ≤ v ∧ v < 2 ^ 31) (hv' : -(2 ^ 31) ≤ v' ∧ v' < 2 ^ 31)
    (h : hashInt32 s (some v) = hashInt32 s (some v')) : v = v' := by
  rw [C22_step, C22_step] at h
  omega

example : Is32 HASH_SEED ∧ hashString HASH_SEED (some [0x41, 0x20AC]) = 42256 := by
  constructor
  · unfold Is32; decide
  · decide

end Zserio
