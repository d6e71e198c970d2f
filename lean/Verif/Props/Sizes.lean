import Verif.Lemmas.Calls
/-
Properties C08, C09: size prediction and canonical form of the variable-length types.
-/
namespace Zserio

theorem varGroups_length (isMax : Bool) (n : Nat) (p : List Bool) (hn : 0 < n)
    (hp : p.length = 7 * n + if isMax then 1 else 0) : (varGroups isMax n p).length = 8 * n := by
  induction n generalizing p with
  | zero => omega
  | succ n ih =>
    cases n with
    | zero => cases isMax <;> simp [varGroups] at hp ⊢ <;> omega
    | succ n =>
      have := ih (p.drop 7) (by omega) (by simp; omega)
      rw [varGroups]
      simp [this]
      cases isMax <;> simp at hp <;> omega

theorem varGroupsSigned_length (isMax neg : Bool) (n : Nat) (p : List Bool) (hn : 0 < n) (h1 : n = 1 → isMax = false)
    (hp : p.length = 7 * n - 1 + if isMax then 1 else 0) : (varGroupsSigned isMax neg n p).length = 8 * n := by
  match n with
  | 0 => omega
  | 1 => simp [varGroupsSigned, h1 rfl] at hp ⊢; omega
  | n + 2 =>
    have hl : (p.drop 6).length = 7 * (n + 1) + if isMax then 1 else 0 := by simp; omega
    rw [varGroupsSigned]
    simp [varGroups_length isMax (n + 1) _ (by omega) hl]
    cases isMax <;> simp at hp <;> omega

/-- Length of a representation. -/
theorem encode_length (t : VarType) (v : Int) (h : t.InRange v) :
    (t.encode v).length = 8 * (if t = .varint ∧ v = -(2 ^ 63) then 1 else t.numBytes v) := by
  unfold VarType.encode
  split
  · simp
  · rename_i hne
    have hs := Writer.numBytes_spec t v h hne
    have hmax : 1 < t.maxBytes := by cases t <;> decide
    simp only
    generalize t.numBytes v = n at hs
    split
    · rename_i hsg
      apply varGroupsSigned_length _ _ _ _ (by omega)
      · intro h1; simp; omega
      · simp [VarType.capacity, hsg]
    · rename_i hsg
      apply varGroups_length _ _ _ (by omega)
      simp [VarType.capacity, hsg]

theorem bitsizeofVar_inRange (t : VarType) (v : Int) (h : t.InRange v) : bitsizeofVar t v = .ok (t.encode v).length := by
  rw [bitsizeofVar_eq, if_pos h, encode_length t v h]

theorem bitsizeofVar_outOfRange (t : VarType) (v : Int) (h : ¬ t.InRange v) : bitsizeofVar t v = .error .varRange := by
  rw [bitsizeofVar_eq, if_neg h]

/-- What a predicted size must mean for a write method on a given writer: the number of bits it appends, or that it
raises (without effect). -/
def Predicts (size : Except Err Nat) (m : M Writer Unit) (w : Writer) : Prop :=
  match size with
  | .ok n => ∃ w1, m w = (.ok (), w1) ∧ w1.pos = w.pos + n
  | .error _ => ∃ e, m w = (.error e, w)

theorem predicts_ok {m : M Writer Unit} {bs : List Bool} {w : Writer} {n : Nat} (hw : w.Reachable)
    (h : Writer.Emits m w.pos bs ()) (hn : bs.length = n) : Predicts (.ok n) m w := by
  obtain ⟨b, rfl⟩ := hw.eq_ofBits
  exact ⟨_, h b rfl, by simp [Writer.ofBits, hn]⟩

theorem predicts_error {m : M Writer Unit} {w : Writer} {e e' : Err} (hw : w.Reachable)
    (h : Writer.Fails m w.pos e) : Predicts (.error e') m w := by
  obtain ⟨b, rfl⟩ := hw.eq_ofBits
  exact ⟨e, h b rfl⟩

/-! ### C08 -/

/-- **C08**, variable-length integers: the predicted size is the number of bits appended, and the prediction raises exactly
when the write raises. -/
theorem C08_bitsizeof_var (w : Writer) (hw : w.Reachable) (t : VarType) (v : Int) :
    Predicts (bitsizeofVar t v) (Writer.writeVar t v) w := by
  by_cases h : t.InRange v
  · rw [bitsizeofVar_inRange t v h]
    exact predicts_ok hw (Writer.emits_writeVar t v w.pos h) rfl
  · rw [bitsizeofVar_outOfRange t v h]
    exact predicts_error hw (Writer.fails_writeVar t v w.pos h)

theorem bitsizeofVarsize_eq (n : Int) :
    bitsizeofVarsize n = if VarType.varsize.InRange n then .ok (VarType.varsize.encode n).length else .error .varRange := by
  by_cases h : VarType.varsize.InRange n
  · rw [if_pos h]; exact bitsizeofVar_inRange .varsize n h
  · rw [if_neg h]; exact bitsizeofVar_outOfRange .varsize n h

/-- **C08**, bytes. -/
theorem C08_bitsizeof_bytes (w : Writer) (hw : w.Reachable) (l : List UInt8) :
    Predicts (bitsizeofBytes l) (Writer.writeBytes l) w := by
  unfold bitsizeofBytes
  rw [bitsizeofVarsize_eq]
  by_cases h : VarType.varsize.InRange (l.length : Int)
  · rw [if_pos h]
    exact predicts_ok hw (Writer.emits_writeBytes l w.pos h) (by simp; omega)
  · rw [if_neg h]
    exact predicts_error hw (Writer.fails_writeBytes l w.pos h)

/-- **C08**, strings. -/
theorem C08_bitsizeof_string (w : Writer) (hw : w.Reachable) (s : PyStr) :
    Predicts (bitsizeofString s) (Writer.writeString s) w := by
  have hrun := (WCall.string s).run_spec w.pos
  simp only [WCall.spec, WCall.run] at hrun
  unfold bitsizeofString
  rcases hs : utf8Encode s with e | l
  · rw [hs] at hrun
    obtain ⟨e', h⟩ := hrun
    exact predicts_error hw h
  · rw [hs] at hrun
    show Predicts (do let n ← bitsizeofVarsize (l.length : Int); .ok (n + l.length * 8)) _ _
    rw [bitsizeofVarsize_eq]
    by_cases h : VarType.varsize.InRange (l.length : Int)
    · rw [if_pos h]
      exact predicts_ok hw (Writer.emits_writeString w.pos hs h) (by simp; omega)
    · rw [if_neg h]
      simp only at hrun
      rw [if_neg (fun h' => h ((varsize_inRange_iff _).2 h'))] at hrun
      obtain ⟨e', h⟩ := hrun
      exact predicts_error hw h

/-- **C08**, bit buffers (any buffer a `BitBuffer` can be constructed from). -/
theorem C08_bitsizeof_bitbuffer (w : Writer) (hw : w.Reachable) (b : BitBuffer) (buf : List UInt8) (n : Option Int)
    (hb : BitBuffer.make buf n = .ok b) : Predicts (bitsizeofBitBuffer b) (Writer.writeBitBuffer b) w := by
  have hvalid : b.Valid := by
    unfold BitBuffer.make at hb
    unfold BitBuffer.Valid
    cases n with
    | none => injection hb with hb; subst hb; simp
    | some n =>
      simp only at hb
      split at hb
      · simp at hb
      · injection hb with hb; subst hb; simp only; omega
  unfold bitsizeofBitBuffer
  rw [bitsizeofVarsize_eq]
  by_cases h : VarType.varsize.InRange b.bitsize
  · rw [if_pos h]
    have h0 : 0 ≤ b.bitsize := h.1
    refine predicts_ok hw (Writer.emits_writeBitBuffer b w.pos ⟨h0, hvalid⟩ h) ?_
    have : b.bits.length = b.bitsize.toNat := by
      unfold BitBuffer.bits; unfold BitBuffer.Valid at hvalid; simp; omega
    simp [this]
  · rw [if_neg h]
    exact predicts_error hw (Writer.fails_writeBitBuffer b w.pos h)

example : bitsizeofVar .varuint 300 = .ok 16 ∧ bitsizeofVar .varint (-(2 ^ 63)) = .ok 8 ∧
    bitsizeofBytes [1, 2, 3] = .ok 32 ∧ BitBuffer.make [0xFF, 0xE0] (some 11) = .ok ⟨[0xFF, 0xE0], 11⟩ ∧
    bitsizeofBitBuffer ⟨[0xFF, 0xE0], 11⟩ = .ok 19 := by decide +kernel

/-! ### C09 -/

/-- **C09**, minimality: the encoding has `8 * k` bits where `k` is the least number of bytes, at most the maximum of the
type, whose capacity holds the magnitude.  The single exception is the minimum of `varint`, which is represented by the
otherwise unused "minus zero" (`C09_varint_min`). -/
theorem C09_minimal (t : VarType) (v : Int) (h : t.lo ≤ v ∧ v ≤ t.hi) (hne : ¬ (t = .varint ∧ v = -(2 ^ 63))) :
    ∃ k, (t.encode v).length = 8 * k ∧ 1 ≤ k ∧ k ≤ t.maxBytes ∧ v.natAbs < 2 ^ t.capacity k ∧
      ∀ j, 1 ≤ j → j < k → 2 ^ t.capacity j ≤ v.natAbs := by
  refine ⟨t.numBytes v, ?_, ?_⟩
  · rw [encode_length t v h, if_neg hne]
  · have hs := Writer.numBytes_spec t v h hne
    exact ⟨hs.1, hs.2.1, hs.2.2.1, fun j h1 h2 => hs.2.2.2 j h1 h2⟩

/-- **C09**, the exception. -/
theorem C09_varint_min : VarType.varint.encode (-(2 ^ 63)) = true :: zeros 7 := by decide +kernel

/-- **C09**, sizes never decrease as the magnitude grows. -/
theorem C09_monotone (t : VarType) (v v' : Int) (h : t.lo ≤ v ∧ v ≤ t.hi) (h' : t.lo ≤ v' ∧ v' ≤ t.hi)
    (hle : v.natAbs ≤ v'.natAbs) (hne : ¬ (t = .varint ∧ v' = -(2 ^ 63))) :
    (t.encode v).length ≤ (t.encode v').length := by
  by_cases hne1 : t = .varint ∧ v = -(2 ^ 63)
  · obtain ⟨rfl, rfl⟩ := hne1
    exfalso
    apply hne
    simp only [VarType.lo, VarType.hi] at h'
    refine ⟨rfl, ?_⟩
    have : (-(2 ^ 63) : Int).natAbs = 2 ^ 63 := by decide
    omega
  obtain ⟨k, hk, hk1, hk2, hk3, hk4⟩ := C09_minimal t v h hne1
  obtain ⟨k', hk', hk1', hk2', hk3', hk4'⟩ := C09_minimal t v' h' hne
  rw [hk, hk']
  by_contra hlt
  have := hk4 k' hk1' (by omega)
  omega

/-- **C09**, prefix-freeness: whatever follows, two streams starting with encodings of two values of the type can only be
equal if the values are.  In particular no encoding is a proper prefix of another. -/
theorem C09_prefix_free (t : VarType) (v v' : Int) (h : t.lo ≤ v ∧ v ≤ t.hi) (h' : t.lo ≤ v' ∧ v' ≤ t.hi)
    (s s' : List Bool) (heq : t.encode v ++ s = t.encode v' ++ s') : v = v' := by
  have hlen := packBits_length (t.encode v ++ s)
  let r : Reader := ⟨packBits (t.encode v ++ s), (t.encode v ++ s).length, 0⟩
  have hwf : r.WF := ⟨by show ((t.encode v ++ s).length : Int) ≤ ((packBits _).length : Int) * 8; omega,
    by show (((0 : Nat) : Int)) ≤ ((t.encode v ++ s).length : Int); omega⟩
  have hrest : r.rest = t.encode v ++ s := by
    show (List.take (((t.encode v ++ s).length : Nat) : Int).toNat (bytesBits (packBits _))).drop 0 = _
    rw [bytesBits_packBits, Int.toNat_natCast, List.take_left, List.drop_zero]
  have h1 := Reader.parses_readVar t v 0 s h r hwf rfl hrest
  have h2 := Reader.parses_readVar t v' 0 s' h' r hwf rfl (by rw [hrest, heq])
  rw [h1] at h2
  injection h2 with h2
  injection h2

example : VarType.varuint16.lo ≤ (128 : Int) ∧ (128 : Int) ≤ VarType.varuint16.hi ∧
    VarType.varuint16.encode 127 = natBits 8 127 ∧ VarType.varuint16.encode 128 = natBits 16 0x8080 := by decide +kernel

end Zserio
