import Verif.Lemmas.Array
set_option linter.unusedSimpArgs false
/-
The traits of the built-in types: size, written bits, reading back.
-/
namespace Zserio
open Writer Array'

theorem WCall.runs_iff (c : WCall) (b0 bs : List Bool) : Runs c.run b0 bs () ↔ c.spec b0.length = some bs := by
  have h := c.run_spec b0.length
  rcases hc : c.spec b0.length with _ | a
  · rw [hc] at h
    obtain ⟨e, h⟩ := h
    unfold Runs
    rw [h b0 rfl]; simp
  · rw [hc] at h
    constructor
    · intro hr
      rw [(Runs.inj hr (h.runs rfl)).2]
    · rintro ⟨⟩
      exact h.runs rfl

theorem sizeExact_simple {α : Type} {const : Option Nat} {size : α → Except Err Nat} {rd : M Reader α}
    {wr : α → M Writer Unit} {x : α}
    (h : ∀ b0 bs, Runs (wr x) b0 bs () → match const with
      | some n => bs.length = n
      | none => size x = .ok bs.length) : SizeExact (Traits.simple const size rd wr) x := by
  intro b0 bs hr
  have := h b0 bs hr
  cases const with
  | none => exact ⟨this, by simp [Traits.simple]⟩
  | some n => exact ⟨by simp [Traits.simple, this], by simp [Traits.simple, this]⟩

theorem initOffsets_simple {α : Type} {const : Option Nat} {size : α → Except Err Nat} {rd : M Reader α}
    {wr : α → M Writer Unit} (p : Nat) (x : α) :
    (Traits.simple const size rd wr).initOffsets p x =
      ((Traits.simple const size rd wr).bitsizeof p x).map (fun n => (p + n, x)) := by
  cases const <;> simp only [Traits.simple]
  · cases size x <;> rfl
  · rfl

/-- `validNumbits` and the fit, out of a successful write. -/
theorem bitField_runs {n : Nat} {v : Int} {b0 bs : List Bool} (h : Runs ((Traits.bitField n).write v) b0 bs ()) :
    (1 ≤ n ∧ n ≤ 64) ∧ fitsUnsigned v n ∧ bs = natBits n v.toNat := by
  have := ((WCall.bits v n).runs_iff b0 bs).1 h
  simp only [WCall.spec, Int.toNat_natCast] at this
  split at this
  · rename_i hc
    simp only [Option.some.injEq] at this
    exact ⟨by have := hc.1; unfold validNumbits at this; omega, hc.2, this.symm⟩
  · simp at this

theorem signedBitField_runs {n : Nat} {v : Int} {b0 bs : List Bool}
    (h : Runs ((Traits.signedBitField n).write v) b0 bs ()) :
    (1 ≤ n ∧ n ≤ 64) ∧ fitsSigned v n ∧ bs = intBits n v := by
  have := ((WCall.signedBits v n).runs_iff b0 bs).1 h
  simp only [WCall.spec, Int.toNat_natCast] at this
  split at this
  · rename_i hc
    simp only [Option.some.injEq] at this
    exact ⟨by have := hc.1; unfold validNumbits at this; omega, hc.2, this.symm⟩
  · simp at this

theorem var_runs {t : VarType} {v : Int} {b0 bs : List Bool} (h : Runs ((Traits.var t).write v) b0 bs ()) :
    t.InRange v ∧ bs = t.encode v := by
  have := ((WCall.var t v).runs_iff b0 bs).1 h
  simp only [WCall.spec] at this
  split at this
  · rename_i hc
    simp only [Option.some.injEq] at this
    exact ⟨hc, this.symm⟩
  · simp at this

theorem patternBits_some {n : Nat} {x : Except Err Nat} {bs : List Bool} (h : patternBits n x = some bs) :
    ∃ v, x = .ok v ∧ v < 2 ^ n ∧ bs = natBits n v := by
  unfold patternBits at h
  rcases x with e | v
  · simp at h
  · simp only at h
    split at h
    · rename_i hv
      simp only [Option.some.injEq] at h
      exact ⟨v, rfl, hv, h.symm⟩
    · simp at h

theorem bytes_runs {l : List UInt8} {b0 bs : List Bool} (h : Runs (Traits.bytes.write l) b0 bs ()) :
    VarType.varsize.InRange l.length ∧ bs = VarType.varsize.encode l.length ++ bytesBits l := by
  have := ((WCall.bytes l).runs_iff b0 bs).1 h
  simp only [WCall.spec] at this
  split at this
  · rename_i hc
    simp only [Option.some.injEq] at this
    exact ⟨(varsize_inRange_iff _).2 hc, this.symm⟩
  · simp at this

theorem string_runs {s : PyStr} {b0 bs : List Bool} (h : Runs (Traits.string.write s) b0 bs ()) :
    ∃ l, utf8Encode s = .ok l ∧ VarType.varsize.InRange l.length ∧
      bs = VarType.varsize.encode l.length ++ bytesBits l := by
  have := ((WCall.string s).runs_iff b0 bs).1 h
  simp only [WCall.spec] at this
  rcases hs : utf8Encode s with e | l
  · rw [hs] at this; simp at this
  · rw [hs] at this
    simp only at this
    split at this
    · rename_i hc
      simp only [Option.some.injEq] at this
      exact ⟨l, rfl, (varsize_inRange_iff _).2 hc, this.symm⟩
    · simp at this

theorem bitBuffer_run_eq (b : BitBuffer) (hb : b.Fits) :
    (WCall.bitBuffer b.buffer (some b.bitsize)).run = writeBitBuffer b := by
  unfold BitBuffer.Fits at hb
  funext w
  show ((M.lift (BitBuffer.make b.buffer (some b.bitsize)) >>= writeBitBuffer) w) = _
  have : BitBuffer.make b.buffer (some b.bitsize) = .ok b := by
    simp only [BitBuffer.make]
    rw [if_neg (by omega)]
  rw [M.bind_ok (by rw [M.lift_apply, this])]

theorem bitBuffer_runs {b : BitBuffer} (hb : b.Fits) {b0 bs : List Bool}
    (h : Runs (Traits.bitBuffer.write b) b0 bs ()) :
    VarType.varsize.InRange b.bitsize ∧
      bs = VarType.varsize.encode b.bitsize ++ (bytesBits b.buffer).take b.bitsize.toNat := by
  have h' : Runs (WCall.bitBuffer b.buffer (some b.bitsize)).run b0 bs () := by
    rw [bitBuffer_run_eq b hb]; exact h
  have := (WCall.runs_iff _ b0 bs).1 h'
  simp only [WCall.spec, Option.getD_some] at this
  split at this
  · rename_i hc
    simp only [Option.some.injEq] at this
    refine ⟨?_, this.symm⟩
    simp only [VarType.InRange, VarType.lo, VarType.hi]; omega
  · simp at this

/-! ### Sizes -/

theorem sizeExact_bitField (n : Nat) (v : Int) : SizeExact (Traits.bitField n) v :=
  sizeExact_simple fun b0 bs h => by
    obtain ⟨_, _, rfl⟩ := bitField_runs (n := n) h
    simp

theorem sizeExact_signedBitField (n : Nat) (v : Int) : SizeExact (Traits.signedBitField n) v :=
  sizeExact_simple fun b0 bs h => by
    obtain ⟨_, _, rfl⟩ := signedBitField_runs (n := n) h
    simp

theorem sizeExact_var (t : VarType) (v : Int) : SizeExact (Traits.var t) v :=
  sizeExact_simple fun b0 bs h => by
    obtain ⟨h1, rfl⟩ := var_runs (t := t) h
    exact bitsizeofVar_inRange _ _ h1

theorem sizeExact_float16 (x : PyFloat) : SizeExact Traits.float16 x :=
  sizeExact_simple fun b0 bs h => by
    obtain ⟨v, _, _, rfl⟩ := patternBits_some (((WCall.float16 x).runs_iff b0 bs).1 h)
    simp

theorem sizeExact_float32 (x : PyFloat) : SizeExact Traits.float32 x :=
  sizeExact_simple fun b0 bs h => by
    obtain ⟨v, _, _, rfl⟩ := patternBits_some (((WCall.float32 x).runs_iff b0 bs).1 h)
    simp

theorem sizeExact_float64 (x : PyFloat) : SizeExact Traits.float64 x :=
  sizeExact_simple fun b0 bs h => by
    have := ((WCall.float64 x).runs_iff b0 bs).1 h
    simp only [WCall.spec, Option.some.injEq] at this
    simp [← this]

theorem sizeExact_bool (x : Bool) : SizeExact Traits.bool x :=
  sizeExact_simple fun b0 bs h => by
    have := ((WCall.bool x).runs_iff b0 bs).1 h
    simp only [WCall.spec, Option.some.injEq] at this
    simp [← this]

theorem bitsizeofVarsize_inRange {n : Int} (h : VarType.varsize.InRange n) :
    bitsizeofVarsize n = .ok (VarType.varsize.encode n).length := bitsizeofVar_inRange .varsize n h

theorem sizeExact_bytes (x : List UInt8) : SizeExact Traits.bytes x :=
  sizeExact_simple fun b0 bs h => by
    obtain ⟨h1, rfl⟩ := bytes_runs h
    simp only [bitsizeofBytes, bitsizeofVarsize_inRange h1, ok_bind]
    simp [bytesBits_length, Nat.mul_comm]

theorem sizeExact_string (x : PyStr) : SizeExact Traits.string x :=
  sizeExact_simple fun b0 bs h => by
    obtain ⟨l, hl, h1, rfl⟩ := string_runs h
    simp only [bitsizeofString, hl, bitsizeofVarsize_inRange h1, ok_bind]
    simp [bytesBits_length, Nat.mul_comm]

theorem sizeExact_bitBuffer (x : BitBuffer) (hx : x.Fits) : SizeExact Traits.bitBuffer x :=
  sizeExact_simple fun b0 bs h => by
    obtain ⟨h1, rfl⟩ := bitBuffer_runs hx h
    simp only [bitsizeofBitBuffer, bitsizeofVarsize_inRange h1, ok_bind]
    unfold BitBuffer.Fits at hx
    simp [bytesBits_length]
    omega

/-! ### Appending -/

theorem appends_bitField (n : Nat) (v : Int) : Appends ((Traits.bitField n).write v) := appends_call (.bits v n)
theorem appends_signedBitField (n : Nat) (v : Int) : Appends ((Traits.signedBitField n).write v) :=
  appends_call (.signedBits v n)
theorem appends_var (t : VarType) (v : Int) : Appends ((Traits.var t).write v) := appends_call (.var t v)
theorem appends_float16 (x : PyFloat) : Appends (Traits.float16.write x) := appends_call (.float16 x)
theorem appends_float32 (x : PyFloat) : Appends (Traits.float32.write x) := appends_call (.float32 x)
theorem appends_float64 (x : PyFloat) : Appends (Traits.float64.write x) := appends_call (.float64 x)
theorem appends_bool (x : Bool) : Appends (Traits.bool.write x) := appends_call (.bool x)
theorem appends_bytes (x : List UInt8) : Appends (Traits.bytes.write x) := appends_call (.bytes x)
theorem appends_string (x : PyStr) : Appends (Traits.string.write x) := appends_call (.string x)
theorem appends_bitBuffer (x : BitBuffer) (hx : x.Fits) : Appends (Traits.bitBuffer.write x) := by
  have := appends_call (.bitBuffer x.buffer (some x.bitsize))
  rw [bitBuffer_run_eq x hx] at this
  exact this

/-! ### Reading back -/

theorem readsTo_bitField (n i : Nat) (v : Int) : ReadsTo (Traits.bitField n) i v v := by
  intro b0 bs h s
  obtain ⟨hn, hf, rfl⟩ := bitField_runs h
  show Reader.Parses (Reader.asInt (Reader.readBits n)) _ _ _ _
  unfold fitsUnsigned at hf
  obtain ⟨k, rfl⟩ := Int.eq_ofNat_of_zero_le hf.1
  have hk : k < 2 ^ n := by
    have : (k : Int) < 2 ^ n := by omega
    exact_mod_cast this
  unfold Reader.asInt Reader.readBits
  rw [if_neg (by omega)]
  exact Reader.Parses.map (f := fun v : Nat => (v : Int)) (Reader.parses_natBits n k _ s hk)

theorem readsTo_signedBitField (n i : Nat) (v : Int) : ReadsTo (Traits.signedBitField n) i v v := by
  intro b0 bs h s
  obtain ⟨hn, hf, rfl⟩ := signedBitField_runs h
  show Reader.Parses (Reader.readSignedBits n) _ _ _ _
  unfold Reader.readSignedBits
  rw [if_neg (by omega)]
  exact Reader.parses_intBits n v _ s hf.1 hf.2.1 hf.2.2

theorem readsTo_var (t : VarType) (i : Nat) (v : Int) : ReadsTo (Traits.var t) i v v := by
  intro b0 bs h s
  obtain ⟨hr, rfl⟩ := var_runs h
  exact Reader.parses_readVar t v _ s hr

theorem readsTo_float16 (i : Nat) (x : PyFloat) : ReadsTo Traits.float16 i x (storedFloat16 x) := by
  intro b0 bs h s
  obtain ⟨v, h1, h2, rfl⟩ := patternBits_some (((WCall.float16 x).runs_iff b0 bs).1 h)
  rw [storedFloat16, h1]
  exact Reader.Parses.map (f := uint16ToFloat) (Reader.parses_natBits 16 v _ s h2)

theorem readsTo_float32 (i : Nat) (x : PyFloat) : ReadsTo Traits.float32 i x (storedFloat32 x) := by
  intro b0 bs h s
  obtain ⟨v, h1, h2, rfl⟩ := patternBits_some (((WCall.float32 x).runs_iff b0 bs).1 h)
  rw [storedFloat32, h1]
  exact Reader.Parses.map (f := uint32ToFloat) (Reader.parses_natBits 32 v _ s h2)

theorem readsTo_float64 (i : Nat) (x : PyFloat) : ReadsTo Traits.float64 i x x := by
  intro b0 bs h s
  have := ((WCall.float64 x).runs_iff b0 bs).1 h
  simp only [WCall.spec, Option.some.injEq] at this
  subst this
  have hp := Reader.Parses.map (f := uint64ToFloat) (Reader.parses_natBits 64 x.toNat b0.length s x.toNat_lt)
  have hx : uint64ToFloat x.toNat = x := by simp [uint64ToFloat]
  rw [hx] at hp
  exact hp

theorem readsTo_bool (i : Nat) (x : Bool) : ReadsTo Traits.bool i x x := by
  intro b0 bs h s
  have := ((WCall.bool x).runs_iff b0 bs).1 h
  simp only [WCall.spec, Option.some.injEq] at this
  subst this
  exact Reader.parses_readBool x _ s

theorem readsTo_bytes (i : Nat) (x : List UInt8) : ReadsTo Traits.bytes i x x := by
  intro b0 bs h s
  obtain ⟨h1, rfl⟩ := bytes_runs h
  exact Reader.parses_readBytes x _ s h1

theorem readsTo_string (i : Nat) (x : PyStr) : ReadsTo Traits.string i x x := by
  intro b0 bs h s
  obtain ⟨l, hl, h1, rfl⟩ := string_runs h
  exact Reader.parses_readString hl _ s h1

theorem readsTo_bitBuffer (i : Nat) (b : BitBuffer) (hb : b.Fits) : ReadsTo Traits.bitBuffer i b b.stored := by
  intro b0 bs h s
  obtain ⟨h1, rfl⟩ := bitBuffer_runs hb h
  have h0 : 0 ≤ b.bitsize := by simp only [VarType.InRange, VarType.lo] at h1; omega
  unfold BitBuffer.Fits at hb
  have hlen : ((((bytesBits b.buffer).take b.bitsize.toNat).length : Nat) : Int) = b.bitsize := by
    simp [bytesBits_length]; omega
  have := Reader.parses_readBitBuffer ((bytesBits b.buffer).take b.bitsize.toNat) b0.length s (by rw [hlen]; exact h1)
  rw [hlen] at this
  exact this

namespace Builtin

theorem sizeExact (b : Builtin) (x : b.Elem) (hx : b.Valid x) : SizeExact b.traits x := by
  cases b with
  | bitField n => exact sizeExact_bitField n x
  | signedBitField n => exact sizeExact_signedBitField n x
  | var t => exact sizeExact_var t x
  | float16 => exact sizeExact_float16 x
  | float32 => exact sizeExact_float32 x
  | float64 => exact sizeExact_float64 x
  | bool => exact sizeExact_bool x
  | bytes => exact sizeExact_bytes x
  | string => exact sizeExact_string x
  | bitBuffer => exact sizeExact_bitBuffer x hx

theorem appends (b : Builtin) (x : b.Elem) (hx : b.Valid x) : Appends (b.traits.write x) := by
  cases b with
  | bitField n => exact appends_bitField n x
  | signedBitField n => exact appends_signedBitField n x
  | var t => exact appends_var t x
  | float16 => exact appends_float16 x
  | float32 => exact appends_float32 x
  | float64 => exact appends_float64 x
  | bool => exact appends_bool x
  | bytes => exact appends_bytes x
  | string => exact appends_string x
  | bitBuffer => exact appends_bitBuffer x hx

theorem readsTo (b : Builtin) (x : b.Elem) (hx : b.Valid x) (i : Nat) : ReadsTo b.traits i x (b.stored x) := by
  cases b with
  | bitField n => exact readsTo_bitField n i x
  | signedBitField n => exact readsTo_signedBitField n i x
  | var t => exact readsTo_var t i x
  | float16 => exact readsTo_float16 i x
  | float32 => exact readsTo_float32 i x
  | float64 => exact readsTo_float64 i x
  | bool => exact readsTo_bool i x
  | bytes => exact readsTo_bytes i x
  | string => exact readsTo_string i x
  | bitBuffer => exact readsTo_bitBuffer i x hx

theorem initOffsets_eq (b : Builtin) (p : Nat) (x : b.Elem) :
    b.traits.initOffsets p x = (b.traits.bitsizeof p x).map (fun n => (p + n, x)) := by
  cases b <;> first | rfl | (dsimp only [Builtin.traits]; exact initOffsets_simple p x)

theorem initExact (b : Builtin) (x : b.Elem) (hx : b.Valid x) : InitExact b.traits x := by
  intro p p' x1 h
  rw [b.initOffsets_eq] at h
  rcases hs : b.traits.bitsizeof p x with e | n
  · rw [hs] at h; cases h
  · rw [hs] at h
    simp only [Except.map, Except.ok.injEq, Prod.mk.injEq] at h
    obtain ⟨rfl, rfl⟩ := h
    refine ⟨b.appends x hx, ?_⟩
    rintro b0 bs rfl hr
    have := (b.sizeExact x hx b0 bs hr).1
    rw [hs] at this
    simp only [Except.ok.injEq] at this
    rw [this]

end Builtin
end Zserio
