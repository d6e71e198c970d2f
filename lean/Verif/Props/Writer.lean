import Verif.Lemmas.Calls
/-
Properties C01, C02, C05, C07: the bit stream writer.
-/
namespace Zserio

/-- The bits a writer holds, as seen through `byte_array` and `bitposition`. -/
def Writer.contents (w : Writer) : List Bool := (bytesBits w.bytes).take w.pos

/-! ### C01 -/

/-- **C01.** After any sequence of calls on a new writer (the client survives the failing ones), `bitposition` is the number
of bits appended by the successful calls, the byte array is those bits packed MSB first with zero padding, and its
length is the bit position divided by eight, rounded up. -/
theorem C01_writer_is_concatenation (calls : List WCall) :
    let w := Writer.init.runAll calls
    let stream := specStream [] calls
    w.pos = stream.length ∧ w.bytes = packBits stream ∧
      bytesBits w.bytes = stream ++ zeros (8 * w.bytes.length - stream.length) ∧
      w.bytes.length = (w.pos + 7) / 8 := by
  intro w stream
  have hw : w = Writer.ofBits stream := Writer.runAll_init calls
  have hb := bytesBits_packBits stream
  have hl := packBits_length stream
  refine ⟨by rw [hw]; rfl, by rw [hw]; rfl, ?_, ?_⟩
  · rw [hw]
    show bytesBits (packBits stream) = _ ++ zeros (8 * (packBits stream).length - _)
    rw [hb, hl]
    congr 2
    simp [padLen]; omega
  · rw [hw]; exact hl

/-- Each single call: it succeeds exactly when the specification accepts it. -/
theorem C01_call_outcome (w : Writer) (hw : w.Reachable) (c : WCall) :
    (∃ e, (c.run w).1 = .error e) ↔ c.spec w.pos = none := by
  obtain ⟨bs, rfl⟩ := hw.eq_ofBits
  have h := c.run_spec bs.length
  show _ ↔ c.spec bs.length = none
  rcases hc : c.spec bs.length with _ | a
  · rw [hc] at h
    obtain ⟨e, h⟩ := h
    simp [h bs rfl]
  · rw [hc] at h
    simp [h bs rfl]

/-- Non-trivial instance: an unaligned mixture with a failing call in the middle. -/
example : Writer.init.runAll [.bits 5 3, .bits 9 3, .signedBits (-2) 6, .bool true, .alignto 4, .bytes [0xFF]]
    = ⟨[0xBF, 0x40, 0x1F, 0xF0], 28⟩ := by decide +kernel

/-! ### C02 -/

/-- **C02.** Whatever is called after a state has been reached, the bits already written stay the same and the bit
position does not decrease. -/
theorem C02_prefix_stable (w : Writer) (hw : w.Reachable) (later : List WCall) :
    w.pos ≤ (w.runAll later).pos ∧ (w.runAll later).contents.take w.pos = w.contents ∧ w.contents.length = w.pos := by
  obtain ⟨bs, rfl⟩ := hw.eq_ofBits
  rw [Writer.runAll_ofBits]
  obtain ⟨ext, he⟩ := specStream_prefix bs later
  rw [he]
  have hc : ∀ l, (Writer.ofBits l).contents = l := by
    intro l
    show (bytesBits (packBits l)).take l.length = l
    rw [bytesBits_packBits, List.take_left]
  rw [hc, hc]
  simp [Writer.ofBits]

example : (Writer.init.runAll [.bits 5 3]).Reachable := ⟨_, rfl⟩

/-! ### C05 -/

/-- **C05.** `write_bits(value, numbits)` raises exactly when `numbits` is not in 1..64 or the value needs more bits or is
negative, and then the writer is unchanged. -/
theorem C05_write_bits (w : Writer) (hw : w.Reachable) (value numbits : Int) :
    ((∃ e, (Writer.writeBits value numbits w).1 = .error e) ↔
      ¬ (1 ≤ numbits ∧ numbits ≤ 64 ∧ 0 ≤ value ∧ value < 2 ^ numbits.toNat)) ∧
    ((∃ e, (Writer.writeBits value numbits w).1 = .error e) → (Writer.writeBits value numbits w).2 = w) := by
  obtain ⟨bs, rfl⟩ := hw.eq_ofBits
  have h := (WCall.bits value numbits).run_spec bs.length
  simp only [WCall.spec, WCall.run] at h
  have hiff : (validNumbits numbits ∧ fitsUnsigned value numbits.toNat) ↔
      (1 ≤ numbits ∧ numbits ≤ 64 ∧ 0 ≤ value ∧ value < 2 ^ numbits.toNat) := by
    unfold validNumbits fitsUnsigned
    constructor
    · rintro ⟨⟨_, _⟩, _, _⟩; refine ⟨‹_›, ‹_›, ‹_›, by omega⟩
    · rintro ⟨_, _, _, _⟩; refine ⟨⟨‹_›, ‹_›⟩, ‹_›, by omega⟩
  by_cases hc : validNumbits numbits ∧ fitsUnsigned value numbits.toNat
  · rw [if_pos hc] at h
    rw [h bs rfl, ← hiff]
    simp [hc]
  · rw [if_neg hc] at h
    obtain ⟨e, h⟩ := h
    rw [h bs rfl, ← hiff]
    simp [hc]

/-- **C05**, signed. -/
theorem C05_write_signed_bits (w : Writer) (hw : w.Reachable) (value numbits : Int) :
    ((∃ e, (Writer.writeSignedBits value numbits w).1 = .error e) ↔
      ¬ (1 ≤ numbits ∧ numbits ≤ 64 ∧ -(2 ^ (numbits.toNat - 1)) ≤ value ∧ value < 2 ^ (numbits.toNat - 1))) ∧
    ((∃ e, (Writer.writeSignedBits value numbits w).1 = .error e) → (Writer.writeSignedBits value numbits w).2 = w) := by
  obtain ⟨bs, rfl⟩ := hw.eq_ofBits
  have h := (WCall.signedBits value numbits).run_spec bs.length
  simp only [WCall.spec, WCall.run] at h
  have hiff : (validNumbits numbits ∧ fitsSigned value numbits.toNat) ↔
      (1 ≤ numbits ∧ numbits ≤ 64 ∧ -(2 ^ (numbits.toNat - 1)) ≤ value ∧ value < 2 ^ (numbits.toNat - 1)) := by
    unfold validNumbits fitsSigned
    constructor
    · rintro ⟨⟨_, _⟩, _, _, _⟩; refine ⟨‹_›, ‹_›, ‹_›, by omega⟩
    · rintro ⟨_, _, _, _⟩; refine ⟨⟨‹_›, ‹_›⟩, by omega, ‹_›, by omega⟩
  by_cases hc : validNumbits numbits ∧ fitsSigned value numbits.toNat
  · rw [if_pos hc] at h
    rw [h bs rfl, ← hiff]
    simp [hc]
  · rw [if_neg hc] at h
    obtain ⟨e, h⟩ := h
    rw [h bs rfl, ← hiff]
    simp [hc]

/-- Every failing call, of any kind, leaves the writer unchanged. -/
theorem C05_failing_call_unchanged (w : Writer) (hw : w.Reachable) (c : WCall)
    (h : ∃ e, (c.run w).1 = .error e) : (c.run w).2 = w := by
  have hn := (C01_call_outcome w hw c).1 h
  obtain ⟨bs, rfl⟩ := hw.eq_ofBits
  have := c.run_ofBits bs
  rw [show c.spec bs.length = none from hn] at this
  simpa using this

-- the boundary values of the widest field, and one value beyond
example : (Writer.writeSignedBits (-(2 ^ 63)) 64 Writer.init).1 = .ok () ∧
    (Writer.writeSignedBits (2 ^ 63) 64 Writer.init) = (.error .range, Writer.init) ∧
    (Writer.writeBits 0 65 Writer.init) = (.error .numbits, Writer.init) := by decide +kernel

/-! ### C07 -/

/-- The limits published in zserio/limits.py for each variable-length type. -/
def VarType.limits : VarType → Int × Int
  | .varint16 => (VARINT16_MIN, VARINT16_MAX)
  | .varint32 => (VARINT32_MIN, VARINT32_MAX)
  | .varint64 => (VARINT64_MIN, VARINT64_MAX)
  | .varint => (VARINT_MIN, VARINT_MAX)
  | .varuint16 => (VARUINT16_MIN, VARUINT16_MAX)
  | .varuint32 => (VARUINT32_MIN, VARUINT32_MAX)
  | .varuint64 => (VARUINT64_MIN, VARUINT64_MAX)
  | .varuint => (VARUINT_MIN, VARUINT_MAX)
  | .varsize => (VARSIZE_MIN, VARSIZE_MAX)

/-- The published limits are the ones of the wire specification. -/
theorem limits_eq (t : VarType) : t.limits = (t.lo, t.hi) := by cases t <;> decide

/-- **C07.** A variable-length write raises if and only if the value lies outside the published limits, and then
leaves the writer unchanged. -/
theorem C07_write_var_range (w : Writer) (hw : w.Reachable) (t : VarType) (v : Int) :
    ((∃ e, (Writer.writeVar t v w).1 = .error e) ↔ (v < t.limits.1 ∨ t.limits.2 < v)) ∧
    ((∃ e, (Writer.writeVar t v w).1 = .error e) → (Writer.writeVar t v w).2 = w) := by
  obtain ⟨bs, rfl⟩ := hw.eq_ofBits
  rw [limits_eq]
  have h := (WCall.var t v).run_spec bs.length
  simp only [WCall.spec, WCall.run] at h
  by_cases hc : t.InRange v
  · rw [if_pos hc] at h
    rw [h bs rfl]
    unfold VarType.InRange at hc
    simp; omega
  · rw [if_neg hc] at h
    obtain ⟨e, h⟩ := h
    rw [h bs rfl]
    unfold VarType.InRange at hc
    simp; omega

example : (Writer.writeVar .varsize (2 ^ 31 - 1) Writer.init).1 = .ok () ∧
    (Writer.writeVar .varsize (2 ^ 31) Writer.init) = (.error .varRange, Writer.init) := by decide +kernel

end Zserio
