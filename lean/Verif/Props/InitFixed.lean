import Verif.Lemmas.InitFixed
import Verif.Props.Reread
set_option linter.unusedSimpArgs false
/-
C34 and C74: `initialize_offsets` leaves an object alone whose offsets are right, so that serializing is stable.

`defs` is any schema, without any restriction, `n` the depth calls can be nested, `id` any compound of it.
-/
namespace Zserio
open Writer

/-- **C34.** If an object can be written as it is, `initialize_offsets` at the position of the writer succeeds, changes nothing, and
returns the position at which the write ends. -/
theorem C34_writable_fixed (defs : Schema) (n id : Nat) (x : Val) (w w1 : Writer) (hw : w.Reachable)
    (h : (defs.codec n id).writeTo x w = (.ok (), w1)) : (defs.codec n id).initialize w.pos x = .ok (w1.pos, x) := by
  obtain ⟨b0, rfl⟩ := hw.eq_ofBits
  unfold Codec.writeTo at h
  obtain ⟨c, w2, h1, h2⟩ := Writer.bind_inv h
  simp only [M.pure_apply, Prod.mk.injEq] at h2
  obtain ⟨-, rfl⟩ := h2
  obtain ⟨bs, ⟨x1, c1⟩, rfl, h3, h4, -⟩ := schema_fixed defs n id none Ctx.empty Ctx.empty x (Ctx.alike_refl _) _ _ _ h1
  obtain rfl : x1 = x := h4
  unfold Codec.initialize
  have h5 : (defs.codec n id).initOffsets none Ctx.empty (ofBits b0).pos x1 = .ok (b0.length + bs.length, x1, c1) := by
    simpa [ofBits] using h3
  rw [h5]
  simp [ofBits, ok_bind]

/-- **C34.** Of all the objects that differ only in what `initialize_offsets` sets, exactly the one it produces can be written. -/
theorem C34_writable_iff (defs : Schema) (n id : Nat) (x x1 : Val) (e : Nat) (w : Writer) (hw : w.Reachable)
    (h : (defs.codec n id).initialize w.pos x = .ok (e, x1)) (h1 : ∃ w1, (defs.codec n id).writeTo x1 w = (.ok (), w1)) :
    (∃ w1, (defs.codec n id).writeTo x w = (.ok (), w1)) ↔ x = x1 := by
  constructor
  · rintro ⟨w1, hx⟩
    have := C34_writable_fixed defs n id x w w1 hw hx
    rw [h] at this
    simp only [Except.ok.injEq, Prod.mk.injEq] at this
    exact this.2.symm
  · rintro rfl
    exact h1

/-- **C34.** An object that can be written at the start of a stream is serialized without being changed. -/
theorem C34_serialize_writable (defs : Schema) (n id : Nat) (x : Val) (w1 : Writer)
    (h : (defs.codec n id).writeTo x Writer.init = (.ok (), w1)) : serializeToBytes (defs.codec n id) x = .ok (w1.bytes, x) := by
  have h1 := C34_writable_fixed defs n id x Writer.init w1 ⟨[], rfl⟩ h
  unfold serializeToBytes serializeToWriter
  rw [show (0 : Nat) = Writer.init.pos from rfl, h1]
  simp only [ok_bind, h]

theorem serializeToWriter_again {defs : Schema} {n id : Nat} {x x1 : Val} {w : Writer}
    (h : serializeToWriter (defs.codec n id) x = .ok (w, x1)) : serializeToWriter (defs.codec n id) x1 = .ok (w, x1) := by
  unfold serializeToWriter at h
  obtain ⟨⟨e, y⟩, -, h⟩ := except_bind_ok h
  simp only at h
  split at h
  · rename_i u w2 hw
    simp only [Except.ok.injEq, Prod.mk.injEq] at h
    obtain ⟨rfl, rfl⟩ := h
    have h1 := C34_writable_fixed defs n id y Writer.init w2 ⟨[], rfl⟩ hw
    unfold serializeToWriter
    rw [show (0 : Nat) = Writer.init.pos from rfl, h1]
    simp only [ok_bind, hw]
  · cases h

/-- **C34.** Serializing an object a second time gives the same bits and changes nothing: the first call has set the offsets to what
they have to be. -/
theorem C34_serialize_twice (defs : Schema) (n id : Nat) (x x1 : Val) (b : BitBuffer)
    (h : serialize (defs.codec n id) x = .ok (b, x1)) : serialize (defs.codec n id) x1 = .ok (b, x1) := by
  unfold serialize at h
  obtain ⟨⟨w, y⟩, h1, h⟩ := except_bind_ok h
  obtain ⟨b', h2, h⟩ := except_bind_ok h
  simp only [Except.ok.injEq, Prod.mk.injEq] at h
  obtain ⟨rfl, rfl⟩ := h
  unfold serialize
  rw [serializeToWriter_again h1]
  simp only [ok_bind, h2]

/-- **C74.** Reading any bits and writing the object again normalises them in one step: reading and writing the result once more gives
the same bits and the same object.  (The bits that were read first may differ from it: alignment, unused bits of the last byte, …) -/
theorem C74_stable (defs : Schema) (closed : Nat → Bool) (hl : defs.Layout closed) (hr : defs.OffsetRules) (hd : defs.PlainDefaults)
    (n id : Nat) (b b' : BitBuffer) (hb : 0 ≤ b.bitsize) (args : List Int) (x x1 : Val)
    (h : deserialize (defs.codec n id) b args = .ok x) (hs : serialize (defs.codec n id) x = .ok (b', x1))
    (hx : defs.Rewritable n id x1) :
    deserialize (defs.codec n id) b' args = .ok x1 ∧ serialize (defs.codec n id) x1 = .ok (b', x1) :=
  ⟨(C74_again defs closed hl hr hd n id b b' hb args x x1 h hs hx).2, C34_serialize_twice defs n id x x1 b' hs⟩

/-- The demo object with right offsets is left alone, the one with wrong offsets is corrected once. -/
example : (∃ w1, (Demo.schema.codec 3 3).writeTo (Demo.mainObj 22) (Writer.init.runAll [.bits 5 8]) = (.ok (), w1)) ∧
    (Demo.schema.codec 3 3).initialize (Writer.init.runAll [.bits 5 8]).pos (Demo.mainObj 99) = .ok (250, Demo.mainObj 22) ∧
    (Demo.schema.codec 3 3).initialize (Writer.init.runAll [.bits 5 8]).pos (Demo.mainObj 22) = .ok (250, Demo.mainObj 22) :=
  ⟨⟨_, succeeds (by decide +kernel)⟩, by decide +kernel, by decide +kernel⟩

example : serialize (Demo.schema.codec 3 3) (Demo.mainObj 99) = .ok (⟨[3, 0, 0, 0, 21, 0, 130, 178, 101, 180, 31, 251, 18, 137, 192, 255,
    255, 127, 255, 0, 5, 2, 128, 2, 127, 128, 0, 0, 23, 87, 192], 242⟩, Demo.mainObj 21) ∧ Demo.mainObj 99 ≠ Demo.mainObj 21 :=
  ⟨by decide +kernel, by decide +kernel⟩

end Zserio
