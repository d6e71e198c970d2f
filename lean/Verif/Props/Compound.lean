import Verif.Lemmas.CompoundPlain
import Verif.Lemmas.ValEq
import Verif.Props.RoundTrip
import Verif.Lemmas.CompoundDemo
set_option linter.unusedSimpArgs false
/-
C32, C33, C48: generated compounds.

`defs` is any schema that satisfies the layout rules of the compiler, `n` the depth calls can be nested, `id` any compound of it.
The vocabulary (`StoredAs`, `Canonical`, `Layout`) is defined in Spec/Compound.lean.
-/
namespace Zserio
open Writer

/-! ### C32 -/

/-- **C32.** For every object that can be written at some place of a stream, `bitsizeof` of the position is the number of bits
written. -/
theorem C32_compound_bitsizeof (defs : Schema) (closed : Nat → Bool) (hl : defs.Layout closed) (n id : Nat) (x : Val)
    (w w1 : Writer) (hw : w.Reachable) (h : (defs.codec n id).writeTo x w = (.ok (), w1)) :
    w.pos ≤ w1.pos ∧ (defs.codec n id).sizeOf w.pos x = .ok (w1.pos - w.pos) := by
  obtain ⟨b0, rfl⟩ := hw.eq_ofBits
  obtain ⟨bs, rfl, h2, -⟩ := (defs.lawful closed hl n id).plain h
  simp only [ofBits, List.length_append]
  exact ⟨by omega, by rw [h2]; congr 1; omega⟩

/-- An object with packed arrays, optional, aligned and nested fields can be written at a position that is not aligned. -/
example : ∃ w1, (Demo.schema.codec 3 5).writeTo Demo.versionedObj (Writer.init.runAll [.bool true]) = (.ok (), w1) ∧
    w1.pos > 60 :=
  ⟨_, succeeds (by decide +kernel), by decide +kernel⟩

/-! ### C33 -/

/-- **C33.** Deserializing what `serialize` returned, with the same parameters, gives what the format stores of the serialized
object. -/
theorem C33_serialize_deserialize (defs : Schema) (closed : Nat → Bool) (hl : defs.Layout closed) (n id : Nat)
    (x x1 x' : Val) (b : BitBuffer) (ps : List Int) (h : serialize (defs.codec n id) x = .ok (b, x1))
    (hp : x1.params = .ok ps) (hx : defs.StoredAs n id x1 x') : deserialize (defs.codec n id) b ps = .ok x' := by
  unfold serialize at h
  obtain ⟨⟨w, y⟩, h1, h⟩ := except_bind_ok h
  obtain ⟨-, hwr⟩ := serializeToWriter_inv h1
  obtain ⟨b', hb, h⟩ := except_bind_ok h
  simp only [Except.ok.injEq, Prod.mk.injEq] at h
  obtain ⟨rfl, rfl⟩ := h
  obtain ⟨bs, rfl, -, h3⟩ := (defs.lawful closed hl n id).plain hwr
  have hpar := h3 ps x' hx hp [] (.inr rfl)
  simp only [List.nil_append, List.length_nil] at hpar hb
  have hlen : (bs.length : Int) ≤ (packBits bs).length * 8 := by
    have := congrArg List.length (bytesBits_packBits bs)
    rw [bytesBits_length, List.length_append] at this
    omega
  have hb : b' = ⟨packBits bs, bs.length⟩ := by
    have h2 : BitBuffer.make (packBits bs) (some bs.length) = .ok ⟨packBits bs, bs.length⟩ := if_neg (by omega)
    exact Except.ok.inj (hb.symm.trans h2)
  subst hb
  have h4 : Reader.fromBitBuffer ⟨packBits bs, bs.length⟩ = .ok ⟨packBits bs, bs.length, 0⟩ := if_neg (by simp only; omega)
  unfold deserialize
  rw [h4, ok_bind]
  refine Reader.Parses.run hpar ?_ (by simp) rfl
  simp [bytesBits_packBits]

/-- **C33.** A canonical object is read back as it is. -/
theorem C33_equal (defs : Schema) (closed : Nat → Bool) (hl : defs.Layout closed) (n id : Nat) (x x1 : Val) (b : BitBuffer)
    (ps : List Int) (h : serialize (defs.codec n id) x = .ok (b, x1)) (hp : x1.params = .ok ps)
    (hx : defs.Canonical n id x1) : deserialize (defs.codec n id) b ps = .ok x1 :=
  C33_serialize_deserialize defs closed hl n id x x1 x1 b ps h hp hx.isStored

/-- An object with nested, optional, packed, aligned fields and an offset, which `serialize` sets. -/
example : (∃ b, serialize (Demo.schema.codec 3 3) (Demo.mainObj 0) = .ok (b, Demo.mainObj 21)) ∧
    (Demo.mainObj 21).params = .ok [42] ∧ Demo.schema.Canonical 3 3 (Demo.mainObj 21) :=
  ⟨⟨⟨[3, 0, 0, 0, 21, 0, 130, 178, 101, 180, 31, 251, 18, 137, 192, 255, 255, 127, 255, 0, 5, 2, 128, 2, 127, 128, 0, 0, 23,
    87, 192], 242⟩, by decide +kernel⟩, rfl, demo_main_canonical 21⟩

/-- **C33** in the middle of a stream: an object of a closed type, written at any position, is read back whatever follows. -/
theorem C33_stream (defs : Schema) (closed : Nat → Bool) (hl : defs.Layout closed) (n id : Nat) (hc : closed id = true)
    (x x' : Val) (ps : List Int) (hp : x.params = .ok ps) (hx : defs.StoredAs n id x x')
    (w w1 : Writer) (hw : w.Reachable) (h : (defs.codec n id).writeTo x w = (.ok (), w1)) :
    ∀ later r, ReadsAt r (w1.runAll later).bytes w.pos w1.pos →
      (defs.codec n id).fromReader ps r = (.ok x', { r with pos := w1.pos }) := by
  obtain ⟨b0, rfl⟩ := hw.eq_ofBits
  obtain ⟨bs, rfl, -, h3⟩ := (defs.lawful closed hl n id).plain h
  rintro later r ⟨h1, h2, h4, h5⟩
  refine Zserio.read_after (P := fun r y => y = (.ok x', { r with pos := (ofBits (b0 ++ bs)).pos }))
    (mr := (defs.codec n id).fromReader ps) ?_ later r h1 h2 h4 h5
  intro s r hwf hpos hrest
  rw [h3 ps x' hx hp s (.inl hc) r hwf hpos hrest]
  simp [ofBits, Reader.advance, hpos]

/-- An object with an optional field, written after a `bool`. -/
example : Demo.closed 0 = true ∧ (Demo.itemObj 5 100 (.int 3)).params = .ok [5] ∧
    (∃ x', Demo.schema.StoredAs 2 0 (Demo.itemObj 5 100 (.int 3)) x') ∧
    ∃ w1, (Demo.schema.codec 2 0).writeTo (Demo.itemObj 5 100 (.int 3)) (Writer.init.runAll [.bool true]) = (.ok (), w1) :=
  ⟨rfl, rfl, ⟨_, (demo_item_canonical2 5 100 (.int 3) (by decide)).isStored⟩, _, succeeds (by decide +kernel)⟩

/-- The same for open types if nothing follows. -/
theorem C33_stream_end (defs : Schema) (closed : Nat → Bool) (hl : defs.Layout closed) (n id : Nat)
    (x x' : Val) (ps : List Int) (hp : x.params = .ok ps) (hx : defs.StoredAs n id x x')
    (w w1 : Writer) (hw : w.Reachable) (h : (defs.codec n id).writeTo x w = (.ok (), w1)) (r : Reader)
    (hr : r.buffer = w1.bytes ∧ r.bitsize = w1.pos ∧ r.pos = w.pos) :
      (defs.codec n id).fromReader ps r = (.ok x', { r with pos := w1.pos }) := by
  obtain ⟨b0, rfl⟩ := hw.eq_ofBits
  obtain ⟨bs, rfl, -, h3⟩ := (defs.lawful closed hl n id).plain h
  obtain ⟨h1, h2, h4⟩ := hr
  have hlen : ((b0 ++ bs).length : Int) ≤ (packBits (b0 ++ bs)).length * 8 := by
    have := congrArg List.length (bytesBits_packBits (b0 ++ bs))
    rw [bytesBits_length, List.length_append] at this
    omega
  simp only [ofBits] at h1 h2 h4
  have := h3 ps x' hx hp [] (.inr rfl) r ⟨by rw [h1, h2]; exact hlen, by
    rw [h2, h4]; simp⟩ h4 (by
    rw [Reader.rest, h1, h2, h4, bytesBits_packBits, Int.toNat_natCast, List.take_left, List.drop_left, List.append_nil])
  rw [this]
  simp [ofBits, Reader.advance, h4]

/-- An object with two extended fields. -/
example : Demo.closed 5 = false ∧ Demo.versionedObj.params = .ok [] ∧
    (∃ x', Demo.schema.StoredAs 3 5 Demo.versionedObj x') ∧
    ∃ w1, (Demo.schema.codec 3 5).writeTo Demo.versionedObj (Writer.init.runAll [.bool true]) = (.ok (), w1) :=
  ⟨rfl, rfl, ⟨_, demo_versioned_canonical.isStored⟩, _, succeeds (by decide +kernel)⟩

/-! ### C48 -/

/-- **C48.** `deserialize_from_bytes` ignores the padding after an object of a closed type. -/
theorem C48_from_bytes (defs : Schema) (closed : Nat → Bool) (hl : defs.Layout closed) (n id : Nat) (hc : closed id = true)
    (x x1 x' : Val) (bytes : List UInt8) (ps : List Int) (h : serializeToBytes (defs.codec n id) x = .ok (bytes, x1))
    (hp : x1.params = .ok ps) (hx : defs.StoredAs n id x1 x') : deserializeFromBytes (defs.codec n id) bytes ps = .ok x' := by
  unfold serializeToBytes at h
  obtain ⟨⟨w, y⟩, h1, h⟩ := except_bind_ok h
  obtain ⟨-, hwr⟩ := serializeToWriter_inv h1
  simp only [Except.ok.injEq, Prod.mk.injEq] at h
  obtain ⟨rfl, rfl⟩ := h
  obtain ⟨bs, rfl, -, h3⟩ := (defs.lawful closed hl n id).plain hwr
  have hpar := h3 ps x' hx hp (zeros (padLen bs.length)) (.inl hc)
  simp only [List.nil_append, List.length_nil] at hpar ⊢
  have hlen := congrArg List.length (bytesBits_packBits bs)
  rw [bytesBits_length] at hlen
  have h4 : Reader.fromBitBuffer ⟨packBits bs, (packBits bs).length * 8⟩ = .ok ⟨packBits bs, (packBits bs).length * 8, 0⟩ :=
    if_neg (by simp only; omega)
  unfold deserializeFromBytes BitBuffer.make
  simp only [ok_bind, ofBits]
  unfold deserialize
  rw [h4, ok_bind]
  refine Reader.Parses.run hpar ?_ ?_ rfl
  · simp only [← bytesBits_packBits]
    simp
  · simp only
    rw [← hlen]; push_cast; omega

/-- 242 bits, padded to 31 bytes -/
example : (∃ bytes, serializeToBytes (Demo.schema.codec 3 3) (Demo.mainObj 0) = .ok (bytes, Demo.mainObj 21)) ∧
    Demo.closed 3 = true ∧ (Demo.mainObj 21).params = .ok [42] ∧ Demo.schema.Canonical 3 3 (Demo.mainObj 21) :=
  ⟨⟨[3, 0, 0, 0, 21, 0, 130, 178, 101, 180, 31, 251, 18, 137, 192, 255, 255, 127, 255, 0, 5, 2, 128, 2, 127, 128, 0, 0, 23,
    87, 192], by decide +kernel⟩, rfl, rfl, demo_main_canonical 21⟩

end Zserio
