import Verif.Lemmas.ValidInv
import Verif.Lemmas.ValidInit
import Verif.Props.Offsets
import Verif.Props.Rewrite
set_option linter.unusedSimpArgs false
/-
C75: which objects can be written.

`defs` is any schema, `n` the depth calls can be nested, `id` any compound of it.  `defs.Valid n id x` (Spec/Valid.lean): the object
`x` satisfies the schema.
-/
namespace Zserio
open Writer

/-! ### Valid objects are written -/

/-- **C75.** Every valid object whose offsets have been initialised can be written, at every position. -/
theorem C75_written (defs : Schema) (hr : defs.OffsetRules) (n id : Nat) (x x1 : Val) (e : Nat) (w : Writer) (hw : w.Reachable)
    (hi : (defs.codec n id).initialize w.pos x = .ok (e, x1)) (hv : defs.Valid n id x1) :
    ∃ w1, (defs.codec n id).writeTo x1 w = (.ok (), w1) ∧ w1.pos = e := by
  obtain ⟨-, h1, h2⟩ := C34_initialize_then_write defs hr n id x x1 e w hw hi
  obtain ⟨b0, rfl⟩ := hw.eq_ofBits
  rcases Schema.writeTo_outcome (off := True) (by simp) hv b0 with ⟨-, w', h⟩ | ⟨bs, ⟨⟩, h, -⟩
  · rw [h] at h1
    exact absurd rfl h1
  · exact ⟨_, h, h2 _ h⟩

/-- **C75.** Without offsets, `serialize` succeeds for every valid object and does not change it. -/
theorem C75_serialized (defs : Schema) (ho : defs.NoOffsets) (n id : Nat) (x : Val) (hv : defs.Valid n id x) :
    ∃ b, serialize (defs.codec n id) x = .ok (b, x) := by
  obtain ⟨e, he⟩ := Schema.initialize_valid ho hv 0
  rcases Schema.writeTo_outcome (off := False) (fun _ => ho) hv [] with ⟨h, -⟩ | ⟨bs, ⟨⟩, h, -⟩
  · exact h.elim
  unfold Runs at h
  rw [List.nil_append, ← ofBits_nil] at h
  have hlen : (bs.length : Int) ≤ (packBits bs).length * 8 := by
    have := congrArg List.length (bytesBits_packBits bs)
    rw [bytesBits_length, List.length_append] at this
    omega
  refine ⟨⟨packBits bs, bs.length⟩, ?_⟩
  unfold serialize serializeToWriter
  rw [he, ok_bind]
  simp only [h, ok_bind]
  have h2 : BitBuffer.make (packBits bs) (some bs.length) = .ok ⟨packBits bs, bs.length⟩ := if_neg (by omega)
  simp only [ofBits, h2, ok_bind]

/-- **C75.** With offsets, `serialize` succeeds if the object is valid after the offsets have been initialised. -/
theorem C75_serialized_offsets (defs : Schema) (hr : defs.OffsetRules) (n id : Nat) (x x1 : Val) (e : Nat)
    (hi : (defs.codec n id).initialize 0 x = .ok (e, x1)) (hv : defs.Valid n id x1) :
    ∃ b, serialize (defs.codec n id) x = .ok (b, x1) ∧ b.bitsize = e := by
  obtain ⟨w1, h, hpos⟩ := C75_written defs hr n id x x1 e Writer.init ⟨[], rfl⟩ hi hv
  obtain ⟨b1, rfl⟩ : ∃ b1, w1 = ofBits b1 := by
    rw [ofBits_nil] at h
    rcases Schema.writeTo_outcome (off := True) (by simp) hv [] with ⟨-, w', h'⟩ | ⟨bs, ⟨⟩, h', -⟩
    · rw [h'] at h; cases h
    · unfold Runs at h'
      rw [h'] at h
      simp only [Prod.mk.injEq, true_and] at h
      exact ⟨_, h.symm⟩
  have hlen : (b1.length : Int) ≤ (packBits b1).length * 8 := by
    have := congrArg List.length (bytesBits_packBits b1)
    rw [bytesBits_length, List.length_append] at this
    omega
  refine ⟨⟨packBits b1, b1.length⟩, ?_, ?_⟩
  · unfold serialize serializeToWriter
    rw [hi, ok_bind]
    simp only [h, ok_bind]
    have h2 : BitBuffer.make (packBits b1) (some b1.length) = .ok ⟨packBits b1, b1.length⟩ := if_neg (by omega)
    simp only [ofBits, h2, ok_bind]
  · simpa [ofBits] using hpos

/-- **C75.** Every valid object which is stored as it is survives `serialize` and `deserialize`; nothing has to be assumed about
the success of the calls. -/
theorem C75_round_trip (defs : Schema) (closed : Nat → Bool) (hl : defs.Layout closed) (ho : defs.NoOffsets) (n id : Nat) (x : Val)
    (ps : List Int) (hv : defs.Valid n id x) (hc : defs.Canonical n id x) (hp : x.params = .ok ps) :
    ∃ b, serialize (defs.codec n id) x = .ok (b, x) ∧ deserialize (defs.codec n id) b ps = .ok x := by
  obtain ⟨b, hb⟩ := C75_serialized defs ho n id x hv
  exact ⟨b, hb, C33_equal defs closed hl n id x x b ps hb hp hc⟩

/-! ### Invalid objects are not written -/

/-- **C75 (partial).** Without packed arrays, an object that has been written is valid.  (With packed arrays it is not:
`C75_packed`.) -/
theorem C75_valid_partial (defs : Schema) (hp : defs.NoPacked) (n id : Nat) (x : Val) (w w1 : Writer) (hw : w.Reachable)
    (h : (defs.codec n id).writeTo x w = (.ok (), w1)) : defs.Valid n id x := by
  obtain ⟨b0, rfl⟩ := hw.eq_ofBits
  obtain ⟨c, w2, h1, -⟩ := Writer.bind_inv (show ((defs.codec n id).write none Ctx.empty x >>= fun _ => pure ()) (ofBits b0) = _ from h)
  exact (Schema.inverts hp n id _ _ _ _ _ h1).1

/-- **C75 (partial).** An object that is not valid is rejected: `write` raises. -/
theorem C75_rejected_partial (defs : Schema) (hp : defs.NoPacked) (n id : Nat) (x : Val) (w : Writer) (hw : w.Reachable)
    (h : ¬ defs.Valid n id x) : ∃ e w1, (defs.codec n id).writeTo x w = (.error e, w1) := by
  rcases hx : (defs.codec n id).writeTo x w with ⟨e | ⟨⟩, w1⟩
  · exact ⟨e, w1, rfl⟩
  · exact absurd (C75_valid_partial defs hp n id x w w1 hw hx) h

/-- what `serialize` has done -/
theorem serialize_written {k : Codec} {x x1 : Val} {b : BitBuffer} (h : serialize k x = .ok (b, x1)) :
    (∃ e, k.initialize 0 x = .ok (e, x1)) ∧ ∃ w1, k.writeTo x1 Writer.init = (.ok (), w1) := by
  unfold serialize serializeToWriter at h
  obtain ⟨⟨w, y⟩, h1, h2⟩ := except_bind_ok h
  obtain ⟨⟨e, y1⟩, h3, h4⟩ := except_bind_ok h1
  obtain ⟨b', h5, h6⟩ := except_bind_ok h2
  simp only [Except.ok.injEq, Prod.mk.injEq] at h6
  obtain ⟨rfl, rfl⟩ := h6
  simp only at h4
  rcases hx : k.writeTo y1 Writer.init with ⟨er | ⟨⟩, w1⟩
  · rw [hx] at h4; cases h4
  · rw [hx] at h4
    simp only [Except.ok.injEq, Prod.mk.injEq] at h4
    obtain ⟨-, rfl⟩ := h4
    exact ⟨⟨e, h3⟩, w1, hx⟩

/-- **C75 (partial).** Without offsets and packed arrays, `serialize` succeeds exactly for the valid objects. -/
theorem C75_serialize_iff_partial (defs : Schema) (ho : defs.NoOffsets) (hp : defs.NoPacked) (n id : Nat) (x : Val) :
    (∃ b x1, serialize (defs.codec n id) x = .ok (b, x1)) ↔ defs.Valid n id x := by
  constructor
  · rintro ⟨b, x1, h⟩
    obtain ⟨⟨e, h1⟩, w1, h2⟩ := serialize_written h
    have hv := C75_valid_partial defs hp n id x1 _ w1 ⟨[], rfl⟩ h2
    obtain rfl : x1 = x := Schema.initialize_same ho h1
    exact hv
  · intro h
    obtain ⟨b, hb⟩ := C75_serialized defs ho n id x h
    exact ⟨b, x, hb⟩

/-- **C75 (partial).** With offsets: once these could be initialised, `serialize` succeeds exactly if the object then is valid. -/
theorem C75_serialize_offsets_iff_partial (defs : Schema) (hr : defs.OffsetRules) (hp : defs.NoPacked) (n id : Nat) (x x1 : Val)
    (e : Nat) (hi : (defs.codec n id).initialize 0 x = .ok (e, x1)) :
    (∃ b y, serialize (defs.codec n id) x = .ok (b, y)) ↔ defs.Valid n id x1 := by
  constructor
  · rintro ⟨b, y, h⟩
    obtain ⟨⟨e', h1⟩, w1, h2⟩ := serialize_written h
    rw [hi] at h1
    simp only [Except.ok.injEq, Prod.mk.injEq] at h1
    obtain ⟨-, rfl⟩ := h1
    exact C75_valid_partial defs hp n id x1 _ w1 ⟨[], rfl⟩ h2
  · intro h
    obtain ⟨b, hb, -⟩ := C75_serialized_offsets defs hr n id x x1 e hi h
    exact ⟨b, x1, hb⟩

/-! ### Examples -/

theorem demo_item_valid (n : Nat) (p x : Int) (y : Val) (hx : 0 ≤ x ∧ x < 2 ^ 7)
    (hy : p ≤ 3 ∨ ∃ z, y = .int z ∧ (IntKind.var .varint32).InRange z) : Demo.schema.Valid (n + 1) 0 (Demo.itemObj p x y) := by
  refine ⟨Or.inr (Or.inr ⟨rfl, ⟨fun _ => ⟨x, rfl, ?_⟩, nofun, nofun, nofun, nofun, nofun⟩⟩), ?_, trivial⟩
  · exact ⟨by omega, hx⟩
  · by_cases h : p ≤ 3
    · refine Or.inr (Or.inl ?_)
      show Except.ok (ε := Err) (decide (p > 3)) = _
      rw [decide_eq_false (by omega)]
    · refine Or.inr (Or.inr ⟨?_, ⟨fun _ => hy.resolve_left h, nofun, nofun, nofun, nofun, nofun⟩⟩)
      show Except.ok (ε := Err) (decide (p > 3)) = _
      rw [decide_eq_true (by omega)]

/-- The object with a packed array of structures, an offset, a union, a choice, an enumeration item with a constraint … is valid. -/
theorem demo_main_valid (off : Int) (h : 0 ≤ off ∧ off < 2 ^ 32) : Demo.schema.Valid 3 3 (Demo.mainObj off) := by
  refine ⟨?_, ?_, ?_, ?_, ?_, ?_, ?_, ?_, ?_, ?_, trivial⟩
  · exact Or.inr (Or.inr ⟨rfl, ⟨fun _ => ⟨3, rfl, by decide +kernel⟩, nofun, nofun, nofun, nofun, nofun⟩⟩)
  · exact Or.inr (Or.inr ⟨rfl, ⟨fun _ => ⟨off, rfl, by decide +kernel, h⟩, nofun, nofun, nofun, nofun, nofun⟩⟩)
  · exact Or.inr (Or.inl rfl)
  · refine Or.inr (Or.inr ⟨rfl, ⟨fun _ => ⟨1, rfl, by decide +kernel, by decide +kernel, by decide +kernel⟩, nofun, ?_, nofun, nofun, nofun⟩⟩)
    rintro e ⟨⟩
    rfl
  · refine Or.inr (Or.inr ⟨rfl, ⟨nofun, ?_, nofun, nofun, nofun, nofun⟩⟩)
    rintro a ⟨⟩
    refine ⟨_, rfl, ?_, fun _ => by decide +kernel, nofun, nofun⟩
    intro x hx
    simp only [List.mem_cons, List.not_mem_nil, or_false] at hx
    rcases hx with rfl | rfl | rfl | rfl | rfl
    · exact demo_item_valid 1 _ _ _ (by decide +kernel) (Or.inl (by decide +kernel))
    · exact demo_item_valid 1 _ _ _ (by decide +kernel) (Or.inl (by decide +kernel))
    · exact demo_item_valid 1 _ _ _ (by decide +kernel) (Or.inl (by decide +kernel))
    · exact demo_item_valid 1 _ _ _ (by decide +kernel) (Or.inl (by decide +kernel))
    · exact demo_item_valid 1 _ _ _ (by decide +kernel) (Or.inr ⟨_, rfl, by decide +kernel⟩)
  · refine Or.inr (Or.inr ⟨rfl, ⟨nofun, ?_, nofun, nofun, nofun, by simp⟩⟩)
    rintro a ⟨⟩
    refine ⟨_, rfl, ?_, nofun, ?_, nofun⟩
    · intro x hx
      simp only [List.mem_cons, List.not_mem_nil, or_false] at hx
      rcases hx with rfl | rfl | rfl <;> exact ⟨_, rfl, by decide +kernel⟩
    · rintro l ⟨⟩
      rfl
  · refine Or.inr (Or.inr ⟨rfl, ⟨fun _ => ⟨by decide +kernel, ?_⟩, nofun, nofun, ?_, ?_, nofun⟩⟩)
    · refine ⟨{ type := .compound 0 [fun _ => .ok 5], packable := true }, rfl, Or.inr (Or.inr ⟨rfl, ?_⟩)⟩
      refine ⟨fun _ => demo_item_valid 0 _ _ _ (by decide +kernel) (Or.inr ⟨_, rfl, by decide +kernel⟩), nofun, nofun, ?_, nofun, nofun⟩
      rintro id args - ⟨⟩ -
      exact ⟨[5], rfl, rfl⟩
    · rintro id args - ⟨⟩ h
      exact absurd rfl h
    · rintro o ⟨⟩
      exact ⟨off, rfl⟩
  · refine Or.inr (Or.inr ⟨rfl, ⟨fun _ => ⟨none, 2, by simp [Choice.select, Demo.param, Choice.selectCase, ok_bind], fun _ hg => by cases hg⟩, nofun, nofun, ?_, nofun, nofun⟩⟩)
    rintro id args - ⟨⟩ -
    exact ⟨[3], rfl, rfl⟩
  · refine Or.inr (Or.inr ⟨rfl, ⟨fun _ => ⟨(0x3FF8000000000000 : PyFloat), rfl, 0x3FC00000, by decide +kernel, by decide +kernel⟩, nofun, nofun, nofun, nofun, nofun⟩⟩)
  · refine Or.inr (Or.inr ⟨rfl, ⟨fun _ => ⟨⟨[0xAB, 0xE0], 11⟩, rfl, by decide +kernel, by decide +kernel⟩, nofun, nofun, nofun, nofun, nofun⟩⟩)

example : Demo.schema.OffsetRules ∧ (Demo.schema.codec 3 3).initialize 0 (Demo.mainObj 99) = .ok (242, Demo.mainObj 21) ∧
    (Demo.schema.codec 3 3).initialize (Writer.init.runAll [.bits 5 8]).pos (Demo.mainObj 99) = .ok (250, Demo.mainObj 22) ∧
    Demo.schema.Valid 3 3 (Demo.mainObj 21) ∧ Demo.schema.Valid 3 3 (Demo.mainObj 22) :=
  ⟨demo_offsetRules, by decide +kernel, by decide +kernel, demo_main_valid _ (by decide +kernel), demo_main_valid _ (by decide +kernel)⟩

theorem rewriteDemo_noOffsets : RewriteDemo.schema.NoOffsets := by
  intro id
  match id with
  | 0 | 1 | (k + 2) => simp [RewriteDemo.schema, RewriteDemo.main, RewriteDemo.pair, CompoundDef.AllFields]

theorem rewriteDemo_noPacked : RewriteDemo.schema.NoPacked := by
  intro id
  match id with
  | 0 | 1 | (k + 2) => simp [RewriteDemo.schema, RewriteDemo.main, RewriteDemo.pair, CompoundDef.AllFields]

theorem rewriteDemo_valid : RewriteDemo.schema.Valid 2 0 rewriteDemoObj := by
  refine ⟨?_, ?_, ?_, ?_, ?_, ?_, trivial⟩
  · exact Or.inr (Or.inr ⟨rfl, ⟨fun _ => ⟨3, rfl, by decide +kernel⟩, nofun, nofun, nofun, nofun, nofun⟩⟩)
  · exact Or.inr (Or.inr ⟨rfl, ⟨fun _ => ⟨5, rfl, by decide +kernel⟩, nofun, nofun, nofun, nofun, nofun⟩⟩)
  · refine Or.inr (Or.inr ⟨rfl, ⟨nofun, ?_, nofun, nofun, nofun, nofun⟩⟩)
    rintro a ⟨⟩
    refine ⟨_, rfl, ?_, nofun, ?_, nofun⟩
    · intro x hx
      simp only [List.mem_cons, List.not_mem_nil, or_false] at hx
      rcases hx with rfl | rfl <;> exact ⟨_, rfl, by decide +kernel, by decide +kernel, by decide +kernel⟩
    · rintro l ⟨⟩
      rfl
  · exact Or.inr (Or.inr ⟨rfl, ⟨fun _ => ⟨(4607182418800017408 : PyFloat), rfl, 0x3F800000, by decide +kernel, by decide +kernel⟩, nofun, nofun, nofun, nofun, nofun⟩⟩)
  · exact Or.inr (Or.inr ⟨rfl, ⟨fun _ => ⟨77, rfl, by decide +kernel⟩, nofun, nofun, nofun, nofun, nofun⟩⟩)
  · exact Or.inl ⟨rfl, rfl⟩

example : RewriteDemo.schema.NoOffsets ∧ RewriteDemo.schema.NoPacked ∧ RewriteDemo.schema.Valid 2 0 rewriteDemoObj ∧
    RewriteDemo.schema.Layout RewriteDemo.closed ∧ rewriteDemoObj.params = .ok [] :=
  ⟨rewriteDemo_noOffsets, rewriteDemo_noPacked, rewriteDemo_valid, rewriteDemo_layout, rfl⟩

/-- an object which is not valid: three items although `n - 1` is two; it is rejected -/
def rewriteDemoInvalid : Val :=
  .obj [] 1 0 [.int 3, .int 5, .arr [.int 1, .int 7, .int 1], .none, .int 77, .obj [] 0 0 []]

example : ¬ RewriteDemo.schema.Valid 2 0 rewriteDemoInvalid := by
  rintro ⟨-, -, h, -⟩
  rcases h with h | h | ⟨-, h⟩
  · cases h.1
  · cases h
  · obtain ⟨xs, h1, -, -, h2, -⟩ := h.elements _ rfl
    cases h1
    cases h2 _ rfl

/-! ### Packed arrays -/

/-- `struct Bytes { packed uint8 a[]; };` -/
def packedBytes : Schema := fun _ => .struct [{ type := .int (.bitField 8), array := some ⟨.auto, true⟩, packable := true }]

/-- **C75 fails for packed arrays:** values which do not belong to the type of the elements are written without an error if they
are stored as differences. -/
theorem C75_packed : ∃ x b, serialize (packedBytes.codec 1 0) x = .ok (b, x) ∧ ¬ packedBytes.Valid 1 0 x := by
  refine ⟨.obj [] 0 0 [.arr [.int 250, .int 251, .int 252, .int 253, .int 254, .int 255, .int 256, .int 257, .int 258, .int 259]],
    ⟨[10, 131, 244, 170, 170, 128], 41⟩, ?_, ?_⟩
  · decide +kernel
  · rintro ⟨h, -⟩
    rcases h with h | h | ⟨-, h⟩
    · cases h.1
    · cases h
    · obtain ⟨xs, h1, h2, -⟩ := h.elements _ rfl
      cases h1
      obtain ⟨x, h3, h4⟩ := h2 (.int 256) (by simp)
      cases h3
      exact absurd h4 (by decide +kernel)

/-- the packed array with values of the type -/
def packedBytesObj : Val := .obj [] 0 0 [.arr [.int 250, .int 251, .int 252, .int 253, .int 254, .int 255]]

example : packedBytes.NoOffsets ∧ packedBytes.Valid 1 0 packedBytesObj ∧ packedBytes.Canonical 1 0 packedBytesObj ∧
    packedBytes.Layout (fun _ => true) := by
  refine ⟨fun _ => by simp [packedBytes, CompoundDef.AllFields], ⟨Or.inr (Or.inr ⟨rfl, ⟨nofun, ?_, nofun, nofun, nofun, nofun⟩⟩), trivial⟩,
    ?_, ?_⟩
  · rintro a ⟨⟩
    refine ⟨_, rfl, ?_, fun _ => by decide +kernel, nofun, nofun⟩
    intro x hx
    simp only [List.mem_cons, List.not_mem_nil, or_false] at hx
    rcases hx with rfl | rfl | rfl | rfl | rfl | rfl <;> exact ⟨_, rfl, by decide +kernel⟩
  · simp [Schema.Canonical, packedBytes, CompoundDef.Canonical, packedBytesObj, Struct.Canonical, FieldDef.Canonical, FieldDef.isUsed,
      FieldDef.CanonicalValue, ElemType.Canonical, AllIndexed]
  · intro id
    simp [packedBytes, CompoundDef.Layout, FieldDef.ArrayOk, FieldDef.Closed, ElemType.FixedSize, Struct.base, numExtended]
    intro i f hf
    rcases i with _ | i <;> simp at hf
    subst hf
    simp

end Zserio
