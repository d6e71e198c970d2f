import Verif.Lemmas.Reread
import Verif.Props.Valid
import Verif.Props.Rewrite
set_option linter.unusedSimpArgs false
/-
C74 for schemas with packed arrays and offsets.

`defs` is any schema that satisfies the layout rules of the compiler, `n` the depth calls can be nested, `id` any compound of it.
The bytes that are read are arbitrary: they need not have been written by zserio.
-/
namespace Zserio
open Writer Reader

/-- **C74.** What has been read, from any position of any bytes, is in canonical form - packed arrays and offsets or not -, unless it
contains one of the exceptions: it has the given parameters, unused optional fields are `None` and absent extended fields have their
default values, so that it is a fixed point of writing and reading. -/
theorem C74_canonical (defs : Schema) (closed : Nat → Bool) (hl : defs.Layout closed) (n id : Nat) (ps : List Int) (r r' : Reader)
    (hr : r.WF) (x : Val) (h : (defs.codec n id).fromReader ps r = (.ok x, r')) (hx : defs.Rewritable n id x) :
    x.params = .ok ps ∧ defs.Canonical n id x := by
  obtain ⟨⟨y, c'⟩, r1, h1, h2⟩ := M.bind_inv (show ((defs.codec n id).read none Ctx.empty ps >>= fun q => pure q.1) r = _ from h)
  simp only [M.pure_apply, Prod.mk.injEq, Except.ok.injEq] at h2
  obtain ⟨rfl, -⟩ := h2
  obtain ⟨h3, h4⟩ := (Reread.schema_reads hl n).gives id none Ctx.empty ps r (y, c') r1 hr h1
  exact ⟨h3, Reread.schema_canonical n id y h4 hx⟩

/-- what `deserialize` has read -/
theorem deserialize_read {k : Codec} {b : BitBuffer} (hb : 0 ≤ b.bitsize) {args : List Int} {x : Val} (h : deserialize k b args = .ok x) :
    ∃ r r', r.WF ∧ k.fromReader args r = (.ok x, r') := by
  obtain ⟨r, h1, h2⟩ := except_bind_ok h
  refine ⟨r, _, ?_, Prod.ext h2 rfl⟩
  unfold Reader.fromBitBuffer Reader.make at h1
  simp only at h1
  split at h1
  · cases h1
  · simp only [Except.ok.injEq] at h1
    subst h1
    refine ⟨?_, ?_⟩ <;> simp only <;> omega

theorem deserialize_canonical (defs : Schema) (closed : Nat → Bool) (hl : defs.Layout closed) (n id : Nat) (b : BitBuffer)
    (hb : 0 ≤ b.bitsize) (args : List Int) (x : Val) (h : deserialize (defs.codec n id) b args = .ok x)
    (hx : defs.Rewritable n id x) : x.params = .ok args ∧ defs.Canonical n id x := by
  obtain ⟨r, r', hr, h1⟩ := deserialize_read hb h
  exact C74_canonical defs closed hl n id args r r' hr x h1 hx

/-- **C74** with packed arrays.  An object which has been read from any bit buffer and satisfies the conditions of its schema
(C75: numbers in packed arrays are in the ranges of their types, …) can be written again, and reading what has been written gives an
equal object. -/
theorem C74_valid (defs : Schema) (closed : Nat → Bool) (hl : defs.Layout closed) (ho : defs.NoOffsets) (n id : Nat) (b : BitBuffer)
    (hb : 0 ≤ b.bitsize) (args : List Int) (x : Val) (h : deserialize (defs.codec n id) b args = .ok x)
    (hx : defs.Rewritable n id x) (hv : defs.Valid n id x) :
    ∃ b', serialize (defs.codec n id) x = .ok (b', x) ∧ deserialize (defs.codec n id) b' args = .ok x := by
  obtain ⟨h1, h2⟩ := deserialize_canonical defs closed hl n id b hb args x h hx
  exact C75_round_trip defs closed hl ho n id x args hv h2 h1

/-- **C74** with packed arrays and offsets.  When an object which has been read from any bit buffer is written again, only its offsets
change, and reading what has been written gives the object with these offsets. -/
theorem C74_again (defs : Schema) (closed : Nat → Bool) (hl : defs.Layout closed) (hr : defs.OffsetRules) (hd : defs.PlainDefaults)
    (n id : Nat) (b b' : BitBuffer) (hb : 0 ≤ b.bitsize) (args : List Int) (x x1 : Val)
    (h : deserialize (defs.codec n id) b args = .ok x) (hs : serialize (defs.codec n id) x = .ok (b', x1))
    (hx : defs.Rewritable n id x1) : defs.Same n id x x1 ∧ deserialize (defs.codec n id) b' args = .ok x1 := by
  obtain ⟨r, r', hw, h1⟩ := deserialize_read hb h
  obtain ⟨⟨y, c'⟩, r1, h0, h2⟩ := M.bind_inv (show ((defs.codec n id).read none Ctx.empty args >>= fun q => pure q.1) r = _ from h1)
  simp only [M.pure_apply, Prod.mk.injEq, Except.ok.injEq] at h2
  obtain ⟨rfl, -⟩ := h2
  obtain ⟨h3, h4⟩ := (Reread.schema_reads hl n).gives id none Ctx.empty args r (y, c') r1 hw h0
  obtain ⟨⟨e, h5⟩, -⟩ := serialize_written hs
  have hsame := ((C34_serialize defs hr n id y x1 e h5).2 _ _ hs).2.1
  have hl1 := (Reread.schema_same hr hd n).loose id y x1 hsame h4
  have hp := (Reread.schema_same hr hd n).params id y x1 hsame
  exact ⟨hsame, C33_equal defs closed hl n id y x1 b' args hs (hp.1.trans h3) (Reread.schema_canonical n id x1 hl1 hx)⟩

/-- **C74** with packed arrays and offsets: an object which has been read can be written again if, with the offsets
`initialize_offsets` gives it, it satisfies the conditions of its schema. -/
theorem C74_offsets (defs : Schema) (closed : Nat → Bool) (hl : defs.Layout closed) (hr : defs.OffsetRules) (hd : defs.PlainDefaults)
    (n id : Nat) (b : BitBuffer) (hb : 0 ≤ b.bitsize) (args : List Int) (x x1 : Val) (e : Nat)
    (h : deserialize (defs.codec n id) b args = .ok x) (hi : (defs.codec n id).initialize 0 x = .ok (e, x1))
    (hv : defs.Valid n id x1) (hx : defs.Rewritable n id x1) :
    ∃ b', serialize (defs.codec n id) x = .ok (b', x1) ∧ b'.bitsize = e ∧ deserialize (defs.codec n id) b' args = .ok x1 := by
  obtain ⟨b', hs, he⟩ := C75_serialized_offsets defs hr n id x x1 e hi hv
  exact ⟨b', hs, he, (C74_again defs closed hl hr hd n id b b' hb args x x1 h hs hx).2⟩

theorem demo_main_rewritable (off : Int) : Demo.schema.Rewritable 3 3 (Demo.mainObj off) := by
  simp [Schema.Rewritable, CompoundDef.Rewritable, Demo.schema, Demo.main, Demo.mainObj, Demo.itemObj, Demo.item, Demo.any, Demo.sel,
    Struct.Rewritable, FieldDef.Rewritable, FieldDef.RewritableValue, ElemType.Rewritable, Val.asInt]
  refine ⟨?_, ?_, ?_⟩
  · rintro - _ n rfl h
    obtain rfl : (3 : Int) = n := Except.ok.inj h
    decide
  · rintro - f hf
    obtain rfl := Except.ok.inj (show Except.ok ({ type := .compound 0 [fun _ => .ok 5], packable := true } : FieldDef) = .ok f from hf)
    simp [Struct.Rewritable, FieldDef.Rewritable, FieldDef.RewritableValue, ElemType.Rewritable]
  · rintro - f slot hf
    have : Except.ok (ε := Err) ((none : Option FieldDef), 2) = .ok (some f, slot) := hf
    cases this

theorem demo_plainDefaults : Demo.schema.PlainDefaults := by
  intro id f hf he
  match id with
  | 0 | 1 | 3 | 4 | 5 | 6 | 7 =>
    simp only [Demo.schema, Demo.item, Demo.any, Demo.main, Demo.opened, Demo.versioned, Demo.indexed, Demo.versioned1,
      CompoundDef.HasField, List.mem_cons, List.not_mem_nil, or_false] at hf
    repeat' (first | subst hf | rcases hf with hf | hf)
    all_goals first | (simp at he; done) | simp
  | 2 =>
    rcases hf with ⟨k, hk, hf⟩ | hf
    · simp only [List.mem_cons, List.not_mem_nil, or_false] at hk
      rcases hk with rfl | rfl
      · obtain rfl := Option.some.inj hf
        simp at he
      · cases hf
    · obtain rfl := Option.some.inj (Option.some.inj hf)
      simp at he
  | k + 8 => cases hf

/-- The bytes are those of an object with a packed array and an offset, in which the length of the packed array takes one byte more
than needed: writing the object changes its offset from 22 to 21. -/
example : Demo.schema.Layout Demo.closed ∧ Demo.schema.OffsetRules ∧ Demo.schema.PlainDefaults ∧
    deserialize (Demo.schema.codec 3 3) ⟨[3, 0, 0, 0, 22, 0, 192, 2, 178, 101, 180, 31, 251, 18, 137, 192, 255, 255, 127, 255, 0, 5, 2,
      128, 2, 127, 128, 0, 0, 23, 87, 192], 250⟩ [42] = .ok (Demo.mainObj 22) ∧
    (Demo.schema.codec 3 3).initialize 0 (Demo.mainObj 22) = .ok (242, Demo.mainObj 21) ∧
    Demo.schema.Valid 3 3 (Demo.mainObj 21) ∧ Demo.schema.Rewritable 3 3 (Demo.mainObj 21) ∧
    Demo.schema.Rewritable 3 3 (Demo.mainObj 22) ∧
    serialize (Demo.schema.codec 3 3) (Demo.mainObj 22) = .ok (⟨[3, 0, 0, 0, 21, 0, 130, 178, 101, 180, 31, 251, 18, 137, 192, 255, 255,
      127, 255, 0, 5, 2, 128, 2, 127, 128, 0, 0, 23, 87, 192], 242⟩, Demo.mainObj 21) :=
  ⟨demo_layout, demo_offsetRules, demo_plainDefaults, by decide +kernel, by decide +kernel, demo_main_valid _ (by decide +kernel),
    demo_main_rewritable _, demo_main_rewritable _, by decide +kernel⟩

/-- The bytes are those of a packed array which is not stored as packed; when it is written, it is. -/
example : deserialize (packedBytes.codec 1 0) ⟨[6, 0x7D, 0x7D, 0xFE, 0x7E, 0xFF, 0x7F, 0x80], 57⟩ [] = .ok packedBytesObj ∧
    packedBytes.Rewritable 1 0 packedBytesObj := by
  constructor
  · decide +kernel
  · simp [Schema.Rewritable, CompoundDef.Rewritable, packedBytes, packedBytesObj, Struct.Rewritable, FieldDef.Rewritable,
      FieldDef.RewritableValue, ElemType.Rewritable]

end Zserio
