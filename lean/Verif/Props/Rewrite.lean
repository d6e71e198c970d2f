import Verif.Lemmas.RewriteStruct
import Verif.Props.Compound
import Verif.Spec.RewriteDemo
set_option linter.unusedSimpArgs false
/-
C74: what has been read can be written again and reads the same.

`defs` is any schema that satisfies the layout rules of the compiler, `n` the depth calls can be nested, `id` any compound of it.
The bytes that are read are arbitrary: they need not have been written by zserio.
-/
namespace Zserio
open Writer

/-! ### C74 -/

/-- **C74** in a stream, for schemas without offsets and packed arrays.  Whatever object the reader has returned, from any
position of any bytes, can be written at any position of any stream, unless it contains one of the exceptions. -/
theorem C74_write_partial (defs : Schema) (closed : Nat → Bool) (hl : defs.Layout closed) (hp : defs.Direct) (n id : Nat)
    (ps : List Int) (r r' : Reader) (hr : r.WF) (x : Val) (h : (defs.codec n id).fromReader ps r = (.ok x, r'))
    (hx : defs.Rewritable n id x) (w : Writer) (hw : w.Reachable) :
    ∃ w1, (defs.codec n id).writeTo x w = (.ok (), w1) := by
  obtain ⟨⟨y, c'⟩, r1, h1, h2⟩ := M.bind_inv (show ((defs.codec n id).read none Ctx.empty ps >>= fun q => pure q.1) r = _ from h)
  simp only [M.pure_apply, Prod.mk.injEq, Except.ok.injEq] at h2
  obtain ⟨rfl, -⟩ := h2
  obtain ⟨-, -, h3⟩ := Schema.rereads defs hl hp n id _ _ _ _ _ _ hr h1
  obtain ⟨b0, rfl⟩ := hw.eq_ofBits
  obtain ⟨bs, h4⟩ := (h3 hx).1.write Ctx.empty b0
  exact ⟨_, M.bind_ok h4⟩

/-- what `deserialize` returns -/
theorem deserialize_rereads (defs : Schema) (closed : Nat → Bool) (hl : defs.Layout closed) (hp : defs.Direct) (n id : Nat)
    (b : BitBuffer) (hb : 0 ≤ b.bitsize) (args : List Int) (x : Val) (h : deserialize (defs.codec n id) b args = .ok x)
    (hx : defs.Rewritable n id x) :
    x.params = .ok args ∧ defs.Canonical n id x ∧ ∃ bs, serializeToWriter (defs.codec n id) x = .ok (ofBits bs, x) := by
  obtain ⟨r, h1, h2⟩ := except_bind_ok h
  have hr : r.WF := by
    unfold Reader.fromBitBuffer Reader.make at h1
    simp only at h1
    split at h1
    · cases h1
    · simp only [Except.ok.injEq] at h1
      subst h1
      refine ⟨?_, ?_⟩ <;> simp only <;> omega
  obtain ⟨⟨y, c'⟩, r1, h3, h4⟩ := M.bind_inv
    (show ((defs.codec n id).read none Ctx.empty args >>= fun q => pure q.1) r = (.ok x, _) from Prod.ext h2 rfl)
  simp only [M.pure_apply, Prod.mk.injEq, Except.ok.injEq] at h4
  obtain ⟨rfl, -⟩ := h4
  obtain ⟨-, h5, h6⟩ := Schema.rereads defs hl hp n id _ _ _ _ _ _ hr h3
  obtain ⟨h6, h7⟩ := h6 hx
  obtain ⟨e, h8⟩ := h6.init Ctx.empty 0
  obtain ⟨bs, h9⟩ := h6.write Ctx.empty []
  have hi : (defs.codec n id).initialize 0 y = .ok (e, y) := by
    unfold Codec.initialize
    rw [h8]
    rfl
  have hw : (defs.codec n id).writeTo y Writer.init = (.ok (), ofBits bs) := by
    rw [ofBits_nil]
    exact M.bind_ok h9
  refine ⟨h5, h7, bs, ?_⟩
  unfold serializeToWriter
  rw [hi, ok_bind]
  simp only [hw]

/-- **C74**, for schemas without offsets and packed arrays.  Whatever `deserialize` returns, from any bytes, can be serialized
unless it contains one of the exceptions: serialization does not change the object, and the new bytes are read as the same object. -/
theorem C74_rewrite_partial (defs : Schema) (closed : Nat → Bool) (hl : defs.Layout closed) (hp : defs.Direct) (n id : Nat)
    (b : BitBuffer) (hb : 0 ≤ b.bitsize) (args : List Int) (x : Val) (h : deserialize (defs.codec n id) b args = .ok x)
    (hx : defs.Rewritable n id x) :
    ∃ b', serialize (defs.codec n id) x = .ok (b', x) ∧ deserialize (defs.codec n id) b' args = .ok x := by
  obtain ⟨h1, h2, bs, hs⟩ := deserialize_rereads defs closed hl hp n id b hb args x h hx
  have hlen : (bs.length : Int) ≤ (packBits bs).length * 8 := by
    have := congrArg List.length (bytesBits_packBits bs)
    rw [bytesBits_length, List.length_append] at this
    omega
  have hser : serialize (defs.codec n id) x = .ok (⟨packBits bs, bs.length⟩, x) := by
    unfold serialize
    rw [hs, ok_bind]
    have h2 : BitBuffer.make (packBits bs) (some bs.length) = .ok ⟨packBits bs, bs.length⟩ := if_neg (by omega)
    simp only [ofBits, h2, ok_bind]
  exact ⟨_, hser, C33_equal defs closed hl n id x x _ args hser h1 h2⟩

/-- **C74** for `deserialize_from_bytes` and `serialize_to_bytes` and types that can be followed by other data. -/
theorem C74_bytes_partial (defs : Schema) (closed : Nat → Bool) (hl : defs.Layout closed) (hp : defs.Direct) (n id : Nat)
    (hc : closed id = true) (bytes : List UInt8) (args : List Int) (x : Val)
    (h : deserializeFromBytes (defs.codec n id) bytes args = .ok x) (hx : defs.Rewritable n id x) :
    ∃ bytes', serializeToBytes (defs.codec n id) x = .ok (bytes', x) ∧
      deserializeFromBytes (defs.codec n id) bytes' args = .ok x := by
  obtain ⟨b, hb, h⟩ := except_bind_ok h
  simp only [BitBuffer.make, Except.ok.injEq] at hb
  subst hb
  obtain ⟨h1, h2, bs, hs⟩ := deserialize_rereads defs closed hl hp n id _ (by simp only; omega) args x h hx
  have hser : serializeToBytes (defs.codec n id) x = .ok ((ofBits bs).bytes, x) := by
    unfold serializeToBytes
    rw [hs, ok_bind]
  exact ⟨_, hser, C48_from_bytes defs closed hl n id hc x x x _ args hser h1 h2.isStored⟩

theorem rewriteDemo_layout : RewriteDemo.schema.Layout RewriteDemo.closed := by
  intro id
  match id with
  | 0 | 1 | (k + 2) =>
    simp [RewriteDemo.schema, RewriteDemo.main, RewriteDemo.pair, CompoundDef.Layout, FieldDef.ArrayOk, FieldDef.Closed, RewriteDemo.closed,
      ElemType.FixedSize, Struct.base, numExtended]
    try
      intro i f hf
      rcases i with _ | _ | _ | _ | _ | _ | i <;> simp at hf <;> subst hf <;> simp

theorem rewriteDemo_plain : RewriteDemo.schema.Direct := by
  intro id f hf
  match id with
  | 0 =>
    simp only [RewriteDemo.schema, RewriteDemo.main, CompoundDef.HasField, List.mem_cons, List.not_mem_nil, or_false] at hf
    rcases hf with rfl | rfl | rfl | rfl | rfl | rfl <;> simp [FieldDef.Direct]
  | 1 => cases hf
  | k + 2 =>
    simp only [RewriteDemo.schema, RewriteDemo.pair, CompoundDef.HasField, List.mem_cons, List.not_mem_nil, or_false] at hf
    rcases hf with rfl | rfl <;> simp [FieldDef.Direct]

/-- the object of the examples -/
def rewriteDemoObj : Val :=
  .obj [] 1 0 [.int 3, .int 5, .arr [.int 1, .int 7], .float 4607182418800017408, .int 77, .obj [] 0 0 []]

/-- An object with a number stored in more bytes than needed, which becomes shorter when it is written, an array of enumeration
items, an optional field, an extended field that is present and one that is not. -/
example : RewriteDemo.schema.Layout RewriteDemo.closed ∧ RewriteDemo.schema.Direct ∧
    deserialize (RewriteDemo.schema.codec 2 0) ⟨[3, 0x80, 5, 1, 7, 0x9F, 0xC0, 0, 0, 0, 77], 88⟩ [] = .ok rewriteDemoObj ∧
    RewriteDemo.schema.Rewritable 2 0 rewriteDemoObj ∧
    serialize (RewriteDemo.schema.codec 2 0) rewriteDemoObj =
      .ok (⟨[3, 5, 1, 7, 0x9F, 0xC0, 0, 0, 0, 77], 80⟩, rewriteDemoObj) := by
  refine ⟨rewriteDemo_layout, rewriteDemo_plain, by decide +kernel, ?_, by decide +kernel⟩
  simp [Schema.Rewritable, CompoundDef.Rewritable, RewriteDemo.schema, RewriteDemo.main, rewriteDemoObj, Struct.Rewritable,
    FieldDef.Rewritable, FieldDef.RewritableValue, ElemType.Rewritable, Struct.isPresent, Struct.base, numExtended,
    RewriteDemo.lengthOfColors]
  constructor
  · rintro - _ n rfl h
    have h' : Except.ok (ε := Err) (3 - 1 : Int) = .ok n := h
    simp only [Except.ok.injEq] at h'
    omega
  · intro p e c c' h
    have h' : Except.ok (ε := Err) (p + 8, c) = .ok (e, c') := h
    simp only [Except.ok.injEq, Prod.mk.injEq] at h'
    omega

/-- An object read from the middle of a byte, with the number 5 stored in two bytes, and written after a `bool`. -/
example : RewriteDemo.closed 2 = true ∧ Reader.WF ⟨[0x10, 0x00, 0xA0, 0xE0], 29, 3⟩ ∧
    (RewriteDemo.schema.codec 1 2).fromReader [] ⟨[0x10, 0x00, 0xA0, 0xE0], 29, 3⟩ =
      (.ok (.obj [] 0 0 [.int 5, .int 7]), ⟨[0x10, 0x00, 0xA0, 0xE0], 29, 27⟩) ∧
    RewriteDemo.schema.Rewritable 1 2 (.obj [] 0 0 [.int 5, .int 7]) ∧
    deserializeFromBytes (RewriteDemo.schema.codec 1 2) [0x80, 5, 7, 0] [] = .ok (.obj [] 0 0 [.int 5, .int 7]) ∧
    serializeToBytes (RewriteDemo.schema.codec 1 2) (.obj [] 0 0 [.int 5, .int 7]) = .ok ([5, 7], .obj [] 0 0 [.int 5, .int 7]) ∧
    (Writer.init.runAll [.bool true]).Reachable := by
  refine ⟨rfl, by constructor <;> decide, by decide +kernel, ?_, by decide +kernel, by decide +kernel, _, rfl⟩
  simp [Schema.Rewritable, CompoundDef.Rewritable, RewriteDemo.schema, RewriteDemo.pair, Struct.Rewritable,
    FieldDef.Rewritable, FieldDef.RewritableValue, ElemType.Rewritable]

/-- **Without the exceptions C74 fails.**  A removed enumeration item (`BLUE`, 9) is read, but writing the object raises. -/
theorem C74_removed_item :
    deserialize (RewriteDemo.schema.codec 2 0) ⟨[2, 5, 9, 0], 25⟩ [] =
      .ok (.obj [] 0 0 [.int 2, .int 5, .arr [.int 9], .none, .int 0, .obj [] 0 0 []]) ∧
    serialize (RewriteDemo.schema.codec 2 0) (.obj [] 0 0 [.int 2, .int 5, .arr [.int 9], .none, .int 0, .obj [] 0 0 []]) =
      .error .removedItem := by
  constructor <;> decide +kernel

/-- An array whose length expression (`n - 1` for `n = 0`) is negative is read as an empty array, but writing the object raises. -/
theorem C74_negative_length :
    deserialize (RewriteDemo.schema.codec 2 0) ⟨[0, 5, 0], 17⟩ [] =
      .ok (.obj [] 0 0 [.int 0, .int 5, .arr [], .none, .int 0, .obj [] 0 0 []]) ∧
    serialize (RewriteDemo.schema.codec 2 0) (.obj [] 0 0 [.int 0, .int 5, .arr [], .none, .int 0, .obj [] 0 0 []]) =
      .error .arrayLength := by
  constructor <;> decide +kernel

/-- An extended field without bits is present in what has been read, and no longer in what is read after writing. -/
theorem C74_empty_extension :
    deserialize (RewriteDemo.schema.codec 2 0) ⟨[1, 5, 0, 77, 0], 40⟩ [] =
      .ok (.obj [] 2 0 [.int 1, .int 5, .arr [], .none, .int 77, .obj [] 0 0 []]) ∧
    serialize (RewriteDemo.schema.codec 2 0) (.obj [] 2 0 [.int 1, .int 5, .arr [], .none, .int 77, .obj [] 0 0 []]) =
      .ok (⟨[1, 5, 0, 77], 32⟩, .obj [] 2 0 [.int 1, .int 5, .arr [], .none, .int 77, .obj [] 0 0 []]) ∧
    deserialize (RewriteDemo.schema.codec 2 0) ⟨[1, 5, 0, 77], 32⟩ [] =
      .ok (.obj [] 1 0 [.int 1, .int 5, .arr [], .none, .int 77, .obj [] 0 0 []]) := by
  refine ⟨?_, ?_, ?_⟩ <;> decide +kernel

/-- A packed array of 8 bit numbers can be read as 255, 256, but cannot be written. -/
theorem C74_packed :
    deserialize (RewriteDemo.others.codec 2 1) ⟨[0x83, 0xFE, 0x80], 24⟩ [] = .ok (.obj [] 0 0 [.arr [.int 255, .int 256]]) ∧
    serialize (RewriteDemo.others.codec 2 1) (.obj [] 0 0 [.arr [.int 255, .int 256]]) = .error .range := by
  constructor <;> decide +kernel

/-- The number before the field with an offset is stored in more bytes than needed: writing changes the offset, in the bytes and
in the object. -/
theorem C74_offset :
    deserialize (RewriteDemo.others.codec 2 0) ⟨[0, 0, 0, 6, 0x80, 5, 1], 56⟩ [] = .ok (.obj [] 0 0 [.int 6, .int 5, .int 1]) ∧
    serialize (RewriteDemo.others.codec 2 0) (.obj [] 0 0 [.int 6, .int 5, .int 1]) =
      .ok (⟨[0, 0, 0, 5, 5, 1], 48⟩, .obj [] 0 0 [.int 5, .int 5, .int 1]) := by
  constructor <;> decide +kernel

end Zserio
