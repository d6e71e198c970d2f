import Verif.Lemmas.InitStruct
import Verif.Lemmas.OffsetWrite
import Verif.Lemmas.OffsetDemo
import Verif.Lemmas.ValEq
import Verif.Props.RoundTrip
set_option linter.unusedSimpArgs false
/-
C34: offsets.

`defs` is any schema that satisfies the rules of the compiler for offsets (`Schema.OffsetRules`) or for the layout
(`Schema.Layout`), `n` the depth calls can be nested, `id` any compound of it.
-/
namespace Zserio
open Writer Array'

/-! ### initialize_offsets, then write -/

/-- **C34.** After `initialize_offsets(position)` returned `e`, the object differs from what it was only in offsets; a following
`write` at this position does not fail for a wrong offset, and if it returns, the position is `e`. -/
theorem C34_initialize_then_write (defs : Schema) (hr : defs.OffsetRules) (n id : Nat) (x x1 : Val) (e : Nat) (w : Writer)
    (hw : w.Reachable) (h : (defs.codec n id).initialize w.pos x = .ok (e, x1)) :
    defs.Same n id x x1 ∧ ((defs.codec n id).writeTo x1 w).1 ≠ .error .offset ∧
    ∀ w1, (defs.codec n id).writeTo x1 w = (.ok (), w1) → w1.pos = e := by
  obtain ⟨b0, rfl⟩ := hw.eq_ofBits
  unfold Codec.initialize at h
  obtain ⟨⟨e', x', c'⟩, h1, h⟩ := except_bind_ok h
  simp only [Except.ok.injEq, Prod.mk.injEq] at h
  obtain ⟨rfl, rfl⟩ := h
  obtain ⟨h2, h3⟩ := (schema_init hr n id).init _ _ _ _ _ _ _ h1
  have h4 : Ends ((defs.codec n id).writeTo x') b0.length e' (fun _ => True) := by
    unfold Codec.writeTo
    exact (by simpa [ofBits] using h3 Ctx.empty (Ctx.alike_refl _) : Ends _ b0.length e' _).bind fun _ _ => ends_pure trivial _
  obtain ⟨h5, h6⟩ := h4 b0 rfl
  refine ⟨h2, h5, ?_⟩
  intro w1 hw1
  obtain ⟨-, bs, rfl, hl⟩ := h6 _ _ hw1
  simpa [ofBits] using hl

/-- The offset 99 is set to 21; at another position, to another byte. -/
example : Demo.schema.OffsetRules ∧ (Demo.schema.codec 3 3).initialize 0 (Demo.mainObj 99) = .ok (242, Demo.mainObj 21) ∧
    (Demo.schema.codec 3 3).initialize (Writer.init.runAll [.bits 5 8]).pos (Demo.mainObj 99) = .ok (250, Demo.mainObj 22) :=
  ⟨demo_offsetRules, by decide +kernel, by decide +kernel⟩

/-- **C34.** `serialize` does not fail for a wrong offset, whatever the offset fields contained before, and the bit buffer has
the size `initialize_offsets` returned. -/
theorem C34_serialize (defs : Schema) (hr : defs.OffsetRules) (n id : Nat) (x x1 : Val) (e : Nat)
    (h : (defs.codec n id).initialize 0 x = .ok (e, x1)) : serialize (defs.codec n id) x ≠ .error .offset ∧
    ∀ b y, serialize (defs.codec n id) x = .ok (b, y) → y = x1 ∧ defs.Same n id x y ∧ b.bitsize = e := by
  obtain ⟨h1, h2, h3⟩ := C34_initialize_then_write defs hr n id x x1 e Writer.init ⟨[], rfl⟩ h
  unfold serialize serializeToWriter
  rw [h]
  simp only [ok_bind]
  rcases hw : (defs.codec n id).writeTo x1 Writer.init with ⟨e' | u, w⟩
  · rw [hw] at h2
    refine ⟨?_, fun b y hb => by cases hb⟩
    intro hc
    exact h2 (by simpa [Bind.bind, Except.bind] using hc)
  · have hpos := h3 w hw
    simp only [ok_bind]
    constructor
    · intro hc
      unfold BitBuffer.make at hc
      simp only at hc
      split at hc <;> cases hc
    · intro b y hb
      obtain ⟨b', hb', hb⟩ := except_bind_ok hb
      simp only [Except.ok.injEq, Prod.mk.injEq] at hb
      obtain ⟨rfl, rfl⟩ := hb
      refine ⟨rfl, h1, ?_⟩
      unfold BitBuffer.make at hb'
      simp only at hb'
      split at hb'
      · cases hb'
      · obtain rfl := Except.ok.inj hb'
        simp only [hpos]

/-- The same object serialized with a wrong offset. -/
example : (Demo.schema.codec 3 3).initialize 0 (Demo.mainObj 99) = .ok (242, Demo.mainObj 21) ∧
    (serialize (Demo.schema.codec 3 3) (Demo.mainObj 99)).isOk = true := ⟨by decide +kernel, by decide +kernel⟩

/-- Without `initialize_offsets` the wrong offset is noticed. -/
example : ((Demo.schema.codec 3 3).writeTo (Demo.mainObj 99) Writer.init).1 = .error .offset := by decide +kernel

/-! ### The fields are where the offsets say -/

theorem checkOffset_ok {o p : Nat} {fields : List Val} (h : checkOffset o fields p = .ok ()) :
    ∃ q : Nat, fields[o]? = some (.int q) ∧ p = 8 * q := by
  unfold checkOffset at h
  rcases hf : fields[o]? with _ | v
  · rw [hf] at h; cases h
  · rw [hf] at h
    obtain ⟨q, hq, h2⟩ := except_bind_ok h
    clear h
    obtain rfl := asInt_ok hq
    split at h2
    · cases h2
    · next hne =>
      have : (p : Int) = q * 8 := by
        rw [Decidable.not_not] at hne
        simpa [bytesToBits] using hne
      exact ⟨q.toNat, by congr 2; omega, by omega⟩

theorem checkOffsetAt_ok {o j p : Nat} {fields : List Val} (h : checkOffsetAt o j p fields = .ok ()) :
    ∃ (os : List Val) (q : Nat), fields[o]? = some (.arr os) ∧ os[j]? = some (.int q) ∧ p = 8 * q := by
  unfold checkOffsetAt at h
  rcases hf : fields[o]? with _ | v
  · rw [hf] at h; cases h
  · rw [hf] at h
    obtain ⟨os, hos, h2⟩ := except_bind_ok h
    clear h
    obtain rfl : v = .arr os := by cases v <;> simp [Val.asArr] at hos; rw [hos]
    rcases hj : os[j]? with _ | x
    · rw [hj] at h2; cases h2
    · rw [hj] at h2
      obtain ⟨q, hq, h3⟩ := except_bind_ok h2
      clear h2
      obtain rfl := asInt_ok hq
      split at h3
      · cases h3
      · next hne =>
        have : (p : Int) = q * 8 := by
          rw [Decidable.not_not] at hne
          simpa [bytesToBits] using hne
        exact ⟨os, q.toNat, rfl, by rw [hj]; congr 2; omega, by omega⟩

theorem getElem?_of_take {α : Type} {l : List α} {n i : Nat} {a : α} (h : (l.take n)[i]? = some a) : l[i]? = some a := by
  rw [List.getElem?_take] at h
  split at h
  · exact h
  · cases h

theorem struct_writeTo {defs : Schema} {n id : Nat} {fs : List FieldDef} (hd : defs id = .struct fs) {ps : List Int} {k : Nat} {tag : Int}
    {vs : List Val} {w w' : Writer} (h : (defs.codec (n + 1) id).writeTo (.obj ps k tag vs) w = (.ok (), w')) :
    ∃ c, Struct.write (defs.codec n) ps k (Struct.base fs) none fs [] vs Ctx.empty w = (.ok c, w') := by
  unfold Codec.writeTo at h
  obtain ⟨c, w1, h1, h⟩ := Writer.bind_inv h
  simp only [M.pure_apply, Prod.mk.injEq, true_and] at h
  subst h
  refine ⟨c, ?_⟩
  have h2 : ((defs id).codec (defs.codec n)).write none Ctx.empty (.obj ps k tag vs) w = (.ok c, w1) := h1
  rw [hd] at h2
  exact h2

/-- **C34.** In whatever has been written, the field of a structure that has an offset is at the byte the offset says: reading
the field there gives its value (what the format stores of it), whatever has been written afterwards. -/
theorem C34_field_at_offset (defs : Schema) (closed : Nat → Bool) (hl : defs.Layout closed) (n id : Nat) (fs : List FieldDef)
    (hd : defs id = .struct fs) (ps : List Int) (k : Nat) (tag : Int) (vs : List Val) (w w1 : Writer) (hw : w.Reachable)
    (h : (defs.codec (n + 1) id).writeTo (.obj ps k tag vs) w = (.ok (), w1))
    (i o : Nat) (f : FieldDef) (v v' : Val) (hf : fs[i]? = some f) (ho : f.offset = some ⟨o, false⟩) (hv : vs[i]? = some v)
    (hp : f.extended = false) (hu : f.isUsed ⟨ps, vs.take i, 0⟩ v = .ok true) (hc : f.Closed closed)
    (hs : f.StoredValue (defs.StoredAs n) ⟨ps, vs.take i, 0⟩ v v') :
    ∃ q : Nat, vs[o]? = some (.int q) ∧ w.pos ≤ 8 * q ∧ 8 * q ≤ w1.pos ∧
      ∀ later r, ReadsAt r (w1.runAll later).bytes (8 * q) w1.pos → ∃ c p,
        f.readValue (defs.codec n) ⟨ps, vs.take i, 0⟩ (i + 1) none Ctx.empty r = (.ok (v', c), { r with pos := p }) := by
  obtain ⟨b0, rfl⟩ := hw.eq_ofBits
  obtain ⟨c, h⟩ := struct_writeTo hd h
  have hlay := hl id
  rw [hd] at hlay
  obtain ⟨b1, b2, b3, rfl, g2, g3, g4⟩ := Struct.field_at defs hl n hlay.1 h hf hv (by simp [hp]) hu
  obtain ⟨q, hq, hpos⟩ := checkOffset_ok (g2 o (by simp [FieldDef.ownOffset, ho]))
  refine ⟨q, getElem?_of_take hq, by simp [ofBits] at hpos ⊢; omega, by simp [ofBits] at hpos ⊢; omega, ?_⟩
  have hP : ∀ id x x', defs.StoredAs n id x x' → ∃ ps, x.params = .ok ps := fun id x x' => defs.storedAs_params n id
  obtain ⟨es, f1, -, -, f3⟩ := FieldDef.value_passes (defs.lawful closed hl n) hP f (hlay.1 f (List.mem_of_getElem? hf))
    ⟨ps, vs.take i, 0⟩ (i + 1) none v
  obtain rfl := f1 rfl
  obtain ⟨bs, cs2, cr2, e1, -, e3, -⟩ := f3 [] Ctx.empty Ctx.empty Ctx.empty (by simpa using Ctx.allSync_empty)
    (FieldDef.writeChecks_inv g3).2 _ _ _ g4
  obtain rfl := Methods.ofBits_inj e1
  rintro later r ⟨r1, r2, r3, r4⟩
  refine ⟨cr2, _, Zserio.read_after (b0 := b0 ++ b1) (bs := b2 ++ b3)
    (P := fun r y => y = (.ok (v', cr2), { r with pos := (b0 ++ b1 ++ b2).length }))
    (mr := f.readValue (defs.codec n) ⟨ps, vs.take i, 0⟩ (i + 1) none Ctx.empty) ?_ later r (by simpa using r1)
    (by simpa [ofBits] using r2) r3 (by rw [r4, hpos])⟩
  intro s r hwf hpos hrest
  rw [e3 v' hs (b3 ++ s) (.inl hc) r hwf hpos (by simpa using hrest)]
  simp [Reader.advance, hpos, Nat.add_assoc]

/-- The field `any` of the example, after another byte: its offset is 22. -/
example : (∃ w1, (Demo.schema.codec (2 + 1) 3).writeTo (Demo.mainObj 22) (Writer.init.runAll [.bits 5 8]) = (.ok (), w1)) ∧
    ∃ fs f, Demo.schema 3 = .struct fs ∧ fs[6]? = some f ∧ f.offset = some ⟨1, false⟩ ∧ f.Closed Demo.closed ∧
      f.StoredValue (Demo.schema.StoredAs 2) ⟨[42], [], 0⟩ (.obj [] 0 2 [Demo.itemObj 5 64 (.int 1)])
        (.obj [] 0 2 [Demo.itemObj 5 64 (.int 1)]) :=
  ⟨⟨_, succeeds (by decide +kernel)⟩, _, _, rfl, rfl, rfl, rfl, demo_any_canonical.isStored, rfl⟩

/-- **C34.** The same for indexed offsets: each element of an array is at the byte the offset with its index says. -/
theorem C34_element_at_offset (defs : Schema) (closed : Nat → Bool) (hl : defs.Layout closed) (n id : Nat) (fs : List FieldDef)
    (hd : defs id = .struct fs) (ps : List Int) (k : Nat) (tag : Int) (vs : List Val) (w w1 : Writer) (hw : w.Reachable)
    (h : (defs.codec (n + 1) id).writeTo (.obj ps k tag vs) w = (.ok (), w1))
    (i o : Nat) (f : FieldDef) (a : ArrayDef) (xs : List Val) (hf : fs[i]? = some f) (ha : f.array = some a)
    (hpk : (f.packable && a.isPacked) = false) (ho : f.offset = some ⟨o, true⟩) (hv : vs[i]? = some (.arr xs)) (hp : f.extended = false)
    (hu : f.isUsed ⟨ps, vs.take i, 0⟩ (.arr xs) = .ok true) (j : Nat) (x x' : Val) (hx : xs[j]? = some x)
    (hs : f.type.Stored (defs.StoredAs n) ⟨ps, vs.take i, 0⟩ j x x') :
    ∃ (os : List Val) (q : Nat), vs[o]? = some (.arr os) ∧ os[j]? = some (.int q) ∧
      ∀ later r, ReadsAt r (w1.runAll later).bytes (8 * q) w1.pos →
        ∃ m c p, f.type.methods (defs.codec n) ⟨ps, vs.take i, 0⟩ = .ok m ∧
          m.read none Ctx.empty j r = (.ok (x', c), { r with pos := p }) := by
  obtain ⟨b0, rfl⟩ := hw.eq_ofBits
  obtain ⟨c, h⟩ := struct_writeTo hd h
  have hlay := hl id
  rw [hd] at hlay
  obtain ⟨b1, b2, b3, rfl, -, -, g4⟩ := Struct.field_at defs hl n hlay.1 h hf hv (by simp [hp]) hu
  have hP : ∀ id x x', defs.StoredAs n id x x' → ∃ ps, x.params = .ok ps := fun id x x' => defs.storedAs_params n id
  unfold FieldDef.writeValue at g4
  obtain ⟨m, hm, g4⟩ := lift_inv g4
  have hcl : (f.type.IsClosed closed) = true := by
    have := (hlay.1 f (List.mem_of_getElem? hf) a ha).1
    unfold ElemType.IsClosed
    split
    · next id args ht => exact this id args ht
    · rfl
  have hlaw := lawful_elem (defs.lawful closed hl n) hP hm
  rw [hcl] at hlaw
  rw [ha] at g4
  simp only at g4
  obtain ⟨ys, hys, g4⟩ := lift_inv g4
  obtain rfl := Except.ok.inj hys
  obtain ⟨_, w2, g5, g6⟩ := Writer.bind_inv g4
  simp only [M.pure_apply, Prod.mk.injEq, true_and] at g6
  subst g6
  unfold FieldDef.writeArray at g5
  rw [if_neg (by simp [FieldDef.arrayPacked, hpk])] at g5
  unfold Array'.write at g5
  obtain ⟨_, w2, g6, g7⟩ := Writer.bind_inv g5
  obtain ⟨bp, rfl⟩ := appends_writePrefix _ _ _ _ _ g6
  have hcfg : (f.arrayCfg a).checkOffset = some (checkOffsetAt o) := by simp [FieldDef.arrayCfg, ho]
  rw [hcfg] at g7
  obtain ⟨d1, d2, d3, e1, e2, e3⟩ := writeLoop_at (fun x => hlaw.appends x) _ _ _ _ g7 j x hx
  rw [Nat.zero_add] at e2
  obtain ⟨os, q, hos, hq, hpos⟩ := checkOffsetAt_ok e2
  refine ⟨os, q, getElem?_of_take hos, hq, ?_⟩
  have e4 : b2 = bp ++ d1 ++ d2 ++ d3 := Methods.ofBits_inj (b0 := b0 ++ b1) (by simpa using e1)
  subst e4
  rintro later r ⟨r1, r2, r3, r4⟩
  obtain ⟨c2, h1⟩ := Methods.traits_runs (b0 := b0 ++ b1 ++ bp ++ d1) (bs := d2) e3
  obtain ⟨bs', cs', cr', e, -, -, k4⟩ := hlaw.plain Ctx.allSync_empty h1
  obtain rfl := Methods.ofBits_inj e
  refine ⟨m, cr', _, hm, Zserio.read_after (b0 := b0 ++ b1 ++ bp ++ d1) (bs := d2 ++ d3 ++ b3)
    (P := fun r y => y = (.ok (x', cr'), { r with pos := (b0 ++ b1 ++ bp ++ d1 ++ d2).length }))
    (mr := m.read none Ctx.empty j) ?_ later r (by simpa using r1)
    (by simpa [ofBits] using r2) r3 (by rw [r4, hpos])⟩
  intro s r hwf hpos hrest
  rw [k4 j x' hs (d3 ++ b3 ++ s) (.inl rfl) r hwf hpos (by simpa using hrest)]
  simp [Reader.advance, hpos, Nat.add_assoc]

/-- An array of three objects of different sizes. -/
example : (∃ w1, (Demo.schema.codec (2 + 1) 6).writeTo (Demo.indexedObj 13 15 19) Writer.init = (.ok (), w1)) ∧
    ∃ fs f a, Demo.schema 6 = .struct fs ∧ fs[2]? = some f ∧ f.array = some a ∧ (f.packable && a.isPacked) = false ∧
      f.offset = some ⟨1, true⟩ ∧
      f.type.Stored (Demo.schema.StoredAs 2) ⟨[], [], 0⟩ 1 (Demo.itemObj 5 101 (.int (-70000))) (Demo.itemObj 5 101 (.int (-70000))) :=
  ⟨⟨_, succeeds (by decide +kernel)⟩, _, _, _, rfl, rfl, rfl, rfl, rfl, (demo_item_canonical2 5 101 _ (by simp)).isStored, rfl⟩

/-! ### Reading -/

/-- **C34.** When a structure has been read, each field with an offset (that was in the stream) has been read from the byte the
offset says; otherwise the error of a wrong offset is raised. -/
theorem C34_read_at_offset (defs : Schema) (n id : Nat) (fs : List FieldDef) (hd : defs id = .struct fs) (ps : List Int)
    (x : Val) (r r' : Reader) (hr : r.WF) (h : (defs.codec (n + 1) id).fromReader ps r = (.ok x, r'))
    (i o : Nat) (f : FieldDef) (hf : fs[i]? = some f) (ho : f.offset = some ⟨o, false⟩) (hp : f.extended = false) :
    ∃ (k : Nat) (vs : List Val) (v : Val), x = .obj ps k 0 vs ∧ vs[i]? = some v ∧
      (v = .none ∨ ∃ (q : Nat) (r1 r2 : Reader) (c1 c2 : Ctx), vs[o]? = some (.int q) ∧ r1.buffer = r.buffer ∧ r1.bitsize = r.bitsize ∧
        r1.pos = 8 * q ∧ f.readValue (defs.codec n) ⟨ps, vs.take i, 0⟩ (i + 1) none c1 r1 = (.ok (v, c2), r2)) := by
  unfold Codec.fromReader at h
  obtain ⟨⟨x', c'⟩, r3, h1, h2⟩ := M.bind_inv h
  simp only [M.pure_apply, Prod.mk.injEq, Except.ok.injEq] at h2
  obtain ⟨rfl, rfl⟩ := h2
  have h2 : ((defs id).codec (defs.codec n)).read none Ctx.empty ps r = (.ok (x', c'), r3) := h1
  rw [hd] at h2
  simp only [CompoundDef.codec, Struct.codec] at h2
  obtain ⟨⟨vs, k, c⟩, r4, h3, h4⟩ := M.bind_inv h2
  simp only [M.pure_apply, Prod.mk.injEq, Except.ok.injEq] at h4
  obtain ⟨⟨rfl, rfl⟩, rfl⟩ := h4
  obtain ⟨-, -, h5⟩ := Struct.read_split ps none fs [] 0 Ctx.empty r r4 vs k c h3
  obtain ⟨v, k1, k2, c1, c2, r1, r2, g1, ⟨k3, c3, g2⟩, g3⟩ := h5 i f hf
  simp only [List.length_nil, Nat.zero_add] at g1 g2 g3
  have hsafe := Struct.safe_read (defs.safeRead n) ps none (fs.take i) [] 0 Ctx.empty r hr
  rw [g2] at hsafe
  obtain ⟨s1, s2, s3⟩ := hsafe
  refine ⟨k, vs, v, rfl, g1, ?_⟩
  unfold Struct.readField at g3
  rw [hp] at g3
  simp only [Bool.false_eq_true, if_false] at g3
  obtain ⟨⟨v', c4⟩, r5, g4, g5⟩ := M.bind_inv g3
  simp only [M.pure_apply, Prod.mk.injEq, Except.ok.injEq] at g5
  obtain ⟨⟨rfl, rfl, rfl⟩, rfl⟩ := g5
  unfold FieldDef.read at g4
  obtain ⟨used, r6, g5, g6⟩ := M.bind_inv g4
  cases used with
  | false =>
    simp only [Bool.false_eq_true, if_false, M.pure_apply, Prod.mk.injEq, Except.ok.injEq] at g6
    exact .inl g6.1.1.symm
  | true =>
    right
    simp only [if_true] at g6
    have hs1 : Reader.Safe (f.readUsed ⟨ps, vs.take i, 0⟩) := by
      unfold FieldDef.readUsed
      rcases f.optional with _ | _ | e
      · exact Reader.safe_pure _
      · exact (Reader.safe_readBitsUnchecked 1).bind fun _ => Reader.safe_pure _
      · exact Reader.safe_lift _
    have t1 := hs1 r1 s1
    rw [g5] at t1
    unfold FieldDef.readInner at g6
    obtain ⟨_, r7, g7, g8⟩ := M.bind_inv g6
    have hs2 : Reader.Safe f.readAlign := by
      unfold FieldDef.readAlign
      rcases f.alignment with _ | a
      · exact Reader.safe_pure _
      · exact Reader.safe_alignto _
    have t2 := hs2 r6 t1.1
    rw [g7] at t2
    obtain ⟨_, r8, g9, g10⟩ := M.bind_inv g8
    have hown : f.ownOffset = some o := by simp [FieldDef.ownOffset, ho]
    unfold FieldDef.readOffset at g9
    rw [hown] at g9
    simp only at g9
    obtain ⟨_, r9, g11, g12⟩ := M.bind_inv g9
    have t3 := Reader.safe_alignto 8 r7 t2.1
    rw [g11] at t3
    rw [M.bind_ok (M.get_apply _), M.lift_apply] at g12
    simp only [Prod.mk.injEq] at g12
    obtain ⟨g12, rfl⟩ := g12
    obtain ⟨q, hq, hpos⟩ := checkOffset_ok g12
    obtain ⟨⟨v2, c5⟩, r10, g13, g14⟩ := M.bind_inv g10
    obtain ⟨_, r11, -, g15⟩ := M.bind_inv g14
    simp only [M.pure_apply, Prod.mk.injEq, Except.ok.injEq] at g15
    obtain ⟨⟨rfl, rfl⟩, rfl⟩ := g15
    exact ⟨q, r9, r10, c1, _, getElem?_of_take hq, by rw [t3.2.1, t2.2.1, t1.2.1, s2], by rw [t3.2.2, t2.2.2, t1.2.2, s3], hpos, g13⟩

/-- The bytes of the example are read; with a wrong byte in the offset they are not. -/
example : ((Demo.schema.codec (2 + 1) 3).fromReader [42] ⟨[3, 0, 0, 0, 21, 0, 130, 178, 101, 180, 31, 251, 18, 137, 192, 255, 255, 127, 255, 0,
      5, 2, 128, 2, 127, 128, 0, 0, 23, 87, 192], 242, 0⟩).1 = .ok (Demo.mainObj 21) ∧
    ((Demo.schema.codec (2 + 1) 3).fromReader [42] ⟨[3, 0, 0, 0, 20, 0, 130, 178, 101, 180, 31, 251, 18, 137, 192, 255, 255, 127, 255, 0,
      5, 2, 128, 2, 127, 128, 0, 0, 23, 87, 192], 242, 0⟩).1 = .error .offset := ⟨by decide +kernel, by decide +kernel⟩

end Zserio
