import Verif.Props.Offsets
import Verif.Lemmas.Extended
set_option linter.unusedSimpArgs false
/-
Property C36: a structure can be extended with fields at its end.  The two versions of the structure are two compounds `o`
(the old one) and `e` (the new one) of one schema, so that they share the types of their fields.
-/
namespace Zserio
open Writer

/-- compound `e` is compound `o` with the extended fields `ext` added at the end -/
structure Schema.Extends (defs : Schema) (o e : Nat) (old ext : List FieldDef) : Prop where
  before : defs o = .struct old
  after : defs e = .struct (old ++ ext)
  extended : ∀ f ∈ ext, f.extended = true
  added : ext ≠ []

/-- the reader stands where the writer `w` stood, and its data is what `w1` wrote, up to the padding of the last byte -/
structure ReadsToEnd (r : Reader) (w w1 : Writer) : Prop where
  buffer : r.buffer = w1.bytes
  least : (w1.pos : Int) ≤ r.bitsize
  most : r.bitsize ≤ 8 * r.buffer.length
  pos : r.pos = w.pos

/-! ### Helpers -/

theorem padded_end {r : Reader} {b : List Bool} (h1 : r.buffer = (ofBits b).bytes) (h2 : r.bitsize ≤ 8 * r.buffer.length) :
    r.bitsize ≤ (Array'.align8 b.length : Int) := by
  have hlen := congrArg List.length (bytesBits_packBits b)
  rw [bytesBits_length, List.length_append, length_zeros] at hlen
  have h3 : (ofBits b).bytes = packBits b := rfl
  rw [h1, h3] at h2
  rw [align8_eq]
  unfold gapTo
  unfold padLen at hlen
  omega

theorem struct_fromReader {defs : Schema} {n id : Nat} {fs : List FieldDef} (hd : defs id = .struct fs) {ps : List Int}
    {r r' : Reader} {vs : List Val} {k : Nat} {c : Ctx}
    (h : Struct.read (defs.codec n) ps none fs [] 0 Ctx.empty r = (.ok (vs, k, c), r')) :
    (defs.codec (n + 1) id).fromReader ps r = (.ok (.obj ps k 0 vs), r') := by
  have h1 : (defs.codec (n + 1) id).read none Ctx.empty ps r = (.ok (.obj ps k 0 vs, c), r') := by
    have h2 : ((defs id).codec (defs.codec n)).read none Ctx.empty ps r = (.ok (.obj ps k 0 vs, c), r') := by
      rw [hd]
      show (Struct.read (defs.codec n) ps none fs [] 0 Ctx.empty >>= _) r = _
      rw [M.bind_ok h]
      rfl
    exact h2
  unfold Codec.fromReader
  rw [M.bind_ok h1]
  rfl

/-- what a reader over the result of `serialize` is -/
theorem serialize_reader {k : Codec} {x x1 : Val} {b : BitBuffer} (hsafe : ∀ w, k.writeTo x1 Writer.init = (.ok (), w) → ∃ bs, w = ofBits bs)
    (h : serialize k x = .ok (b, x1)) :
    ∃ w1 r, k.writeTo x1 Writer.init = (.ok (), w1) ∧ ReadsToEnd r Writer.init w1 ∧
      ∀ (k' : Codec) ps, deserialize k' b ps = (k'.fromReader ps r).1 := by
  unfold serialize at h
  obtain ⟨⟨w, y⟩, h1, h⟩ := except_bind_ok h
  obtain ⟨-, hwr⟩ := serializeToWriter_inv h1
  obtain ⟨b', hb, h⟩ := except_bind_ok h
  simp only [Except.ok.injEq, Prod.mk.injEq] at h
  obtain ⟨rfl, rfl⟩ := h
  rw [ofBits_nil] at hsafe ⊢
  obtain ⟨bs, rfl⟩ := hsafe w hwr
  have hlen : (bs.length : Int) ≤ (packBits bs).length * 8 := by
    have := congrArg List.length (bytesBits_packBits bs)
    rw [bytesBits_length, List.length_append] at this
    omega
  have hb : b' = ⟨packBits bs, bs.length⟩ := by
    have h2 : BitBuffer.make (packBits bs) (some bs.length) = .ok ⟨packBits bs, bs.length⟩ := if_neg (by omega)
    exact Except.ok.inj (hb.symm.trans h2)
  subst hb
  have h4 : Reader.fromBitBuffer ⟨packBits bs, bs.length⟩ = .ok ⟨packBits bs, bs.length, 0⟩ := if_neg (by simp only; omega)
  refine ⟨_, ⟨packBits bs, bs.length, 0⟩, hwr, ⟨rfl, ?_, ?_, rfl⟩, ?_⟩
  · simp [ofBits]
  · simp only; omega
  · intro k' ps
    unfold deserialize
    rw [h4, ok_bind]

/-- what a reader over the result of `serialize_to_bytes` is -/
theorem serializeToBytes_reader {k : Codec} {x x1 : Val} {bytes : List UInt8}
    (hsafe : ∀ w, k.writeTo x1 Writer.init = (.ok (), w) → ∃ bs, w = ofBits bs) (h : serializeToBytes k x = .ok (bytes, x1)) :
    ∃ w1 r, k.writeTo x1 Writer.init = (.ok (), w1) ∧ ReadsToEnd r Writer.init w1 ∧
      ∀ (k' : Codec) ps, deserializeFromBytes k' bytes ps = (k'.fromReader ps r).1 := by
  unfold serializeToBytes at h
  obtain ⟨⟨w, y⟩, h1, h⟩ := except_bind_ok h
  obtain ⟨-, hwr⟩ := serializeToWriter_inv h1
  simp only [Except.ok.injEq, Prod.mk.injEq] at h
  obtain ⟨rfl, rfl⟩ := h
  rw [ofBits_nil] at hsafe ⊢
  obtain ⟨bs, rfl⟩ := hsafe w hwr
  have hlen := congrArg List.length (bytesBits_packBits bs)
  rw [bytesBits_length, List.length_append] at hlen
  have h4 : Reader.fromBitBuffer ⟨packBits bs, (packBits bs).length * 8⟩ = .ok ⟨packBits bs, (packBits bs).length * 8, 0⟩ :=
    if_neg (by simp only; omega)
  refine ⟨_, ⟨packBits bs, (packBits bs).length * 8, 0⟩, hwr, ⟨rfl, ?_, ?_, rfl⟩, ?_⟩
  · simp only [ofBits]; omega
  · simp only; omega
  · intro k' ps
    unfold deserializeFromBytes BitBuffer.make
    simp only [ok_bind, ofBits]
    unfold deserialize
    rw [h4, ok_bind]

/-- reading up to the end with the same or a longer structure -/
theorem struct_reads (defs : Schema) (closed : Nat → Bool) (hl : defs.Layout closed) (n o e : Nat) (old ext : List FieldDef)
    (ho : defs o = .struct old) (he : defs e = .struct (old ++ ext)) (hx : ∀ f ∈ ext, f.extended = true)
    (hcl : ∀ f ∈ old, f.Closed closed) (ps : List Int) (k k' : Nat) (tag : Int) (vs vs' : List Val)
    (hst : defs.StoredAs (n + 1) o (.obj ps k tag vs) (.obj ps k' 0 vs'))
    (w w1 : Writer) (hw : w.Reachable) (h : (defs.codec (n + 1) o).writeTo (.obj ps k tag vs) w = (.ok (), w1))
    (r : Reader) (hr : ReadsToEnd r w w1) :
    k' = min k (numExtended old) ∧
    (defs.codec (n + 1) e).fromReader ps r = (.ok (.obj ps k' 0 (vs' ++ ext.map (·.default))), { r with pos := w1.pos }) := by
  obtain ⟨b0, rfl⟩ := hw.eq_ofBits
  obtain ⟨c, h⟩ := struct_writeTo ho h
  have hlay := hl o
  rw [ho] at hlay
  have hst2 : (defs o).Stored (defs.codec n) (defs.StoredAs n) (.obj ps k tag vs) (.obj ps k' 0 vs') := hst
  rw [ho] at hst2
  obtain ⟨-, rfl, -, hst3⟩ := hst2
  obtain ⟨bs, rfl, hread⟩ := Struct.read_extended (defs.lawful closed hl n) (fun id x x' => defs.storedAs_params n id) old ext hlay.1 hcl
    hlay.2.2.2 hx ps k vs vs' hst3 b0 _ _ h
  refine ⟨rfl, ?_⟩
  refine Zserio.read_after (b0 := b0) (bs := bs) (P := fun r y => r.bitsize ≤ (Array'.align8 (b0.length + bs.length) : Int) →
    y = (.ok (.obj ps (min k (numExtended old)) 0 (vs' ++ ext.map (·.default))), { r with pos := (ofBits (b0 ++ bs)).pos }))
    (mr := (defs.codec (n + 1) e).fromReader ps) ?_ [] r hr.buffer hr.least hr.most hr.pos ?_
  · intro s r hwf hpos hrest hbs
    obtain ⟨c2, h2⟩ := hread s r hwf hpos hrest (fun _ => hbs)
    rw [struct_fromReader he h2]
    simp [ofBits, Reader.advance, hpos]
  · have := padded_end hr.buffer hr.most
    rwa [List.length_append] at this

theorem write_ofBits (defs : Schema) (closed : Nat → Bool) (hl : defs.Layout closed) (n id : Nat) (x : Val) (w : Writer)
    (h : (defs.codec n id).writeTo x Writer.init = (.ok (), w)) : ∃ bs, w = ofBits bs := by
  rw [ofBits_nil] at h
  obtain ⟨bs, rfl, -⟩ := (defs.lawful closed hl n id).plain (b0 := []) h
  exact ⟨_, rfl⟩

theorem Schema.Extends.closed {defs : Schema} {o e : Nat} {old ext : List FieldDef} (hex : defs.Extends o e old ext)
    {closed : Nat → Bool} (hl : defs.Layout closed) : ∀ f ∈ old, f.Closed closed := by
  have hlay := hl e
  rw [hex.after] at hlay
  intro f hf
  refine hlay.2.1 f ?_
  rw [List.dropLast_append_of_ne_nil hex.added]
  exact List.mem_append_left _ hf

/-! ### New schema, old data -/

/-- **C36.** The new structure reads what the old one wrote: the fields of the old structure have the values that the old one
stored, the added fields have their default values and are reported absent.  The data may be padded to whole bytes. -/
theorem C36_new_reads_old (defs : Schema) (closed : Nat → Bool) (hl : defs.Layout closed) (n o e : Nat) (old ext : List FieldDef)
    (hex : defs.Extends o e old ext) (ps : List Int) (k k' : Nat) (tag : Int) (vs vs' : List Val)
    (hst : defs.StoredAs (n + 1) o (.obj ps k tag vs) (.obj ps k' 0 vs'))
    (w w1 : Writer) (hw : w.Reachable) (h : (defs.codec (n + 1) o).writeTo (.obj ps k tag vs) w = (.ok (), w1))
    (r : Reader) (hr : ReadsToEnd r w w1) :
    (defs.codec (n + 1) e).fromReader ps r = (.ok (.obj ps k' 0 (vs' ++ ext.map (·.default))), { r with pos := w1.pos }) ∧
    ∀ i, old.length ≤ i → Struct.isPresent k' (Struct.base (old ++ ext)) i = false := by
  obtain ⟨hk, h1⟩ := struct_reads defs closed hl n o e old ext hex.before hex.after hex.extended (hex.closed hl) ps k k' tag vs vs' hst
    w w1 hw h r hr
  refine ⟨h1, ?_⟩
  intro i hi
  rw [Struct.base_extend hex.extended, Struct.base]
  have := Struct.numExtended_le old
  simp only [Struct.isPresent, decide_eq_false_iff_not]
  omega

/-- **C36** through `serialize` and `deserialize`. -/
theorem C36_new_deserializes_old (defs : Schema) (closed : Nat → Bool) (hl : defs.Layout closed) (n o e : Nat)
    (old ext : List FieldDef) (hex : defs.Extends o e old ext) (x : Val) (ps : List Int) (k k' : Nat) (tag : Int) (vs vs' : List Val)
    (b : BitBuffer) (h : serialize (defs.codec (n + 1) o) x = .ok (b, .obj ps k tag vs))
    (hst : defs.StoredAs (n + 1) o (.obj ps k tag vs) (.obj ps k' 0 vs')) :
    deserialize (defs.codec (n + 1) e) b ps = .ok (.obj ps k' 0 (vs' ++ ext.map (·.default))) := by
  obtain ⟨w1, r, h1, h2, h3⟩ := serialize_reader (write_ofBits defs closed hl _ _ _) h
  rw [h3, (C36_new_reads_old defs closed hl n o e old ext hex ps k k' tag vs vs' hst _ _ ⟨[], rfl⟩ h1 r h2).1]

/-- **C36** through `serialize_to_bytes` and `deserialize_from_bytes`. -/
theorem C36_new_deserializes_old_bytes (defs : Schema) (closed : Nat → Bool) (hl : defs.Layout closed) (n o e : Nat)
    (old ext : List FieldDef) (hex : defs.Extends o e old ext) (x : Val) (ps : List Int) (k k' : Nat) (tag : Int) (vs vs' : List Val)
    (bytes : List UInt8) (h : serializeToBytes (defs.codec (n + 1) o) x = .ok (bytes, .obj ps k tag vs))
    (hst : defs.StoredAs (n + 1) o (.obj ps k tag vs) (.obj ps k' 0 vs')) :
    deserializeFromBytes (defs.codec (n + 1) e) bytes ps = .ok (.obj ps k' 0 (vs' ++ ext.map (·.default))) := by
  obtain ⟨w1, r, h1, h2, h3⟩ := serializeToBytes_reader (write_ofBits defs closed hl _ _ _) h
  rw [h3, (C36_new_reads_old defs closed hl n o e old ext hex ps k k' tag vs vs' hst _ _ ⟨[], rfl⟩ h1 r h2).1]

/-! ### Old schema, new data -/

/-- **C36.** The old structure reads the common fields of what the new one wrote. -/
theorem C36_old_reads_new (defs : Schema) (closed : Nat → Bool) (hl : defs.Layout closed) (n o e : Nat) (old ext : List FieldDef)
    (hex : defs.Extends o e old ext) (ps : List Int) (k k' : Nat) (tag : Int) (vs vs' : List Val)
    (hst : defs.StoredAs (n + 1) e (.obj ps k tag vs) (.obj ps k' 0 vs'))
    (w w1 : Writer) (hw : w.Reachable) (h : (defs.codec (n + 1) e).writeTo (.obj ps k tag vs) w = (.ok (), w1))
    (r : Reader) (hr : ReadsToEnd r w w1) :
    ∃ p, p ≤ w1.pos ∧ (defs.codec (n + 1) o).fromReader ps r =
      (.ok (.obj ps (min k (numExtended old)) 0 (vs'.take old.length)), { r with pos := p }) := by
  have hst2 : (defs e).Stored (defs.codec n) (defs.StoredAs n) (.obj ps k tag vs) (.obj ps k' 0 vs') := hst
  rw [hex.after] at hst2
  obtain ⟨-, rfl, -, hst3⟩ := hst2
  rw [Struct.base_extend hex.extended] at hst3
  obtain ⟨s1, s2, s3, -⟩ := Struct.stored_split ps k _ _ old.length _ _ _ _ hst3
  rw [List.take_left] at s1
  have hsplit : vs = vs.take old.length ++ vs.drop old.length := (List.take_append_drop _ _).symm
  have hlen : (vs.take old.length).length = old.length := by simp [s2]
  have hlay := hl o
  rw [hex.before] at hlay
  obtain ⟨b0, rfl⟩ := hw.eq_ofBits
  obtain ⟨c, h⟩ := struct_writeTo hex.after h
  rw [Struct.base_extend hex.extended, hsplit, Struct.write_append ps k _ none old ext [] _ _ _ hlen] at h
  obtain ⟨c1, w2, g1, g2⟩ := M.bind_inv h
  obtain ⟨bs, rfl, hread⟩ := Struct.read_extended (defs.lawful closed hl n) (fun id x x' => defs.storedAs_params n id) old [] hlay.1
    (hex.closed hl) hlay.2.2.2 (by simp) ps k _ _ s1 b0 _ _ g1
  have hlaye := hl e
  rw [hex.after] at hlaye
  have hP : ∀ id x x', defs.StoredAs n id x x' → ∃ ps, x.params = .ok ps := fun id x x' => defs.storedAs_params n id
  obtain ⟨es, f1, -, f3⟩ := Struct.fields_passes (defs.lawful closed hl n) hP ps k (Struct.base old) none old hlay.1 []
    (vs.take old.length)
  obtain rfl := f1 rfl
  obtain ⟨_, cs2, cr2, -, -, -, -, hsync⟩ := f3 [] _ _ _ (by simpa using Ctx.allSync_empty) _ _ _ g1
  obtain ⟨es, f1, -, f3⟩ := Struct.fields_passes (defs.lawful closed hl n) hP ps k (Struct.base old)
    none ext (fun f hf => hlaye.1 f (by simp [hf])) ([] ++ vs.take old.length) (vs.drop old.length)
  obtain rfl := f1 rfl
  obtain ⟨bs2, _, _, rfl, -, f5, -⟩ := f3 [] _ _ _ (by simpa using hsync) _ _ _ g2
  refine ⟨(b0 ++ bs).length, by simp [ofBits], ?_⟩
  refine Zserio.read_after (b0 := b0) (bs := bs ++ bs2)
    (P := fun r y => (r.bitsize ≤ (Array'.align8 (b0.length + (bs ++ bs2).length) : Int)) →
    y = (.ok (.obj ps (min k (numExtended old)) 0 (vs'.take old.length)), { r with pos := (b0 ++ bs).length }))
    (mr := (defs.codec (n + 1) o).fromReader ps) ?_ [] r (by rw [← List.append_assoc]; exact hr.buffer)
      (by rw [← List.append_assoc]; exact hr.least) hr.most hr.pos ?_
  · intro s r hwf hpos hrest hbs
    obtain ⟨c2, h2⟩ := hread (bs2 ++ s) r hwf hpos (by rw [hrest, List.append_assoc]) (by
      rintro (hk | hk)
      · have : bs2 = [] := f5 (fun i f hi => by
          rw [hex.extended f (List.mem_of_getElem? hi)]
          have hn := Struct.numExtended_le old
          have hb : Struct.base old = old.length - numExtended old := rfl
          simp only [Struct.isPresent, List.nil_append, hlen, Bool.true_and, Bool.not_eq_true', decide_eq_false_iff_not]
          omega)
        subst this
        simpa using hbs
      · exact absurd rfl hk)
    rw [List.append_nil] at h2
    rw [struct_fromReader hex.before h2]
    simp [Reader.advance, hpos]
  · have := padded_end hr.buffer hr.most
    rwa [List.append_assoc, List.length_append] at this

/-- **C36** through `serialize` and `deserialize`. -/
theorem C36_old_deserializes_new (defs : Schema) (closed : Nat → Bool) (hl : defs.Layout closed) (n o e : Nat)
    (old ext : List FieldDef) (hex : defs.Extends o e old ext) (x : Val) (ps : List Int) (k k' : Nat) (tag : Int) (vs vs' : List Val)
    (b : BitBuffer) (h : serialize (defs.codec (n + 1) e) x = .ok (b, .obj ps k tag vs))
    (hst : defs.StoredAs (n + 1) e (.obj ps k tag vs) (.obj ps k' 0 vs')) :
    deserialize (defs.codec (n + 1) o) b ps = .ok (.obj ps (min k (numExtended old)) 0 (vs'.take old.length)) := by
  obtain ⟨w1, r, h1, h2, h3⟩ := serialize_reader (write_ofBits defs closed hl _ _ _) h
  obtain ⟨p, -, h4⟩ := C36_old_reads_new defs closed hl n o e old ext hex ps k k' tag vs vs' hst _ _ ⟨[], rfl⟩ h1 r h2
  rw [h3, h4]

/-- **C36** through `serialize_to_bytes` and `deserialize_from_bytes`. -/
theorem C36_old_deserializes_new_bytes (defs : Schema) (closed : Nat → Bool) (hl : defs.Layout closed) (n o e : Nat)
    (old ext : List FieldDef) (hex : defs.Extends o e old ext) (x : Val) (ps : List Int) (k k' : Nat) (tag : Int) (vs vs' : List Val)
    (bytes : List UInt8) (h : serializeToBytes (defs.codec (n + 1) e) x = .ok (bytes, .obj ps k tag vs))
    (hst : defs.StoredAs (n + 1) e (.obj ps k tag vs) (.obj ps k' 0 vs')) :
    deserializeFromBytes (defs.codec (n + 1) o) bytes ps = .ok (.obj ps (min k (numExtended old)) 0 (vs'.take old.length)) := by
  obtain ⟨w1, r, h1, h2, h3⟩ := serializeToBytes_reader (write_ofBits defs closed hl _ _ _) h
  obtain ⟨p, -, h4⟩ := C36_old_reads_new defs closed hl n o e old ext hex ps k k' tag vs vs' hst _ _ ⟨[], rfl⟩ h1 r h2
  rw [h3, h4]

/-! ### Re-writing -/

/-- **C36.** An object of the new structure in which the added fields are absent behaves like the object of the old structure
without them: it has the same size, the same offsets, and writes the same bits to every writer, whatever values the absent fields
have. -/
theorem C36_absent_as_old (defs : Schema) (n o e : Nat) (old ext : List FieldDef) (hex : defs.Extends o e old ext)
    (ps : List Int) (k : Nat) (hk : k ≤ numExtended old) (tag : Int) (vs es : List Val) (hv : vs.length = old.length)
    (hes : es.length = ext.length) :
    (∀ p, (defs.codec (n + 1) e).sizeOf p (.obj ps k tag (vs ++ es)) = (defs.codec (n + 1) o).sizeOf p (.obj ps k tag vs)) ∧
    (∀ p, (defs.codec (n + 1) e).initialize p (.obj ps k tag (vs ++ es)) = (do
      let (q, x) ← (defs.codec (n + 1) o).initialize p (.obj ps k tag vs)
      match x with
      | .obj ps k tag vs => .ok (q, .obj ps k tag (vs ++ es))
      | _ => .error .type)) ∧
    (∀ w, (defs.codec (n + 1) e).writeTo (.obj ps k tag (vs ++ es)) w = (defs.codec (n + 1) o).writeTo (.obj ps k tag vs) w) := by
  have hn := Struct.numExtended_le old
  have hb : Struct.base old = old.length - numExtended old := rfl
  have hco : defs.codec (n + 1) o = Struct.codec (defs.codec n) old := by
    show (defs o).codec (defs.codec n) = _
    rw [hex.before]; rfl
  have hce : defs.codec (n + 1) e = Struct.codec (defs.codec n) (old ++ ext) := by
    show (defs e).codec (defs.codec n) = _
    rw [hex.after]; rfl
  rw [hco, hce]
  refine ⟨?_, ?_, ?_⟩
  · intro p
    simp only [Codec.sizeOf, Struct.codec]
    rw [Struct.base_extend hex.extended, Struct.bitsizeof_extend ps k _ none old ext [] vs es _ p hv hes hex.extended
      (by simp; omega)]
  · intro p
    simp only [Codec.initialize, Struct.codec]
    rw [Struct.base_extend hex.extended, Struct.initOffsets_extend ps k _ none old ext [] vs es _ p hv hes hex.extended
      (by simp; omega)]
    rcases Struct.initOffsets (defs.codec n) ps k (Struct.base old) none old [] vs Ctx.empty p with e' | ⟨q, vs1, c⟩
    · rfl
    · rfl
  · intro w
    simp only [Codec.writeTo, Struct.codec]
    rw [Struct.base_extend hex.extended, Struct.write_append ps k _ none old ext [] vs es _ hv]
    rw [M.bind_apply, M.bind_apply, M.bind_apply]
    rcases Struct.write (defs.codec n) ps k (Struct.base old) none old [] vs Ctx.empty w with ⟨e' | c, w1⟩
    · rfl
    · simp only
      rw [Struct.write_absent ps k _ none ext _ es c hes hex.extended (by simp [hv]; omega)]
      rfl

/-- **C36.** Data written by the old structure, read by the new one and written by the new one again is the same data: the writer
ends in the same state. -/
theorem C36_rewrite (defs : Schema) (closed : Nat → Bool) (hl : defs.Layout closed) (n o e : Nat) (old ext : List FieldDef)
    (hex : defs.Extends o e old ext) (x : Val) (ps : List Int) (hp : x.params = .ok ps) (hcan : defs.Canonical (n + 1) o x)
    (w w1 : Writer) (hw : w.Reachable) (h : (defs.codec (n + 1) o).writeTo x w = (.ok (), w1))
    (r : Reader) (hr : ReadsToEnd r w w1) :
    ∃ y r', (defs.codec (n + 1) e).fromReader ps r = (.ok y, r') ∧ (defs.codec (n + 1) e).writeTo y w = (.ok (), w1) := by
  have hst := hcan.isStored
  obtain ⟨ps', k, tag, vs, rfl⟩ : ∃ ps k tag vs, x = .obj ps k tag vs := by
    rcases x with _ | _ | _ | _ | _ | _ | _ | _ | _ | _ <;> simp [Val.params] at hp
    exact ⟨_, _, _, _, rfl⟩
  simp only [Val.params, Except.ok.injEq] at hp
  subst hp
  have hst2 : (defs o).Stored (defs.codec n) (defs.StoredAs n) (.obj ps' k tag vs) (.obj ps' k tag vs) := hst
  rw [hex.before] at hst2
  obtain ⟨-, hk, rfl, -⟩ := hst2
  refine ⟨_, _, (C36_new_reads_old defs closed hl n o e old ext hex ps' k k 0 vs vs hst w w1 hw h r hr).1, ?_⟩
  obtain ⟨c, h2⟩ := struct_writeTo hex.before h
  have hv := Struct.write_length ps' k _ none _ _ _ _ _ _ _ h2
  rw [(C36_absent_as_old defs n o e old ext hex ps' k (by omega) 0 vs _ hv (by simp)).2.2 w, h]

/-! ### C48 for structures with extended fields -/

/-- **C48.** `deserialize_from_bytes` ignores the padding also after a structure with extended fields, present or not, as long as
its last field tells where it ends (an implicit array does not). -/
theorem C48_from_bytes_extended (defs : Schema) (closed : Nat → Bool) (hl : defs.Layout closed) (n id : Nat) (fs : List FieldDef)
    (hd : defs id = .struct fs) (hcl : ∀ f ∈ fs, f.Closed closed) (x : Val) (ps : List Int) (k k' : Nat) (tag : Int)
    (vs vs' : List Val) (bytes : List UInt8) (h : serializeToBytes (defs.codec (n + 1) id) x = .ok (bytes, .obj ps k tag vs))
    (hst : defs.StoredAs (n + 1) id (.obj ps k tag vs) (.obj ps k' 0 vs')) :
    deserializeFromBytes (defs.codec (n + 1) id) bytes ps = .ok (.obj ps k' 0 vs') := by
  obtain ⟨w1, r, h1, h2, h3⟩ := serializeToBytes_reader (write_ofBits defs closed hl _ _ _) h
  rw [h3, (struct_reads defs closed hl n id id fs [] hd (by rw [List.append_nil]; exact hd) (by simp) hcl ps k k' tag vs vs' hst
    _ _ ⟨[], rfl⟩ h1 r h2).2]
  simp

/-- 3 bits, padded to a byte; the extended field stays absent -/
example : serializeToBytes (Demo.schema.codec 3 7) (.obj [] 0 0 [.int 5, .str []]) = .ok ([160], .obj [] 0 0 [.int 5, .str []]) ∧
    Demo.schema.StoredAs 3 7 (.obj [] 0 0 [.int 5, .str []]) (.obj [] 0 0 [.int 5, .str []]) :=
  ⟨by decide +kernel, (demo_versioned1_canonical 0 (by decide)).isStored⟩

/-! ### Examples -/

/-- `Versioned` is `Versioned1` with one more field. -/
theorem demo_extends : Demo.schema.Extends 7 5 [
    { type := .int (.bitField 3), packable := true },
    { type := .other .string, extended := true, default := .str [] }]
    [{ type := .int (.bitField 16), extended := true, default := .int 0, packable := true }] where
  before := rfl
  after := rfl
  extended := by simp
  added := by simp

/-- The old structure with its extended field present (43 bits, an alignment included) and absent (3 bits), read by the new one. -/
example : (∃ b, serialize (Demo.schema.codec 3 7) (.obj [] 1 0 [.int 5, .str [0x20AC, 65]]) =
      .ok (b, .obj [] 1 0 [.int 5, .str [0x20AC, 65]]) ∧
      deserialize (Demo.schema.codec 3 5) b [] = .ok (.obj [] 1 0 [.int 5, .str [0x20AC, 65], .int 0])) ∧
    (∃ b, serialize (Demo.schema.codec 3 7) (.obj [] 0 0 [.int 5, .str []]) = .ok (b, .obj [] 0 0 [.int 5, .str []]) ∧
      deserialize (Demo.schema.codec 3 5) b [] = .ok (.obj [] 0 0 [.int 5, .str [], .int 0])) := by
  have h1 : serialize (Demo.schema.codec 3 7) (.obj [] 1 0 [.int 5, .str [0x20AC, 65]]) =
    .ok (⟨[160, 4, 226, 130, 172, 65], 48⟩, .obj [] 1 0 [.int 5, .str [0x20AC, 65]]) := by decide +kernel
  have h2 : serialize (Demo.schema.codec 3 7) (.obj [] 0 0 [.int 5, .str []]) =
    .ok (⟨[160], 3⟩, .obj [] 0 0 [.int 5, .str []]) := by decide +kernel
  exact ⟨⟨_, h1, C36_new_deserializes_old Demo.schema Demo.closed demo_layout 2 7 5 _ _ demo_extends _ _ 1 1 0 _ _ _ h1
      (demo_versioned1_canonical 1 (by decide)).isStored⟩,
    ⟨_, h2, C36_new_deserializes_old Demo.schema Demo.closed demo_layout 2 7 5 _ _ demo_extends _ _ 0 0 0 _ _ _ h2
      (demo_versioned1_canonical 0 (by decide)).isStored⟩⟩

/-- The new structure with both extended fields, read by the old one. -/
example : ∃ b, serialize (Demo.schema.codec 3 5) Demo.versionedObj = .ok (b, Demo.versionedObj) ∧
    deserialize (Demo.schema.codec 3 7) b [] = .ok (.obj [] 1 0 [.int 5, .str [0x20AC, 65]]) := by
  have h : serialize (Demo.schema.codec 3 5) Demo.versionedObj =
    .ok (⟨[160, 4, 226, 130, 172, 65, 3, 9], 64⟩, Demo.versionedObj) := by decide +kernel
  exact ⟨_, h, C36_old_deserializes_new Demo.schema Demo.closed demo_layout 2 7 5 _ _ demo_extends _ _ 2 2 0 _ _ _ h
    demo_versioned_canonical.isStored⟩

/-- Hypotheses of the re-writing theorem: data of the old structure written after a `bool`, at the end of a padded buffer. -/
example : ∃ w1 r, (Demo.schema.codec 3 7).writeTo (.obj [] 1 0 [.int 5, .str [0x20AC, 65]]) (Writer.init.runAll [.bool true]) = (.ok (), w1) ∧
    ReadsToEnd r (Writer.init.runAll [.bool true]) w1 := by
  refine ⟨_, ⟨[208, 4, 226, 130, 172, 65], 48, 1⟩, succeeds (by decide +kernel), ?_⟩
  constructor <;> decide +kernel

end Zserio
