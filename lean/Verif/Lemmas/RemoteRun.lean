import Verif.Lemmas.RemoteOffsets
set_option linter.unusedSimpArgs false
set_option linter.unusedVariables false
/-
Helper lemmas for offsets in other objects: what `initialize_offsets` changes and what `write` finds.
-/
namespace Zserio.Remote
open Writer

variable {S : Classes} {h g : Heap}

/-! ### Assignments -/

theorem put_get (h : Heap) (a j b : Nat) (s : Slot) :
    (h.put a j s)[b]? = if b = a then (h[b]?).map (fun o => { o with fields := o.fields.set j s }) else h[b]? := by
  unfold Heap.put
  rw [List.getElem?_modify]
  by_cases hb : b = a
  · subst hb; simp
  · rw [if_neg hb]
    have : ¬ a = b := fun h => hb h.symm
    simp only [this, if_false]
    rcases h[b]? <;> rfl

theorem put_slot {h : Heap} {a j : Nat} {s0 : Slot} (h0 : h.slot a j = .ok s0) (s : Slot) (b k : Nat) :
    (h.put a j s).slot b k = if b = a ∧ k = j then .ok s else h.slot b k := by
  obtain ⟨o, h1, h2⟩ := slot_ok.mp h0
  have hj := (List.getElem?_eq_some_iff.mp h2).1
  unfold Heap.slot
  rw [put_get]
  by_cases hb : b = a
  · subst hb
    rw [if_pos rfl, h1]
    simp only [Option.map_some, true_and]
    by_cases hk : k = j
    · subst hk
      rw [if_pos rfl, List.getElem?_set_self hj]
    · rw [if_neg hk, List.getElem?_set_ne (fun h => hk h.symm)]
  · rw [if_neg hb, if_neg (fun h => hb h.1)]

theorem similar_put {a j c : Nat} {s s0 : Slot} (h0 : h.slot a j = .ok s0) (hc : h.hasClass a c) (ho : IsOffset S c j)
    (hsh : s0.SameShape s) : Similar S h (h.put a j s) := by
  have hget : ∀ b o o', h[b]? = some o → (h.put a j s)[b]? = some o' →
      o' = if b = a then { o with fields := o.fields.set j s } else o := by
    intro b o o' h1 h2
    rw [put_get, h1] at h2
    split at h2 <;> rename_i hb
    · rw [if_pos hb]; simpa using h2.symm
    · rw [if_neg hb]; simpa using h2.symm
  refine ⟨?_, ?_, ?_, ?_, ?_⟩
  · simp [Heap.put]
  · intro b o o' h1 h2
    rw [hget b o o' h1 h2]; split <;> rfl
  · intro b o o' h1 h2
    rw [hget b o o' h1 h2]; split <;> rfl
  · intro b o o' h1 h2
    rw [hget b o o' h1 h2]; split <;> simp
  · intro b o o' k t t' h1 h2 h3 h4
    have h5 : h.slot b k = .ok t := slot_ok.mpr ⟨o, h1, h3⟩
    have h6 : (h.put a j s).slot b k = .ok t' := slot_ok.mpr ⟨o', h2, h4⟩
    rw [put_slot h0] at h6
    split at h6
    · rename_i hb
      obtain ⟨rfl, rfl⟩ := hb
      rw [h0] at h5
      cases h5
      cases h6
      refine ⟨hsh, fun hn => absurd ?_ hn⟩
      obtain ⟨o1, h7, h8⟩ := hc
      rw [h1] at h7
      cases h7
      rwa [h8]
    · rw [h5] at h6
      cases h6
      exact ⟨SameShape.refl _, fun _ => rfl⟩

theorem assign_lemma {l : Loc} {v : Value} {h1 : Heap} {c : Nat} {t : RField} (ht : Typed S h) (ha : h.assign l v = .ok h1)
    (hc : h.hasClass l.addr c) (ho : IsOffset S c l.field) (hf : (S c).fields[l.field]? = some t)
    (hix : t.array.isSome = l.index.isSome) :
    Similar S h h1 ∧ (∀ l', l' ≠ l → h1.read l' = h.read l') ∧ h1.read l = some v := by
  obtain ⟨a, j, ix⟩ := l
  simp only [Heap.assign] at ha
  obtain ⟨s, hs, ha⟩ := except_bind_ok ha
  simp only at hs hc ho hf hix ha
  rcases ix with _ | i
  · simp only [Except.ok.injEq] at ha
    subst ha
    obtain ⟨o, h2, h3⟩ := slot_ok.mp hs
    obtain ⟨o', h4, h5⟩ := id hc
    rw [h2] at h4
    cases h4
    obtain ⟨v0, rfl⟩ := ht.one a o j t s h2 (by rwa [h5]) h3 (by simpa using hix)
    refine ⟨similar_put hs hc ho (by simp [Slot.SameShape]), ?_, ?_⟩
    · rintro ⟨a', j', ix'⟩ hne
      simp only [Heap.read]
      rw [put_slot hs]
      by_cases hb : a' = a ∧ j' = j
      · rw [if_pos hb]
        obtain ⟨rfl, rfl⟩ := hb
        rw [hs]
        rcases ix' with _ | i'
        · exact absurd rfl hne
        · rfl
      · rw [if_neg hb]
    · simp only [Heap.read]
      rw [put_slot hs, if_pos ⟨rfl, rfl⟩]
  · rcases s with v0 | vs
    · simp at ha
    · simp only at ha
      split at ha
      · rename_i hi
        simp only [Except.ok.injEq] at ha
        subst ha
        refine ⟨similar_put hs hc ho (by simp [Slot.SameShape]), ?_, ?_⟩
        · rintro ⟨a', j', ix'⟩ hne
          simp only [Heap.read]
          rw [put_slot hs]
          by_cases hb : a' = a ∧ j' = j
          · rw [if_pos hb]
            obtain ⟨rfl, rfl⟩ := hb
            rw [hs]
            rcases ix' with _ | i'
            · rfl
            · simp only
              rw [List.getElem?_set_ne]
              rintro rfl
              exact hne rfl
          · rw [if_neg hb]
        · simp only [Heap.read]
          rw [put_slot hs, if_pos ⟨rfl, rfl⟩]
          simp only
          exact List.getElem?_set_self hi
      · simp at ha

/-! ### Runs -/

/-- `initialize_offsets` has changed `h` to `h1`, from position `p` to `e`, and has stored offsets in the places `L`; `w` writes
the same part of all objects whose offsets are those of `h1` -/
def Run (S : Classes) (h : Heap) (p : Nat) (h1 : Heap) (e : Nat) (L : List Loc) (w : Heap → M Writer Unit) : Prop :=
  Similar S h h1 ∧ (∀ l, l ∉ L → h1.read l = h.read l) ∧
    (L.Nodup → ∀ g, Similar S h g → (∀ l ∈ L, g.read l = h1.read l) → Ends (w g) p e (fun _ => True))

theorem Run.of_ends {p e : Nat} {w : Heap → M Writer Unit} (hw : ∀ g, Similar S h g → Ends (w g) p e (fun _ => True)) :
    Run S h p h e [] w := ⟨Similar.refl _ _, fun _ _ => rfl, fun _ g hg _ => hw g hg⟩

theorem Run.seq {h1 h2 : Heap} {p q e : Nat} {L1 L2 : List Loc} {w1 w2 : Heap → M Writer Unit} (r1 : Run S h p h1 q L1 w1)
    (r2 : Run S h1 q h2 e L2 w2) : Run S h p h2 e (L1 ++ L2) (fun g => w1 g >>= fun _ => w2 g) := by
  obtain ⟨a1, b1, c1⟩ := r1
  obtain ⟨a2, b2, c2⟩ := r2
  refine ⟨a1.trans a2, ?_, ?_⟩
  · intro l hl
    rw [List.mem_append, not_or] at hl
    rw [b2 l hl.2, b1 l hl.1]
  · intro hn g hg hr
    obtain ⟨n1, n2, n3⟩ := List.nodup_append.mp hn
    refine (c1 n1 g hg ?_).bind fun _ _ => c2 n2 g (a1.symm.trans hg) ?_
    · intro l hl
      rw [hr l (List.mem_append_left _ hl)]
      exact b2 l fun hl2 => n3 l hl l hl2 rfl
    · intro l hl
      exact hr l (List.mem_append_right _ hl)

theorem Run.pre {h1 : Heap} {p q e : Nat} {L : List Loc} {w0 w : Heap → M Writer Unit}
    (h0 : ∀ g, Similar S h g → Ends (w0 g) p q (fun _ => True)) (r : Run S h q h1 e L w) :
    Run S h p h1 e L (fun g => w0 g >>= fun _ => w g) :=
  ⟨r.1, r.2.1, fun hn g hg hr => (h0 g hg).bind fun _ _ => r.2.2 hn g hg hr⟩

/-- the values may be different if the field has the type of an offset -/
def Alike (t : RType) (v v' : Value) : Prop := v' = v ∨ ∃ n, t = .leaf (.int (.bitField n))

/-- the expression is an offset in the class -/
def OffsetIn (S : Classes) (c : Nat) (o : Option Path) : Prop :=
  ∀ p, o = some p → ∃ f, f ∈ (S c).fields ∧ f.offset = some p

theorem ownOffset_in {c : Nat} {f : RField} (hf : f ∈ (S c).fields) : OffsetIn S c f.ownOffset := by
  intro p hp
  refine ⟨f, hf, ?_⟩
  unfold RField.ownOffset at hp
  split at hp
  · rename_i q hq
    split at hp
    · simp at hp
    · rw [hq, hp]
  · simp at hp

theorem elemOffset_in {c : Nat} {f : RField} (hf : f ∈ (S c).fields) : OffsetIn S c f.elemOffset := by
  intro p hp
  refine ⟨f, hf, ?_⟩
  unfold RField.elemOffset at hp
  split at hp
  · rename_i q hq
    split at hp
    · rw [hq, hp]
    · simp at hp
  · simp at hp

theorem places_path (hR : Rules S) (ht : Typed S h) (hs : Similar S h g) {c self : Nat} (hc : h.hasClass self c) {o : Option Path}
    (ho : OffsetIn S c o) (i : Nat) : placesOfPath o g self i = placesOfPath o h self i := by
  cases o with
  | none => rfl
  | some p =>
    obtain ⟨f, hf, hp⟩ := ho p rfl
    obtain ⟨d, j, ix, t, n, h1, _⟩ := hR.offset c f p hf hp
    simp only [placesOfPath]
    rw [(path_similar hR ht hs (i := i) hc p).2 d j ix h1]

theorem not_isParam {c d j : Nat} {ix : Bool} {p : Path} (hp : p.place S c = some (.slot d j ix)) : p.isParam = false := by
  cases p with
  | param k => simp [Path.place] at hp
  | dotParam q k =>
    simp only [Path.place, Option.map_eq_some_iff] at hp
    obtain ⟨d', _, h1⟩ := hp
    simp at h1
  | field k => rfl
  | dot q k => rfl
  | element q => rfl

theorem run_offset (hR : Rules S) (ht : Typed S h) {c self : Nat} (hc : h.hasClass self c) {o : Option Path} (ho : OffsetIn S c o)
    {i p e : Nat} {h1 : Heap} (hi : initOffset o h self i p = .ok (e, h1)) :
    Run S h p h1 e (placesOfPath o h self i) (fun g => writeOffset o g self i) := by
  cases o with
  | none =>
    simp only [initOffset, Except.ok.injEq, Prod.mk.injEq] at hi
    obtain ⟨rfl, rfl⟩ := hi
    exact Run.of_ends fun g _ => ends_pure trivial _
  | some path =>
    obtain ⟨f, hf, hp⟩ := ho path rfl
    obtain ⟨d, j, ix, t, n, h2, h3, h4, h5, h6⟩ := hR.offset c f path hf hp
    simp only [initOffset] at hi
    obtain ⟨h1', hset, hi⟩ := except_bind_ok hi
    simp only [Except.ok.injEq, Prod.mk.injEq] at hi
    obtain ⟨rfl, rfl⟩ := hi
    simp only [Path.set] at hset
    obtain ⟨v, hv, hset⟩ := except_bind_ok hset
    rw [not_isParam h2] at hset
    simp only [Bool.false_eq_true, if_false] at hset
    obtain ⟨l, hl, hass⟩ := except_bind_ok hset
    obtain ⟨h7, h8⟩ := target_shape h2 hl
    have hcl := (path_class ht (i := i) hc path).2 _ _ _ _ h2 hl
    have hoff : IsOffset S d l.field := by
      rw [h7]
      exact ⟨c, f, path, ix, hf, hp, h2⟩
    obtain ⟨a1, a2, a3⟩ := assign_lemma ht hass hcl hoff (by rwa [h7]) (by rw [h6, h8]; cases ix <;> rfl)
    simp only [placesOfPath, hl]
    refine ⟨a1, fun l' hl' => a2 l' (by simpa using hl'), ?_⟩
    intro _ g hg hr
    simp only [writeOffset]
    refine (ends_align8 p).bind fun _ _ => ends_get_bind fun w hw => ?_
    have hck : path.check g self i w.pos = .ok () := by
      have h9 : path.eval g self i = .ok (.one (.leaf (.int v))) := by
        rw [eval_eq h2, (path_similar hR ht hg (i := i) hc path).2 _ _ _ h2, hl]
        simp only [ok_bind]
        exact fetch_of_read (by rw [hr l (by simp), a3])
      simp only [Path.check, h9, ok_bind, Val.asInt]
      rw [hw, if_neg]
      simpa using bitsToBytes_ok hv
    rw [hck]
    exact (ends_lift (quietE_ok _) _).mono fun _ _ => trivial

/-- what is known of the methods of nested objects -/
def OpsLaw (S : Classes) (ops : Ops) (places : Heap → Nat → List Loc) : Prop :=
  (∀ h a p e h1, Typed S h → ops.init h a p = .ok (e, h1) → Run S h p h1 e (places h a) (fun g => ops.write g a)) ∧
    ∀ h g a, Typed S h → Similar S h g → places g a = places h a

theorem leaf_law (l : Leaf) : l.methods.InitLaw (fun v v' => v' = v) := by
  cases l with
  | int k => exact initLaw_int k
  | other b => exact initLaw_other b
  | enum e => exact initLaw_enum e
  | bitmask k => exact initLaw_bitmask k

theorem fixed_init {n p e : Nat} {v v' : Val} {c' : Ctx} (hi : (intMethods (.bitField n)).initOffsets none Ctx.empty p v = .ok (e, v', c')) :
    e = p + n := by
  simp only [intMethods] at hi
  obtain ⟨⟨m, c2⟩, hn, hi⟩ := except_bind_ok hi
  simp only [Except.ok.injEq, Prod.mk.injEq] at hi
  obtain ⟨rfl, _, _⟩ := hi
  simp only [intSize, sizeUnpacked, IntKind.traits, Traits.bitField, Traits.simple, ok_bind, Except.ok.injEq, Prod.mk.injEq] at hn
  rw [hn.1]

theorem run_value {ops : Ops} {places : Heap → Nat → List Loc} (ho : OpsLaw S ops places) (ht : Typed S h) {t : RType} {p e : Nat}
    {h1 : Heap} {v v' : Value} (hi : initValue ops t h p v = .ok (e, h1)) (hv : Alike t v v') :
    Run S h p h1 e (placesOfValue (places h) t v) (fun g => writeValue ops t g v') := by
  cases t with
  | leaf l =>
    rcases v with v | a
    · simp only [initValue] at hi
      obtain ⟨⟨p2, x1, c1⟩, h2, hi⟩ := except_bind_ok hi
      simp only [Except.ok.injEq, Prod.mk.injEq] at hi
      obtain ⟨rfl, rfl⟩ := hi
      refine Run.of_ends fun g _ => ?_
      rcases hv with rfl | ⟨n, hn⟩
      · simp only [writeValue]
        obtain ⟨rfl, h3⟩ := (leaf_law l).init none Ctx.empty p v p2 x1 c1 h2
        exact (h3 Ctx.empty (Ctx.alike_refl _)).bind fun _ _ => ends_pure trivial _
      · cases hn
        obtain rfl := fixed_init h2
        rcases v' with v' | a
        · simp only [writeValue]
          exact (ends_fixedInt n p Ctx.empty v').bind fun _ _ => ends_pure trivial _
        · simp only [writeValue]
          exact ends_throw (by simp) _ _ _
    · simp [initValue] at hi
  | compound c =>
    rcases hv with rfl | ⟨n, hn⟩
    · rcases v' with v | a
      · simp [initValue] at hi
      · simp only [initValue] at hi
        exact ho.1 h a p e h1 ht hi
    · simp at hn

theorem places_value {ops : Ops} {places : Heap → Nat → List Loc} (ho : OpsLaw S ops places) (ht : Typed S h) (hs : Similar S h g)
    {t : RType} {v v' : Value} (hv : Alike t v v') : placesOfValue (places g) t v' = placesOfValue (places h) t v := by
  rcases hv with rfl | ⟨n, rfl⟩
  · cases t with
    | leaf l => rfl
    | compound c =>
      cases v' with
      | leaf v => rfl
      | ref a => exact ho.2 h g a ht hs
  · rfl

theorem places_elements {ops : Ops} {places : Heap → Nat → List Loc} (ho : OpsLaw S ops places) (hR : Rules S) (ht : Typed S h)
    (hs : Similar S h g) {c self : Nat} (hc : h.hasClass self c) {t : RType} {o : Option Path} (hoff : OffsetIn S c o) :
    ∀ {vs vs' : List Value} (i : Nat), List.Forall₂ (Alike t) vs vs' →
      placesOfElements (places g) t o g self i vs' = placesOfElements (places h) t o h self i vs
  | _, _, _, .nil => rfl
  | _, _, i, .cons hv hvs => by
    simp only [placesOfElements]
    rw [places_path hR ht hs hc hoff, places_value ho ht hs hv, places_elements ho hR ht hs hc hoff (i + 1) hvs]

theorem alike_refl (t : RType) : ∀ vs : List Value, List.Forall₂ (Alike t) vs vs
  | [] => .nil
  | _ :: vs => .cons (.inl rfl) (alike_refl t vs)

theorem alike_length {t : RType} (ht : ∃ n, t = .leaf (.int (.bitField n))) : ∀ {vs vs' : List Value}, vs.length = vs'.length →
    List.Forall₂ (Alike t) vs vs'
  | [], [], _ => .nil
  | _ :: vs, _ :: vs', h => .cons (.inr ht) (alike_length ht (by simpa using h))

theorem run_elements {ops : Ops} {places : Heap → Nat → List Loc} (ho : OpsLaw S ops places) (hR : Rules S) {c self : Nat} {t : RType}
    {o : Option Path} (hoff : OffsetIn S c o) : ∀ {vs vs' : List Value} {h h1 : Heap} {i p e : Nat}, Typed S h → h.hasClass self c →
      initElements ops t o self i vs h p = .ok (e, h1) → List.Forall₂ (Alike t) vs vs' →
      Run S h p h1 e (placesOfElements (places h) t o h self i vs) (fun g => writeElements ops t o self g i vs')
  | [], [], h, h1, i, p, e, ht, hc, hi, .nil => by
    simp only [initElements, Except.ok.injEq, Prod.mk.injEq] at hi
    obtain ⟨rfl, rfl⟩ := hi
    exact Run.of_ends fun g _ => ends_pure trivial _
  | v :: vs, v' :: vs', h, h1, i, p, e, ht, hc, hi, .cons hv hvs => by
    simp only [initElements] at hi
    obtain ⟨⟨p2, h2⟩, e1, hi⟩ := except_bind_ok hi
    obtain ⟨⟨p3, h3⟩, e2, hi⟩ := except_bind_ok hi
    have r1 := run_offset hR ht hc hoff e1
    have ht2 := ht.similar hR r1.1
    have r2 := run_value ho ht2 e2 hv
    have ht3 := ht2.similar hR r2.1
    have r3 := run_elements ho hR hoff ht3 (r2.1.hasClass (r1.1.hasClass hc)) hi hvs
    rw [places_value ho ht r1.1 (.inl rfl)] at r2
    rw [places_elements ho hR ht (r1.1.trans r2.1) hc hoff (i + 1) (alike_refl t vs)] at r3
    have r := r1.seq (r2.seq r3)
    simp only [placesOfElements, writeElements, List.append_assoc]
    exact r

theorem ends_align (a : Option Nat) (p : Nat) : Ends (writeAlign a) p (FieldDef.alignPos a p) (fun _ => True) := by
  cases a with
  | none => exact ends_pure trivial _
  | some a => exact ends_alignto a p

theorem run_inner {ops : Ops} {places : Heap → Nat → List Loc} (ho : OpsLaw S ops places) (hR : Rules S) {c self : Nat} {f : RField}
    (hf : f ∈ (S c).fields) (ht : Typed S h) (hc : h.hasClass self c) {s s' : Slot} {p e : Nat} {h1 : Heap}
    (hi : initInner ops f h self s p = .ok (e, h1)) (hsh : s.SameShape s')
    (hs : s' = s ∨ ∃ n, f.type = .leaf (.int (.bitField n))) :
    Run S h p h1 e (placesOfSlot (places h) f h self s) (fun g => writeInner ops f g self s') := by
  simp only [initInner] at hi
  obtain ⟨⟨p2, h2⟩, e1, hi⟩ := except_bind_ok hi
  have r1 := run_offset hR ht hc (ownOffset_in hf) e1
  have ht2 := ht.similar hR r1.1
  have hc2 := r1.1.hasClass hc
  have hck : ∀ (q : Nat) (g : Heap), Ends (M.lift (f.checks g self) : M Writer Unit) q q (fun _ => True) := fun q g =>
    (ends_lift (hR.checkError c f hf g self) q).mono fun _ _ => trivial
  rcases harr : f.array with _ | isAuto
  · rw [harr] at hi
    rcases s with v | vs
    · simp only at hi
      rcases s' with v' | vs'
      · have hv : Alike f.type v v' := by
          rcases hs with hs | hs
          · cases hs; exact .inl rfl
          · exact .inr hs
        have r2 := run_value ho ht2 hi hv
        rw [places_value ho ht r1.1 (.inl rfl)] at r2
        have r := Run.pre (w0 := fun _ => writeAlign f.alignment) (fun g _ => ends_align f.alignment p)
          (r1.seq (Run.pre (w0 := fun g => M.lift (f.checks g self)) (fun g _ => hck _ g) r2))
        simp only [placesOfSlot]
        simpa only [writeInner, harr] using r
      · simp [Slot.SameShape] at hsh
    · simp at hi
  · rw [harr] at hi
    rcases s with v | vs
    · simp at hi
    · simp only at hi
      obtain ⟨p3, e2, hi⟩ := except_bind_ok hi
      rcases s' with v' | vs'
      · simp [Slot.SameShape] at hsh
      · have hlen : vs.length = vs'.length := hsh
        have hv : List.Forall₂ (Alike f.type) vs vs' := by
          rcases hs with hs | hs
          · cases hs; exact alike_refl _ _
          · exact alike_length hs hlen
        have r2 := run_elements ho hR (elemOffset_in hf) ht2 hc2 hi hv
        rw [places_elements ho hR ht r1.1 hc (elemOffset_in hf) 0 (alike_refl f.type vs)] at r2
        have r := Run.pre (w0 := fun _ => writeAlign f.alignment) (fun g _ => ends_align f.alignment p)
          (r1.seq (Run.pre (w0 := fun g => M.lift (f.checks g self)) (fun g _ => hck _ g)
            (Run.pre (w0 := fun _ => Array'.writePrefix isAuto vs'.length)
              (fun g _ => Array'.ends_writePrefix (by rw [← hlen]; exact e2)) r2)))
        simp only [placesOfSlot]
        simpa only [writeInner, harr] using r

theorem used_eq (hR : Rules S) (hs : Similar S h g) {c self : Nat} {f : RField} (hf : f ∈ (S c).fields) {s s' : Slot}
    (hss : s' = s ∨ f.optional = .required) : f.isUsed g self s' = f.isUsed h self s := by
  rcases hss with rfl | hreq
  · unfold RField.isUsed
    rcases ho : f.optional with _ | _ | cl
    · rfl
    · rfl
    · exact hR.clause c f cl hf ho h g self hs
  · unfold RField.isUsed
    rw [hreq]

theorem quiet_used (hR : Rules S) {c self : Nat} {f : RField} (hf : f ∈ (S c).fields) (s : Slot) : QuietE (f.isUsed g self s) := by
  unfold RField.isUsed
  rcases ho : f.optional with _ | _ | cl
  · exact quietE_ok _
  · exact quietE_ok _
  · exact hR.clauseError c f cl hf ho g self

/-- the slots of a field in similar objects -/
theorem slot_alike (hR : Rules S) (hs : Similar S h g) {c self j : Nat} {f : RField} (hf : (S c).fields[j]? = some f)
    (hc : h.hasClass self c) {s : Slot} (h1 : h.slot self j = .ok s) : ∃ s', g.slot self j = .ok s' ∧ s.SameShape s' ∧
      (s' = s ∨ (∃ n, f.type = .leaf (.int (.bitField n))) ∧ f.optional = .required) := by
  obtain ⟨s', h2, h3, h4⟩ := hs.slot h1
  refine ⟨s', h2, h3, ?_⟩
  by_cases ho : IsOffset S c j
  · obtain ⟨t, n, h5, h6, h7⟩ := hR.isOffset ho
    rw [hf] at h5
    cases h5
    exact .inr ⟨⟨n, h6⟩, h7⟩
  · exact .inl (h4 c hc ho)

theorem places_slot {ops : Ops} {places : Heap → Nat → List Loc} (ho : OpsLaw S ops places) (hR : Rules S) (ht : Typed S h)
    (hs : Similar S h g) {c self : Nat} (hc : h.hasClass self c) {f : RField} (hf : f ∈ (S c).fields) {s s' : Slot}
    (hsh : s.SameShape s') (hss : s' = s ∨ ∃ n, f.type = .leaf (.int (.bitField n))) :
    placesOfSlot (places g) f g self s' = placesOfSlot (places h) f h self s := by
  rcases s with v | vs <;> rcases s' with v' | vs'
  · have hv : Alike f.type v v' := by
      rcases hss with hs | hs
      · cases hs; exact .inl rfl
      · exact .inr hs
    simp only [placesOfSlot]
    rw [places_path hR ht hs hc (ownOffset_in hf), places_value ho ht hs hv]
  · simp [Slot.SameShape] at hsh
  · simp [Slot.SameShape] at hsh
  · have hv : List.Forall₂ (Alike f.type) vs vs' := by
      rcases hss with hs | hs
      · cases hs; exact alike_refl _ _
      · exact alike_length hs hsh
    simp only [placesOfSlot]
    rw [places_path hR ht hs hc (ownOffset_in hf), places_elements ho hR ht hs hc (elemOffset_in hf) 0 hv]

theorem places_field {ops : Ops} {places : Heap → Nat → List Loc} (ho : OpsLaw S ops places) (hR : Rules S) (ht : Typed S h)
    (hs : Similar S h g) {c self j : Nat} (hc : h.hasClass self c) {f : RField} (hf : (S c).fields[j]? = some f) :
    placesOfField (places g) f g self j = placesOfField (places h) f h self j := by
  have hm := List.mem_of_getElem? hf
  unfold placesOfField
  rcases h1 : h.slot self j with e | s
  · rw [hs.slot_error h1]
  · obtain ⟨s', h2, h3, h4⟩ := slot_alike hR hs hf hc h1
    rw [h2]
    simp only
    rw [used_eq hR hs hm (h4.imp_right (·.2))]
    split
    · exact places_slot ho hR ht hs hc hm h3 (h4.imp_right (·.1))
    · rfl

theorem run_field {ops : Ops} {places : Heap → Nat → List Loc} (ho : OpsLaw S ops places) (hR : Rules S) {c self j : Nat} {f : RField}
    (hf : (S c).fields[j]? = some f) (ht : Typed S h) (hc : h.hasClass self c) {p e : Nat} {h1 : Heap}
    (hi : initField ops f h self j p = .ok (e, h1)) :
    Run S h p h1 e (placesOfField (places h) f h self j) (fun g => writeField ops f g self j) := by
  have hm := List.mem_of_getElem? hf
  simp only [initField] at hi
  obtain ⟨s, e1, hi⟩ := except_bind_ok hi
  obtain ⟨used, e2, hi⟩ := except_bind_ok hi
  have hbit : ∀ b, Ends (writeAutoBit f b) p (p + f.autoBit) (fun _ => True) := by
    intro b
    unfold writeAutoBit RField.autoBit
    rcases f.optional with _ | _ | cl
    · exact ends_pure trivial _
    · exact DeltaContext.ends_bool b p
    · exact ends_pure trivial _
  have hpl : placesOfField (places h) f h self j = if used then placesOfSlot (places h) f h self s else [] := by
    unfold placesOfField
    rw [e1]
    simp only
    rw [e2]
    cases used <;> rfl
  rw [hpl]
  -- what is written in `g`
  have hw : ∀ g, Similar S h g → ∃ s', s.SameShape s' ∧ (s' = s ∨ ∃ n, f.type = .leaf (.int (.bitField n))) ∧
      ∀ e', Ends (if used then writeInner ops f g self s' else pure ()) (p + f.autoBit) e' (fun _ => True) →
        Ends (writeField ops f g self j) p e' (fun _ => True) := by
    intro g hg
    obtain ⟨s', h2, h3, h4⟩ := slot_alike hR hg hf hc e1
    refine ⟨s', h3, h4.imp_right (·.1), fun e' hE => ?_⟩
    have hu : f.isUsed g self s' = .ok used := by rw [used_eq hR hg hm (h4.imp_right (·.2)), e2]
    unfold writeField
    refine (ends_lift (quietE_slot g self j) p).bind fun s'' hs'' => ?_
    rw [h2] at hs''
    cases hs''
    refine (ends_lift (quiet_used hR hm s') p).bind fun u hu' => ?_
    rw [hu] at hu'
    cases hu'
    exact (hbit used).bind fun _ _ => hE
  cases used with
  | false =>
    simp only [Bool.false_eq_true, if_false, Except.ok.injEq, Prod.mk.injEq] at hi hw ⊢
    obtain ⟨rfl, rfl⟩ := hi
    refine Run.of_ends fun g hg => ?_
    obtain ⟨s', _, _, h5⟩ := hw g hg
    exact h5 _ (ends_pure trivial _)
  | true =>
    simp only [if_true] at hi hw ⊢
    have r0 := run_inner ho hR hm ht hc hi (SameShape.refl s) (.inl rfl)
    refine ⟨r0.1, r0.2.1, ?_⟩
    intro hn g hg hr
    obtain ⟨s', h3, h4, h5⟩ := hw g hg
    exact h5 _ ((run_inner ho hR hm ht hc hi h3 h4).2.2 hn g hg hr)

theorem drop_cons {α : Type} {l : List α} {j : Nat} {x : α} {xs : List α} (h : l.drop j = x :: xs) :
    l[j]? = some x ∧ l.drop (j + 1) = xs := by
  constructor
  · have := List.getElem?_drop (xs := l) (i := j) (j := 0)
    rw [h] at this
    simpa using this.symm
  · rw [← List.tail_drop, h]
    rfl

theorem places_fields {ops : Ops} {places : Heap → Nat → List Loc} (ho : OpsLaw S ops places) (hR : Rules S) (ht : Typed S h)
    (hs : Similar S h g) {c self : Nat} (hc : h.hasClass self c) : ∀ (fs : List RField) (j : Nat), (S c).fields.drop j = fs →
    placesOfFields (places g) g self j fs = placesOfFields (places h) h self j fs
  | [], _, _ => rfl
  | f :: fs, j, hd => by
    obtain ⟨h1, h2⟩ := drop_cons hd
    simp only [placesOfFields]
    rw [places_field ho hR ht hs hc h1, places_fields ho hR ht hs hc fs (j + 1) h2]

theorem run_fields {ops : Ops} {places : Heap → Nat → List Loc} (ho : OpsLaw S ops places) (hR : Rules S) {c self : Nat} :
    ∀ (fs : List RField) (j : Nat) {h h1 : Heap} {p e : Nat}, (S c).fields.drop j = fs → Typed S h → h.hasClass self c →
      initFields ops self j fs h p = .ok (e, h1) →
      Run S h p h1 e (placesOfFields (places h) h self j fs) (fun g => writeFields ops self g j fs)
  | [], j, h, h1, p, e, _, ht, hc, hi => by
    simp only [initFields, Except.ok.injEq, Prod.mk.injEq] at hi
    obtain ⟨rfl, rfl⟩ := hi
    exact Run.of_ends fun g _ => ends_pure trivial _
  | f :: fs, j, h, h1, p, e, hd, ht, hc, hi => by
    obtain ⟨h2, h3⟩ := drop_cons hd
    simp only [initFields] at hi
    obtain ⟨⟨p2, h4⟩, e1, hi⟩ := except_bind_ok hi
    have r1 := run_field ho hR h2 ht hc e1
    have r2 := run_fields ho hR fs (j + 1) h3 (ht.similar hR r1.1) (r1.1.hasClass hc) hi
    rw [places_fields ho hR ht r1.1 hc fs (j + 1) h3] at r2
    exact r1.seq r2

theorem ops_law (hR : Rules S) : ∀ n, OpsLaw S (ops S n) (fun h a => offsetPlaces S h n a)
  | 0 => by
    refine ⟨?_, fun _ _ _ _ _ => rfl⟩
    intro h a p e h1 _ hi
    simp [ops] at hi
  | n + 1 => by
    have ih := ops_law hR n
    refine ⟨?_, ?_⟩
    · intro h a p e h1 ht hi
      simp only [ops] at hi
      rcases ha : h[a]? with _ | o
      · rw [ha] at hi; simp at hi
      · rw [ha] at hi
        simp only at hi
        have r := run_fields ih hR (S o.cls).fields 0 (by simp) ht ⟨o, ha, rfl⟩ hi
        simp only [offsetPlaces, ha]
        refine ⟨r.1, r.2.1, ?_⟩
        intro hn g hg hr
        obtain ⟨o', ho'⟩ := hg.get ha
        have hw := r.2.2 hn g hg hr
        simp only [ops, ho', hg.cls a o o' ha ho']
        exact hw
    · intro h g a ht hs
      simp only [offsetPlaces]
      rcases ha : h[a]? with _ | o
      · have : g[a]? = none := by
          rw [List.getElem?_eq_none_iff] at ha ⊢
          have := hs.length
          omega
        rw [this]
      · obtain ⟨o', ho'⟩ := hs.get ha
        rw [ho']
        simp only
        rw [hs.cls a o o' ha ho']
        exact places_fields ih hR ht hs ⟨o, ha, rfl⟩ (S o.cls).fields 0 (by simp)

end Zserio.Remote
