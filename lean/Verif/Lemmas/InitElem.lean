import Verif.Lemmas.Ends
import Verif.Spec.Offsets
set_option linter.unusedSimpArgs false
/-
Helper lemmas for `initialize_offsets`: element types.  The contexts of the pass that sets the offsets and of the pass that
writes differ in the previous element.
-/
namespace Zserio
open Writer Array'

namespace DeltaContext

/-- equal up to the previous element -/
def Alike (d d' : DeltaContext) : Prop := { d with previousElement := d'.previousElement } = d'

theorem Alike.fields {d d' : DeltaContext} (h : Alike d d') : d.isPacked = d'.isPacked ∧ d.maxBitNumber = d'.maxBitNumber ∧
    d.processingStarted = d'.processingStarted ∧ d.unpackedBitsize = d'.unpackedBitsize ∧
    d.firstElementBitsize = d'.firstElementBitsize ∧ d.numElements = d'.numElements := by
  unfold Alike at h
  rw [← h]
  simp

theorem alike_iff {d d' : DeltaContext} : Alike d d' ↔ d.isPacked = d'.isPacked ∧ d.maxBitNumber = d'.maxBitNumber ∧
    d.processingStarted = d'.processingStarted ∧ d.unpackedBitsize = d'.unpackedBitsize ∧
    d.firstElementBitsize = d'.firstElementBitsize ∧ d.numElements = d'.numElements := by
  refine ⟨Alike.fields, ?_⟩
  rcases d with ⟨_, _, _, _, _, _, _⟩
  rcases d' with ⟨_, _, _, _, _, _, _⟩
  rintro ⟨h1, h2, h3, h4, h5, h6⟩
  simp only at h1 h2 h3 h4 h5 h6
  subst h1 h2 h3 h4 h5 h6
  rfl

theorem alike_refl (d : DeltaContext) : Alike d d := rfl

theorem Alike.start {d d' : DeltaContext} (h : Alike d d') :
    Alike ({ d with processingStarted := true }.finishInit) ({ d' with processingStarted := true }.finishInit) := by
  rcases d with ⟨a1, a2, a3, a4, a5, a6, a7⟩
  rcases d' with ⟨b1, b2, b3, b4, b5, b6, b7⟩
  obtain ⟨h1, h2, h3, h4, h5, h6⟩ := h.fields
  simp only at h1 h2 h3 h4 h5 h6
  subst h1 h2 h3 h4 h5 h6
  unfold finishInit deltaBitsize
  simp only
  split
  · by_cases hc : 1 + MAX_BIT_NUMBER_BITS + a6 + (a7 - 1) * (if a2 > 0 then a2 + 1 else 0) ≥ 1 + a5
    · rw [if_pos hc, if_pos hc]; rfl
    · rw [if_neg hc, if_neg hc]; rfl
  · rfl

theorem Alike.previous {d d' : DeltaContext} (h : Alike d d') (x : Option Int) :
    Alike { d with previousElement := x } d' := by
  rw [alike_iff]
  exact h.fields

theorem ends_unchecked (v : Int) (n p : Nat) : Ends (Writer.writeBitsUnchecked v n) p (p + n) (fun _ => True) := by
  intro b0 hp
  refine ⟨quiet_writeBitsUnchecked v n _, ?_⟩
  intro a w' h
  have h0 := h
  unfold writeBitsUnchecked at h
  split at h
  · simp at h
  · obtain ⟨m, rfl⟩ := Int.eq_ofNat_of_zero_le (a := v) (by omega)
    have hm : m < 2 ^ n := by
      have : (m : Int) < 2 ^ n := by omega
      exact_mod_cast this
    rw [emits_writeBitsUnchecked m n p hm b0 hp] at h0
    simp only [Prod.mk.injEq, true_and] at h0
    exact ⟨trivial, _, h0.symm, by simp⟩

theorem ends_signedUnchecked (v : Int) (n p : Nat) : Ends (Writer.writeSignedBitsUnchecked v n) p (p + n) (fun _ => True) := by
  intro b0 hp
  refine ⟨quiet_writeSignedBitsUnchecked v n _, ?_⟩
  intro a w' h
  have h0 := h
  unfold writeSignedBitsUnchecked at h
  split at h
  · simp at h
  · split at h
    · simp at h
    · rw [emits_writeSignedBitsUnchecked v n p (by omega) (by omega) (by omega) b0 hp] at h0
      simp only [Prod.mk.injEq, true_and] at h0
      exact ⟨trivial, _, h0.symm, by simp⟩

theorem ends_bool (b : Bool) (p : Nat) : Ends (Writer.writeBool b) p (p + 1) (fun _ => True) := by
  intro b0 hp
  refine ⟨quiet_writeBool b _, ?_⟩
  intro a w' h
  rw [emits_writeBool b p b0 hp] at h
  simp only [Prod.mk.injEq, true_and] at h
  exact ⟨trivial, _, h.symm, by simp⟩

theorem ends_descriptor (c : DeltaContext) (p : Nat) : Ends c.writeDescriptor p (p + c.bitsizeofDescriptor) (fun _ => True) := by
  unfold writeDescriptor bitsizeofDescriptor
  refine (ends_bool _ p).bind fun _ _ => ?_
  split
  · rw [← Nat.add_assoc]
    exact ends_unchecked _ _ _
  · exact ends_pure trivial _

theorem ends_int (k : IntKind) (x : Int) {p n : Nat} (h : bitsizeofUnpacked k.traits x = .ok n) :
    Ends (k.traits.write x) p (p + n) (fun _ => True) := by
  refine ends_traits (k.appends x) (k.sizeExact x) (k.quiet_write x) ?_
  unfold bitsizeofUnpacked at h
  rcases hc : k.traits.constSize with _ | m
  · left
    rw [hc] at h
    rw [← h]
    cases k <;> rfl
  · right
    rw [hc] at h
    simpa using h

theorem ends_writeUnpacked (k : IntKind) (x : Int) {p n : Nat} (h : bitsizeofUnpacked k.traits x = .ok n) {d d' : DeltaContext}
    (ha : Alike d d') : Ends (d.writeUnpacked k.traits x) p (p + n) (fun r => Alike r d') := by
  unfold writeUnpacked
  exact (ends_int k x h).bind fun _ _ => ends_pure (by exact ha.previous _) _

theorem ends_write (k : IntKind) (x : Int) {p n : Nat} {d d' d1 : DeltaContext} (h : d.bitsizeof k.traits x = .ok (n, d1))
    (ha : Alike d' d) : Ends (d'.write k.traits x) p (p + n) (fun r => Alike r d1) := by
  obtain ⟨h1, h2, h3, h4, h5, h6⟩ := ha.fields
  unfold bitsizeof at h
  unfold write
  rw [h3]
  split at h
  · rename_i hs
    rw [if_pos hs]
    obtain ⟨m, hm, h⟩ := except_bind_ok h
    simp only [Except.ok.injEq, Prod.mk.injEq] at h
    obtain ⟨rfl, rfl⟩ := h
    have hst := ha.start
    have : ({ d' with processingStarted := true } : DeltaContext).finishInit.bitsizeofDescriptor =
        ({ d with processingStarted := true } : DeltaContext).finishInit.bitsizeofDescriptor := by
      unfold bitsizeofDescriptor
      rw [hst.fields.1]
    rw [← this, ← Nat.add_assoc]
    exact (ends_descriptor _ p).bind fun _ _ => ends_writeUnpacked k x hm hst
  · rename_i hs
    rw [if_neg hs, h1]
    split at h
    · rename_i hp
      rw [if_pos hp]
      obtain ⟨m, hm, h⟩ := except_bind_ok h
      simp only [Except.ok.injEq, Prod.mk.injEq] at h
      obtain ⟨rfl, rfl⟩ := h
      exact ends_writeUnpacked k x hm ha
    · rename_i hp
      rw [if_neg hp]
      simp only [Except.ok.injEq, Prod.mk.injEq] at h
      obtain ⟨rfl, rfl⟩ := h
      rcases d'.previousElement with _ | prev
      · exact ends_throw (by simp) _ _ _
      · simp only
        unfold deltaBitsize
        rw [h2]
        split
        · exact (ends_signedUnchecked _ _ p).bind fun _ _ => ends_pure (by rw [alike_iff]; exact ⟨rfl, rfl, rfl, h4, h5, h6⟩) _
        · exact ends_pure (by exact ha) _

end DeltaContext
open DeltaContext

/-- contexts equal up to the previous elements -/
def Ctx.Alike (c c' : Ctx) : Prop := ∀ q, DeltaContext.Alike (c q) (c' q)

theorem Ctx.alike_refl (c : Ctx) : Ctx.Alike c c := fun _ => rfl

theorem ends_intWrite (k : IntKind) (mode : Mode) (x : Int) {p n : Nat} {c cw c1 : Ctx} (h : intSize k mode c p (.int x) = .ok (n, c1))
    (ha : Ctx.Alike cw c) : Ends (intWrite k mode cw x) p (p + n) (fun r => Ctx.Alike r c1) := by
  cases mode with
  | none =>
    simp only [intSize] at h
    obtain ⟨m, hm, h⟩ := except_bind_ok h
    simp only [Except.ok.injEq, Prod.mk.injEq] at h
    obtain ⟨rfl, rfl⟩ := h
    refine (ends_int k x (n := m) ?_).bind fun _ _ => ends_pure (by exact ha) _
    rw [← hm]
    unfold bitsizeofUnpacked sizeUnpacked
    cases k <;> rfl
  | some q =>
    simp only [intSize, Val.asInt, ok_bind, ctxBitsizeof] at h
    obtain ⟨⟨m, d⟩, hm, h⟩ := except_bind_ok h
    simp only [Except.ok.injEq, Prod.mk.injEq] at h
    obtain ⟨rfl, rfl⟩ := h
    simp only [intWrite, ctxWrite]
    refine (ends_write k x hm (ha q)).bind fun d' hd' => ends_pure ?_ _
    intro q'
    by_cases hq : q' = q
    · subst hq
      simpa [Ctx.update_self] using hd'
    · simpa [Ctx.update_ne _ hq] using ha q'

/-- What `initialize_offsets` promises: only offsets have been changed, and the object can then be written up to the position
computed, without the error of a wrong offset. -/
structure Methods.InitLaw (m : Methods) (same : Val → Val → Prop) : Prop where
  isNone : ∀ x x', same x x' → x'.isNone = x.isNone
  packing : ∀ path c x x', same x x' → m.initPacking path c x' = m.initPacking path c x
  init : ∀ mode c p x e x1 c1, m.initOffsets mode c p x = .ok (e, x1, c1) → same x x1 ∧
    ∀ cw, Ctx.Alike cw c → Ends (m.write mode cw x1) p e (fun r => Ctx.Alike r c1)

structure Codec.InitLaw (k : Codec) (same : Val → Val → Prop) : Prop where
  isNone : ∀ x x', same x x' → x'.isNone = x.isNone
  packing : ∀ path c x x', same x x' → k.initPacking path c x' = k.initPacking path c x
  init : ∀ mode c p x e x1 c1, k.initOffsets mode c p x = .ok (e, x1, c1) → same x x1 ∧
    ∀ cw, Ctx.Alike cw c → Ends (k.write mode cw x1) p e (fun r => Ctx.Alike r c1)

theorem quietE_asInt (v : Val) : QuietE v.asInt := by cases v <;> simp [Val.asInt, QuietE]
theorem quietE_asArr (v : Val) : QuietE v.asArr := by cases v <;> simp [Val.asArr, QuietE]
theorem quietE_params (v : Val) : QuietE v.params := by cases v <;> simp [Val.params, QuietE]
theorem quietE_proj (b : Builtin) (v : Val) : QuietE (b.proj v) := by
  cases b <;> cases v <;> simp only [Builtin.proj] <;> first | exact quietE_ok _ | exact quietE_error (by simp) | skip
  exact quietE_ite (quietE_ok _) (quietE_error (by simp))

theorem intSize_int {k : IntKind} {mode : Mode} {c c1 : Ctx} {p n : Nat} {v : Val} {x : Int} (h : intSize k mode c p v = .ok (n, c1))
    (hx : v.asInt = .ok x) : intSize k mode c p (.int x) = .ok (n, c1) := by
  rw [asInt_ok hx] at h
  exact h

theorem initLaw_int (k : IntKind) : (intMethods k).InitLaw (fun v v' => v' = v) := by
  refine ⟨by rintro x _ rfl; rfl, by rintro _ _ x _ rfl; rfl, ?_⟩
  intro mode c p x e x1 c1 h
  simp only [intMethods] at h
  obtain ⟨⟨n, c2⟩, hn, h⟩ := except_bind_ok h
  simp only [Except.ok.injEq, Prod.mk.injEq] at h
  obtain ⟨rfl, rfl, rfl⟩ := h
  refine ⟨rfl, fun cw ha => ?_⟩
  exact (ends_lift (quietE_asInt _) p).bind fun y hy => ends_intWrite k mode y (intSize_int hn hy) ha

theorem initLaw_bitmask (k : IntKind) : (bitmaskMethods k).InitLaw (fun v v' => v' = v) := by
  refine ⟨by rintro x _ rfl; rfl, by rintro _ _ x _ rfl; rfl, ?_⟩
  intro mode c p x e x1 c1 h
  simp only [bitmaskMethods, bitmaskSize] at h
  obtain ⟨⟨n, c2⟩, hn, h⟩ := except_bind_ok h
  obtain ⟨y, hy, hn⟩ := except_bind_ok hn
  simp only [Except.ok.injEq, Prod.mk.injEq] at h
  obtain ⟨rfl, rfl, rfl⟩ := h
  refine ⟨rfl, fun cw ha => ?_⟩
  refine (ends_lift (quietE_asInt _) p).bind fun z hz => ?_
  rw [hy] at hz
  obtain rfl := Except.ok.inj hz
  exact ends_intWrite k mode y hn ha

theorem initLaw_enum (en : EnumDef) : (enumMethods en).InitLaw (fun v v' => v' = v) := by
  refine ⟨by rintro x _ rfl; rfl, by rintro _ _ x _ rfl; rfl, ?_⟩
  intro mode c p x e x1 c1 h
  simp only [enumMethods, enumSize] at h
  obtain ⟨⟨n, c2⟩, hn, h⟩ := except_bind_ok h
  obtain ⟨y, hy, hn⟩ := except_bind_ok hn
  simp only [Except.ok.injEq, Prod.mk.injEq] at h
  obtain ⟨rfl, rfl, rfl⟩ := h
  refine ⟨rfl, fun cw ha => ?_⟩
  have hq : QuietE (enumValue en x) := by rw [hy]; exact quietE_ok _
  refine (ends_lift hq p).bind fun z hz => ?_
  rw [hy] at hz
  obtain rfl := Except.ok.inj hz
  split
  · exact ends_throw (by simp) _ _ _
  · exact ends_intWrite _ mode y hn ha

theorem initLaw_other (b : Builtin) : (otherMethods b).InitLaw (fun v v' => v' = v) := by
  refine ⟨by rintro x _ rfl; rfl, by rintro _ _ x _ rfl; rfl, ?_⟩
  intro mode c p x e x1 c1 h
  simp only [otherMethods] at h
  obtain ⟨n, hn, h⟩ := except_bind_ok h
  simp only [Except.ok.injEq, Prod.mk.injEq] at h
  obtain ⟨rfl, rfl, rfl⟩ := h
  refine ⟨rfl, fun cw ha => ?_⟩
  refine (ends_lift (quietE_proj b x) p).bind fun y hy => ?_
  have hv := builtin_proj_valid hy
  refine (ends_traits (n := n) (b.appends y hv) (b.sizeExact y hv) (b.quiet_write y) ?_).bind fun _ _ => ends_pure (by exact ha) _
  unfold sizeUnpacked at hn
  rcases hc : b.traits.constSize with _ | m
  · left
    rw [hc] at hn
    simp only [hy, ok_bind] at hn
    exact hn
  · right
    rw [hc] at hn
    simpa using hn

theorem initLaw_elem {codecs : Nat → Codec} {same : Nat → Val → Val → Prop} (hk : ∀ id, (codecs id).InitLaw (same id)) {env : Env}
    {ty : ElemType} {m : Methods} (h : ty.methods codecs env = .ok m) : m.InitLaw (ty.Same same) := by
  cases ty with
  | int k => obtain rfl := Except.ok.inj h; exact initLaw_int k
  | other b => obtain rfl := Except.ok.inj h; exact initLaw_other b
  | dynBits s len =>
    simp only [ElemType.methods] at h
    obtain ⟨n, _, h⟩ := except_bind_ok h
    obtain ⟨k, _, h⟩ := except_bind_ok h
    obtain rfl := Except.ok.inj h
    exact initLaw_int k
  | enum e => obtain rfl := Except.ok.inj h; exact initLaw_enum e
  | bitmask k => obtain rfl := Except.ok.inj h; exact initLaw_bitmask k
  | compound id args =>
    obtain rfl := Except.ok.inj h
    exact ⟨(hk id).isNone, (hk id).packing, (hk id).init⟩

/-- Integers of a fixed size end at the same position whatever the value. -/
theorem ends_fixedInt (n p : Nat) (c : Ctx) (v : Val) :
    Ends ((intMethods (.bitField n)).write none c v) p (p + n) (fun r => r = c) := by
  simp only [intMethods, intWrite]
  refine (ends_lift (quietE_asInt v) p).bind fun x _ => ?_
  exact (ends_int (.bitField n) x (n := n) rfl).bind fun _ _ => ends_pure (by rfl) _

end Zserio
