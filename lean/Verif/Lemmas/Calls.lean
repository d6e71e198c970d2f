import Verif.Spec.Calls
import Verif.Lemmas.BlockRead
import Verif.Lemmas.BlockWrite
set_option linter.unusedSimpArgs false
namespace Zserio
open Writer

theorem fails_unchecked (v : Int) (n p : Nat) (h : ¬ fitsUnsigned v n) : Fails (writeBitsUnchecked v n) p .range := by
  unfold writeBitsUnchecked
  rw [if_pos (by unfold fitsUnsigned at h; omega)]
  exact fails_throw _ _

theorem emits_unchecked (v : Int) (n p : Nat) (h : fitsUnsigned v n) :
    Emits (writeBitsUnchecked v n) p (natBits n v.toNat) () := by
  obtain ⟨h1, h2⟩ := h
  obtain ⟨k, rfl⟩ := Int.eq_ofNat_of_zero_le h1
  refine emits_writeBitsUnchecked k n p ?_
  have : (k : Int) < 2 ^ n := by omega
  exact_mod_cast this

theorem emits_signedUnchecked (v : Int) (n p : Nat) (h : fitsSigned v n) :
    Emits (writeSignedBitsUnchecked v n) p (intBits n v) () :=
  emits_writeSignedBitsUnchecked v n p h.1 h.2.1 h.2.2

theorem fails_signedUnchecked (v : Int) (n p : Nat) (h : ¬ fitsSigned v n) :
    ∃ e, Fails (writeSignedBitsUnchecked v n) p e := by
  unfold writeSignedBitsUnchecked
  by_cases hn : n = 0
  · rw [if_pos hn]; exact ⟨_, fails_throw _ _⟩
  · rw [if_neg hn, if_pos (by unfold fitsSigned at h; omega)]; exact ⟨_, fails_throw _ _⟩

theorem gapTo_eq (a p : Nat) : gapTo a p = alignGap a p := rfl

theorem varsize_inRange_iff (n : Nat) : VarType.varsize.InRange (n : Int) ↔ n < 2 ^ 31 := by
  simp only [VarType.InRange, VarType.lo, VarType.hi]; omega

/-- Every call does what the specification says. -/
theorem WCall.run_spec (c : WCall) (p : Nat) :
    match c.spec p with
    | some bs => Emits c.run p bs ()
    | none => ∃ e, Fails c.run p e := by
  cases c with
  | bits v n =>
    simp only [WCall.spec, WCall.run, writeBits]
    by_cases hn : validNumbits n
    · have hn' : ¬ (n < 1 ∨ n > 64) := by unfold validNumbits at hn; omega
      rw [if_neg hn']
      by_cases hv : fitsUnsigned v n.toNat
      · simp only [hn, hv, and_self, if_true]
        exact emits_unchecked _ _ _ hv
      · simp only [hv, and_false, if_false]
        exact ⟨_, fails_unchecked _ _ _ hv⟩
    · have hn' : (n < 1 ∨ n > 64) := by unfold validNumbits at hn; omega
      rw [if_pos hn']
      simp only [hn, false_and, if_false]
      exact ⟨_, fails_throw _ _⟩
  | signedBits v n =>
    simp only [WCall.spec, WCall.run, writeSignedBits]
    by_cases hn : validNumbits n
    · have hn' : ¬ (n < 1 ∨ n > 64) := by unfold validNumbits at hn; omega
      rw [if_neg hn']
      by_cases hv : fitsSigned v n.toNat
      · simp only [hn, hv, and_self, if_true]
        exact emits_signedUnchecked _ _ _ hv
      · simp only [hv, and_false, if_false]
        exact fails_signedUnchecked _ _ _ hv
    · have hn' : (n < 1 ∨ n > 64) := by unfold validNumbits at hn; omega
      rw [if_pos hn']
      simp only [hn, false_and, if_false]
      exact ⟨_, fails_throw _ _⟩
  | bitsUnchecked v n =>
    simp only [WCall.spec, WCall.run]
    by_cases hv : fitsUnsigned v n
    · simp only [hv, if_true]; exact emits_unchecked _ _ _ hv
    · simp only [hv, if_false]; exact ⟨_, fails_unchecked _ _ _ hv⟩
  | signedBitsUnchecked v n =>
    simp only [WCall.spec, WCall.run]
    by_cases hv : fitsSigned v n
    · simp only [hv, if_true]; exact emits_signedUnchecked _ _ _ hv
    · simp only [hv, if_false]; exact fails_signedUnchecked _ _ _ hv
  | var t v =>
    simp only [WCall.spec, WCall.run]
    by_cases hv : t.InRange v
    · simp only [hv, if_true]; exact emits_writeVar t v p hv
    · simp only [hv, if_false]; exact ⟨_, fails_writeVar t v p hv⟩
  | float16 x =>
    simp only [WCall.spec, WCall.run, writeFloat16, patternBits]
    rcases hx : floatToUint16 x with e | n
    · exact ⟨e, fails_lift_bind rfl⟩
    · simp only
      by_cases hn : n < 2 ^ 16
      · simp only [hn, if_true]; exact emits_lift_bind rfl (emits_writeBitsUnchecked _ _ _ hn)
      · simp only [hn, if_false]
        refine ⟨.range, ?_⟩
        intro b hb
        rw [M.bind_ok (M.lift_apply _ _)]
        exact fails_unchecked _ _ p (by unfold fitsUnsigned; omega) b hb
  | float32 x =>
    simp only [WCall.spec, WCall.run, writeFloat32, patternBits]
    rcases hx : floatToUint32 x with e | n
    · exact ⟨e, fails_lift_bind rfl⟩
    · simp only
      by_cases hn : n < 2 ^ 32
      · simp only [hn, if_true]; exact emits_lift_bind rfl (emits_writeBitsUnchecked _ _ _ hn)
      · simp only [hn, if_false]
        refine ⟨.range, ?_⟩
        intro b hb
        rw [M.bind_ok (M.lift_apply _ _)]
        exact fails_unchecked _ _ p (by unfold fitsUnsigned; omega) b hb
  | float64 x =>
    simp only [WCall.spec, WCall.run, writeFloat64, floatToUint64]
    exact emits_writeBitsUnchecked _ _ _ x.toNat_lt
  | bytes l =>
    simp only [WCall.spec, WCall.run]
    by_cases hv : l.length < 2 ^ 31
    · simp only [hv, if_true]
      exact emits_writeBytes l p ((varsize_inRange_iff _).2 hv)
    · simp only [hv, if_false]
      exact ⟨_, fails_writeBytes l p (fun h => hv ((varsize_inRange_iff _).1 h))⟩
  | string s =>
    simp only [WCall.spec, WCall.run]
    rcases hs : utf8Encode s with e | l
    · refine ⟨e, ?_⟩
      unfold writeString
      exact fails_lift_bind hs
    · simp only
      by_cases hv : l.length < 2 ^ 31
      · simp only [hv, if_true]
        exact emits_writeString p hs ((varsize_inRange_iff _).2 hv)
      · simp only [hv, if_false]
        refine ⟨.varRange, ?_⟩
        unfold writeString
        intro b hb
        rw [M.bind_ok (by rw [M.lift_apply, hs])]
        exact (Fails.bind (fails_writeVar .varsize _ p (fun h => hv ((varsize_inRange_iff _).1 h)))) b hb
  | bool b => exact emits_writeBool b p
  | bitBuffer buf n =>
    simp only [WCall.spec, WCall.run]
    have hmake : BitBuffer.make buf n =
        if (8 * buf.length : Int) < n.getD (8 * buf.length) then .error .bitsize
        else .ok ⟨buf, n.getD (8 * buf.length)⟩ := by
      unfold BitBuffer.make
      cases n with
      | none => simp; omega
      | some n => simp only [Option.getD_some, mul_comm]
    rw [hmake]
    generalize n.getD (8 * buf.length) = n
    by_cases hc : (8 * buf.length : Int) < n
    · rw [if_pos hc, if_neg (by omega)]
      exact ⟨_, fails_lift_bind rfl⟩
    · rw [if_neg hc]
      have hir : VarType.varsize.InRange n ↔ (0 ≤ n ∧ n < 2 ^ 31) := by
        simp only [VarType.InRange, VarType.lo, VarType.hi]; omega
      by_cases hn : VarType.varsize.InRange n
      · rw [if_pos (by rw [hir] at hn; omega)]
        refine emits_lift_bind rfl ?_
        exact emits_writeBitBuffer ⟨buf, n⟩ p ⟨by rw [hir] at hn; exact hn.1, by
          unfold BitBuffer.Valid; simp only; omega⟩ hn
      · rw [if_neg (by rw [hir] at hn; omega)]
        refine ⟨.varRange, ?_⟩
        intro b hb
        rw [M.bind_ok (M.lift_apply _ _)]
        exact fails_writeBitBuffer ⟨buf, n⟩ p hn b hb
  | alignto a =>
    simp only [WCall.spec, WCall.run]
    by_cases ha : a = 0
    · rw [if_pos ha]
      refine ⟨.zeroDivision, ?_⟩
      intro b hb
      unfold Writer.alignto
      rw [M.bind_ok (M.get_apply _), if_pos ha]; rfl
    · rw [if_neg ha]
      exact emits_alignto a p (by omega)

/-- One call on a writer holding `bs`. -/
theorem WCall.run_ofBits (c : WCall) (bs : List Bool) :
    (c.run (ofBits bs)).2 = ofBits (bs ++ (c.spec bs.length).getD []) := by
  have h := c.run_spec bs.length
  rcases hc : c.spec bs.length with _ | a
  · rw [hc] at h
    obtain ⟨e, h⟩ := h
    rw [h bs rfl]; simp
  · rw [hc] at h
    rw [h bs rfl]; simp

theorem Writer.runAll_ofBits (cs : List WCall) (bs : List Bool) :
    (ofBits bs).runAll cs = ofBits (specStream bs cs) := by
  induction cs generalizing bs with
  | nil => rfl
  | cons c cs ih => rw [runAll, WCall.run_ofBits, ih, specStream]

theorem Writer.init_eq : Writer.init = ofBits [] := by unfold Writer.init ofBits; rw [packBits]; rfl

theorem Writer.runAll_init (cs : List WCall) : Writer.init.runAll cs = ofBits (specStream [] cs) := by
  rw [Writer.init_eq, runAll_ofBits]

theorem Writer.Reachable.eq_ofBits {w : Writer} (h : w.Reachable) : ∃ bs, w = ofBits bs := by
  obtain ⟨cs, rfl⟩ := h
  exact ⟨_, runAll_init cs⟩

theorem specStream_append_bools (bs stream : List Bool) :
    specStream stream (bs.map WCall.bool) = stream ++ bs := by
  induction bs generalizing stream with
  | nil => simp [specStream]
  | cons b bs ih => simp [specStream, WCall.spec, ih]

theorem Writer.reachable_ofBits (bs : List Bool) : (ofBits bs).Reachable :=
  ⟨bs.map .bool, by rw [runAll_init, specStream_append_bools]; rfl⟩

theorem specStream_prefix (stream : List Bool) (cs : List WCall) : ∃ ext, specStream stream cs = stream ++ ext := by
  induction cs generalizing stream with
  | nil => exact ⟨[], by simp [specStream]⟩
  | cons c cs ih =>
    obtain ⟨e, he⟩ := ih (stream ++ (c.spec stream.length).getD [])
    exact ⟨_, by rw [specStream, he, List.append_assoc]⟩

theorem packBits_length (bs : List Bool) : (packBits bs).length = (bs.length + 7) / 8 := by
  have := congrArg List.length (bytesBits_packBits bs)
  simp [padLen] at this
  omega

/-- Reading at the place where the bits `bs` have been written after `b0`, whatever calls followed. -/
theorem read_after {α : Type} {mr : M Reader α} {b0 bs : List Bool} {P : Reader → Except Err α × Reader → Prop}
    (hr : ∀ s (r : Reader), r.WF → r.pos = b0.length → r.rest = bs ++ s → P r (mr r)) (later : List WCall)
    (r : Reader) (hb : r.buffer = ((ofBits (b0 ++ bs)).runAll later).bytes)
    (h1 : ((b0 ++ bs).length : Int) ≤ r.bitsize) (h2 : r.bitsize ≤ 8 * r.buffer.length) (hp' : r.pos = b0.length) :
    P r (mr r) := by
  rw [runAll_ofBits] at hb
  obtain ⟨ext, he⟩ := specStream_prefix (b0 ++ bs) later
  rw [he] at hb
  have hwf : r.WF := ⟨by omega, by rw [hp']; simp at h1; omega⟩
  have hrest : ∃ s, r.rest = bs ++ s := by
    refine ⟨(r.rest).drop bs.length, ?_⟩
    have hbb : bytesBits r.buffer = (b0 ++ bs ++ ext) ++ zeros (padLen (b0 ++ bs ++ ext).length) := by
      rw [hb]; exact bytesBits_packBits _
    have : r.rest.take bs.length = bs := by
      rw [Reader.rest, hbb, hp']
      simp only [List.append_assoc]
      generalize ext ++ zeros _ = tail
      obtain ⟨n, hn⟩ : ∃ n, r.bitsize.toNat = b0.length + (bs.length + n) :=
        ⟨r.bitsize.toNat - (b0.length + bs.length), by simp at h1; omega⟩
      rw [hn, List.take_length_add_append, List.drop_left, List.take_length_add_append, List.take_left]
    conv => lhs; rw [← List.take_append_drop bs.length r.rest, this]
  obtain ⟨s, hs⟩ := hrest
  exact hr s r hwf hp' hs

/-- Write with one method, continue arbitrarily, read back with another. -/
theorem write_then_read {α : Type} {mw : M Writer Unit} {mr : M Reader α} {bs : List Bool} {a : α} {w0 : Writer}
    (hw0 : w0.Reachable) (hw : Emits mw w0.pos bs ()) (hr : ∀ s, Reader.Parses mr w0.pos bs s a) :
    ∃ w1, mw w0 = (.ok (), w1) ∧ w1.pos = w0.pos + bs.length ∧ ∀ later (r : Reader),
      r.buffer = (w1.runAll later).bytes → (w1.pos : Int) ≤ r.bitsize → r.bitsize ≤ 8 * r.buffer.length →
      r.pos = w0.pos → mr r = (.ok a, { r with pos := w1.pos }) := by
  obtain ⟨b0, rfl⟩ := hw0.eq_ofBits
  refine ⟨ofBits (b0 ++ bs), hw b0 rfl, by simp [ofBits], ?_⟩
  intro later r hb h1 h2 hp
  have hpos : (ofBits (b0 ++ bs)).pos = (b0 ++ bs).length := rfl
  rw [hpos] at h1 ⊢
  refine read_after (mr := mr) (P := fun r x => x = (.ok a, { r with pos := (b0 ++ bs).length })) ?_ later r hb h1 h2 hp
  intro s r' hwf hp' hs
  rw [hr s r' hwf hp' hs, Reader.advance, hp']
  simp

end Zserio
