import Verif.Lemmas.Compound
set_option linter.unusedSimpArgs false
/-
Helper lemmas for `initialize_offsets`: a pass that ends at a known position unless it raises something else than a wrong offset.
-/
namespace Zserio
open Writer Array'

/-! ### Methods that never raise the error of a wrong offset -/

/-- not the error of a wrong offset -/
def QuietE {α : Type} (x : Except Err α) : Prop := x ≠ .error .offset
/-- never the error of a wrong offset -/
def Quiet {σ α : Type} (m : M σ α) : Prop := ∀ s, QuietE (m s).1

section
variable {σ α β : Type}

theorem quietE_ok (a : α) : QuietE (.ok a) := by simp [QuietE]
theorem quietE_error {e : Err} (h : e ≠ .offset) : QuietE (.error e : Except Err α) := by simpa [QuietE] using h
theorem QuietE.bind {x : Except Err α} {f : α → Except Err β} (h : QuietE x) (hf : ∀ a, x = .ok a → QuietE (f a)) :
    QuietE (x >>= f) := by
  rcases x with e | a
  · simpa [QuietE, Bind.bind, Except.bind] using h
  · exact hf a rfl

theorem quiet_pure (a : α) : Quiet (pure a : M σ α) := fun s => by simp [QuietE]
theorem quiet_throw {e : Err} (h : e ≠ .offset) : Quiet (M.throw e : M σ α) := fun s => by simpa [QuietE] using h
theorem quiet_lift {x : Except Err α} (h : QuietE x) : Quiet (M.lift x : M σ α) := fun s => by simpa using h
theorem quiet_get : Quiet (M.get : M σ σ) := fun s => by simp [QuietE]
theorem quiet_set (s : σ) : Quiet (M.set s : M σ Unit) := fun _ => by simp [QuietE]
theorem quietE_ite {c : Prop} [Decidable c] {a b : Except Err α} (h : QuietE a) (h' : QuietE b) : QuietE (if c then a else b) := by
  split <;> assumption
theorem quiet_ite {c : Prop} [Decidable c] {a b : M σ α} (h : Quiet a) (h' : Quiet b) : Quiet (if c then a else b) := by
  split <;> assumption
theorem Quiet.bind {m : M σ α} {f : α → M σ β} (h : Quiet m) (hf : ∀ a, Quiet (f a)) : Quiet (m >>= f) := by
  intro s
  have := h s
  rw [M.bind_apply]
  rcases hm : m s with ⟨e | a, s'⟩
  · rw [hm] at this
    simpa [QuietE] using this
  · exact hf a s'

end

namespace Writer

theorem quietE_intToBytes (v : Int) (n : Nat) (s : Bool) : QuietE (intToBytes v n s) := by
  unfold intToBytes
  split <;> split <;> simp [QuietE]

theorem quietE_orLast : ∀ (l : List UInt8) (x : UInt8), QuietE (orLast l x)
  | [], _ => by simp [orLast, QuietE]
  | [b], x => by simp [orLast, QuietE]
  | b :: c :: rest, x => by
    simp only [orLast]
    exact (quietE_orLast (c :: rest) x).bind (fun a _ => quietE_ok _)

theorem quiet_writeRaw (v : Int) (n : Nat) (s : Bool) : Quiet (writeRaw v n s) := by
  unfold writeRaw
  refine quiet_get.bind fun w => (quiet_lift (quietE_intToBytes _ _ _)).bind fun l => ?_
  refine quiet_ite (quiet_set _) ?_
  · rcases l with _ | ⟨v0, rest⟩
    · exact quiet_throw (by simp)
    · exact (quiet_lift (quietE_orLast _ _)).bind fun _ => quiet_set _

theorem quiet_writeBitsUnchecked (v : Int) (n : Nat) : Quiet (writeBitsUnchecked v n) := by
  unfold writeBitsUnchecked
  split
  · exact quiet_throw (by simp)
  · exact quiet_writeRaw _ _ _

theorem quiet_writeSignedBitsUnchecked (v : Int) (n : Nat) : Quiet (writeSignedBitsUnchecked v n) := by
  unfold writeSignedBitsUnchecked
  split
  · exact quiet_throw (by simp)
  · split
    · exact quiet_throw (by simp)
    · exact quiet_writeRaw _ _ _

theorem quiet_writeBits (v n : Int) : Quiet (writeBits v n) := by
  unfold writeBits
  split
  · exact quiet_throw (by simp)
  · exact quiet_writeBitsUnchecked _ _

theorem quiet_writeSignedBits (v n : Int) : Quiet (writeSignedBits v n) := by
  unfold writeSignedBits
  split
  · exact quiet_throw (by simp)
  · exact quiet_writeSignedBitsUnchecked _ _

theorem quiet_writeVarnumLoop (v : Int) (m n : Nat) (s : Bool) : ∀ is, Quiet (writeVarnumLoop v m n s is)
  | [] => quiet_pure _
  | i :: is => (quiet_writeBitsUnchecked _ _).bind fun _ => quiet_writeVarnumLoop v m n s is

theorem quietE_varnumLoop (v : Nat) : ∀ (i : Nat) (l : List Nat), QuietE (bitsizeofVarnumLoop v i l)
  | _, [] => by simp [bitsizeofVarnumLoop, QuietE]
  | i, m :: rest => by
    simp only [bitsizeofVarnumLoop]
    split
    · exact quietE_ok _
    · exact quietE_varnumLoop v (i + 1) rest

theorem quietE_varnum (v : Int) (l : List Nat) : QuietE (bitsizeofVarnum v l) := by
  unfold bitsizeofVarnum
  split
  · exact quietE_varnumLoop _ _ _
  · simp [QuietE]

theorem quiet_writeVarsize (v : Int) : Quiet (writeVarsize v) :=
  (quiet_lift (quietE_varnum _ _)).bind fun _ => quiet_writeVarnumLoop _ _ _ _ _

theorem quiet_writeVar (t : VarType) (v : Int) : Quiet (writeVar t v) := by
  cases t
  case varint =>
    simp only [writeVar, writeVarint]
    split
    · exact quiet_writeRaw _ _ _
    · refine (quiet_lift ?_).bind fun _ => quiet_writeVarnumLoop _ _ _ _ _
      unfold bitsizeofVarint
      split
      · exact quietE_ok _
      · exact quietE_varnum _ _
  all_goals exact (quiet_lift (quietE_varnum _ _)).bind fun _ => quiet_writeVarnumLoop _ _ _ _ _

theorem quietE_packF32 (x : PyFloat) : QuietE (packF32 x) := by
  unfold packF32
  refine quietE_ite (quietE_ite (quietE_ok _) (quietE_ok _)) (quietE_ite (quietE_ok _) (quietE_error (by simp)))

theorem quietE_utf8EncodeChar (c : Nat) : QuietE (utf8EncodeChar c) := by
  unfold utf8EncodeChar
  repeat' split
  all_goals simp [QuietE]

theorem quietE_utf8Encode : ∀ s : PyStr, QuietE (utf8Encode s)
  | [] => by simp [utf8Encode, QuietE]
  | c :: cs => by
    simp only [utf8Encode]
    exact (quietE_utf8EncodeChar c).bind fun _ _ => (quietE_utf8Encode cs).bind fun _ _ => quietE_ok _

theorem quiet_writeByteLoop : ∀ l, Quiet (writeByteLoop l)
  | [] => quiet_pure _
  | b :: bs => (quiet_writeBitsUnchecked _ _).bind fun _ => quiet_writeByteLoop bs

theorem quiet_writeByteBlock (l : List UInt8) : Quiet (writeByteBlock l) := by
  unfold writeByteBlock
  refine quiet_get.bind fun w => ?_
  split
  · exact quiet_writeByteLoop _
  · exact quiet_set _

theorem quiet_writeBool (b : Bool) : Quiet (writeBool b) := quiet_writeRaw _ _ _

theorem quiet_writeBitBuffer (b : BitBuffer) : Quiet (writeBitBuffer b) := by
  unfold writeBitBuffer
  refine (quiet_writeVarsize _).bind fun _ => (quiet_writeByteBlock _).bind fun _ => ?_
  split
  · split
    · exact quiet_throw (by simp)
    · exact quiet_writeBitsUnchecked _ _
  · exact quiet_pure _

theorem quiet_alignto (a : Nat) : Quiet (Writer.alignto a) := by
  unfold Writer.alignto
  refine quiet_get.bind fun w => ?_
  split
  · exact quiet_throw (by simp)
  · simp only
    split
    · exact quiet_writeRaw _ _ _
    · exact quiet_pure _

end Writer

theorem Builtin.quiet_write (b : Builtin) (x : b.Elem) : Quiet (b.traits.write x) := by
  cases b with
  | bitField n => exact quiet_writeBits _ _
  | signedBitField n => exact quiet_writeSignedBits _ _
  | var t => exact quiet_writeVar t x
  | float16 =>
    refine (quiet_lift ?_).bind fun _ => quiet_writeBitsUnchecked _ _
    exact (quietE_packF32 x).bind fun _ _ => quietE_ok _
  | float32 => exact (quiet_lift (quietE_packF32 x)).bind fun _ => quiet_writeBitsUnchecked _ _
  | float64 => exact quiet_writeBitsUnchecked _ _
  | bool => exact quiet_writeBool x
  | bytes => exact (quiet_writeVarsize _).bind fun _ => quiet_writeByteBlock _
  | string =>
    exact (quiet_lift (quietE_utf8Encode x)).bind fun _ => (quiet_writeVarsize _).bind fun _ => quiet_writeByteBlock _
  | bitBuffer => exact quiet_writeBitBuffer x

theorem IntKind.quiet_write (k : IntKind) (x : Int) : Quiet (k.traits.write x) := by
  cases k with
  | bitField n => exact quiet_writeBits _ _
  | signedBitField n => exact quiet_writeSignedBits _ _
  | var t => exact quiet_writeVar t x

/-! ### Passes that end at a known position -/

/-- Started at position `p`, `m` does not raise the error of a wrong offset; if it returns, it has appended bits up to position
`e` and the result has the property `Q`. -/
def Ends {α : Type} (m : M Writer α) (p e : Nat) (Q : α → Prop) : Prop :=
  ∀ b0 : List Bool, b0.length = p → QuietE (m (ofBits b0)).1 ∧
    ∀ a w', m (ofBits b0) = (.ok a, w') → Q a ∧ ∃ bs, w' = ofBits (b0 ++ bs) ∧ p + bs.length = e

section
variable {α β : Type}

theorem Ends.bind {m : M Writer α} {f : α → M Writer β} {p q e : Nat} {P : α → Prop} {Q : β → Prop} (h : Ends m p q P)
    (hf : ∀ a, P a → Ends (f a) q e Q) : Ends (m >>= f) p e Q := by
  intro b0 hp
  obtain ⟨h1, h2⟩ := h b0 hp
  rcases hm : m (ofBits b0) with ⟨err | a, w1⟩
  · rw [M.bind_error hm]
    rw [hm] at h1
    refine ⟨by simpa [QuietE] using h1, ?_⟩
    intro a w' h; simp at h
  · rw [M.bind_ok hm]
    obtain ⟨g1, bs, rfl, g2⟩ := h2 a w1 hm
    obtain ⟨k1, k2⟩ := hf a g1 (b0 ++ bs) (by simp; omega)
    refine ⟨k1, ?_⟩
    intro b w' hb
    obtain ⟨j1, bs', rfl, j2⟩ := k2 b w' hb
    exact ⟨j1, bs ++ bs', by simp, by simp; omega⟩

theorem Ends.mono {m : M Writer α} {p e : Nat} {P Q : α → Prop} (h : Ends m p e P) (hPQ : ∀ a, P a → Q a) : Ends m p e Q :=
  fun b0 hp => ⟨(h b0 hp).1, fun a w' hm => ⟨hPQ a ((h b0 hp).2 a w' hm).1, ((h b0 hp).2 a w' hm).2⟩⟩

theorem ends_pure {a : α} {Q : α → Prop} (h : Q a) (p : Nat) : Ends (pure a) p p Q := by
  intro b0 _
  refine ⟨by simp [QuietE], ?_⟩
  intro a' w' hm
  simp only [M.pure_apply, Prod.mk.injEq, Except.ok.injEq] at hm
  obtain ⟨rfl, rfl⟩ := hm
  exact ⟨h, [], by simp, by simp⟩

theorem ends_throw {e : Err} (h : e ≠ .offset) (p q : Nat) (Q : α → Prop) : Ends (M.throw e) p q Q := by
  intro b0 _
  refine ⟨by simpa [QuietE] using h, ?_⟩
  intro a' w' hm
  simp at hm

theorem ends_lift {x : Except Err α} (h : QuietE x) (p : Nat) : Ends (M.lift x) p p (fun a => x = .ok a) := by
  intro b0 _
  refine ⟨by simpa using h, ?_⟩
  intro a' w' hm
  simp only [M.lift_apply, Prod.mk.injEq] at hm
  exact ⟨hm.1, [], by simp [← hm.2], by simp⟩

theorem ends_get_bind {f : Writer → M Writer β} {p e : Nat} {Q : β → Prop} (h : ∀ w, w.pos = p → Ends (f w) p e Q) :
    Ends (M.get >>= f) p e Q := by
  intro b0 hp
  rw [M.bind_ok (M.get_apply _)]
  exact h _ (by simpa [ofBits] using hp) b0 hp

theorem ends_alignto (a p : Nat) : Ends (Writer.alignto a) p (alignTo a p).toNat (fun _ => True) := by
  intro b0 hp
  refine ⟨quiet_alignto a _, ?_⟩
  intro _ w' h
  by_cases ha : a = 0
  · subst ha
    unfold Writer.alignto at h
    rw [M.bind_ok (M.get_apply _), if_pos rfl] at h
    simp at h
  · have ha : 0 < a := by omega
    have := emits_alignto a b0.length ha b0 rfl
    rw [this] at h
    simp only [Prod.mk.injEq, true_and] at h
    exact ⟨trivial, _, h.symm, by rw [length_zeros, ← hp, FieldDef.alignTo_eq a b0.length ha]⟩

theorem ends_align8 (p : Nat) : Ends (Writer.alignto 8) p (Array'.align8 p) (fun _ => True) := ends_alignto 8 p

/-- a method of a built-in type -/
theorem ends_traits {tr : Traits α} {x : α} (ha : Appends (tr.write x)) (hs : SizeExact tr x) (hq : Quiet (tr.write x)) {p n : Nat}
    (hn : tr.bitsizeof p x = .ok n ∨ tr.constSize = some n) : Ends (tr.write x) p (p + n) (fun _ => True) := by
  intro b0 hp
  refine ⟨hq _, ?_⟩
  intro a w' h
  obtain ⟨bs, rfl⟩ := ha _ _ _ h
  obtain ⟨h1, h2⟩ := hs b0 bs h
  refine ⟨trivial, bs, rfl, ?_⟩
  rcases hn with hn | hn
  · rw [hp, hn] at h1
    simp only [Except.ok.injEq] at h1
    omega
  · rw [h2 n hn]

end
end Zserio
