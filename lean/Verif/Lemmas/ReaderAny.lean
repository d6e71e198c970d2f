import Verif.Model.Calls
import Verif.Lemmas.VarRead
import Verif.Lemmas.BlockRead
set_option linter.unusedSimpArgs false
/-
Behaviour of the reader on arbitrary input.
-/
namespace Zserio.Reader

/-- The method never leaves the stream and never changes the buffer. -/
def Safe {α : Type} (m : M Reader α) : Prop :=
  ∀ r, r.WF → (m r).2.WF ∧ (m r).2.buffer = r.buffer ∧ (m r).2.bitsize = r.bitsize

theorem safe_pure {α : Type} (a : α) : Safe (pure a : M Reader α) := fun r h => ⟨h, rfl, rfl⟩
theorem safe_throw {α : Type} (e : Err) : Safe (M.throw e : M Reader α) := fun r h => ⟨h, rfl, rfl⟩
theorem safe_lift {α : Type} (x : Except Err α) : Safe (M.lift x : M Reader α) := fun r h => ⟨h, rfl, rfl⟩

theorem Safe.bind {α β : Type} {m : M Reader α} {f : α → M Reader β} (hm : Safe m) (hf : ∀ a, Safe (f a)) :
    Safe (m >>= f) := by
  intro r hr
  obtain ⟨h1, h2, h3⟩ := hm r hr
  rw [M.bind_apply]
  rcases hmr : m r with ⟨e | a, r'⟩
  · rw [hmr] at h1 h2 h3; exact ⟨h1, h2, h3⟩
  · rw [hmr] at h1 h2 h3
    obtain ⟨k1, k2, k3⟩ := hf a r' h1
    exact ⟨k1, k2.trans h2, k3.trans h3⟩

theorem safe_get_bind {β : Type} {f : Reader → M Reader β} (hf : ∀ a, Safe (f a)) : Safe (M.get >>= f) :=
  Safe.bind (fun r h => ⟨h, rfl, rfl⟩) hf

theorem safe_ite {α : Type} {c : Prop} [Decidable c] {m m' : M Reader α} (h : Safe m) (h' : Safe m') :
    Safe (if c then m else m') := by split <;> assumption

theorem safe_readBitsUnchecked (n : Nat) : Safe (readBitsUnchecked n) := by
  intro r hr
  rw [readBitsUnchecked_spec r n hr]
  split
  · rename_i h
    exact ⟨hr.advance h, rfl, rfl⟩
  · exact ⟨hr, rfl, rfl⟩

theorem safe_setBitposition (p : Int) : Safe (setBitposition p) := by
  intro r hr
  unfold setBitposition
  rw [M.bind_ok (M.get_apply _)]
  split
  · exact safe_throw _ r hr
  · split
    · exact safe_throw _ r hr
    · refine ⟨⟨hr.1, ?_⟩, rfl, rfl⟩
      show ((p.toNat : Nat) : Int) ≤ r.bitsize
      omega

theorem safe_varTail (k acc : Nat) : Safe (readVarTail k acc) := by
  induction k generalizing acc with
  | zero => exact (safe_readBitsUnchecked 8).bind (fun _ => safe_pure _)
  | succ k ih => exact (safe_readBitsUnchecked 8).bind (fun _ => safe_ite (safe_pure _) (ih _))

theorem safe_varUnsigned (k : Nat) : Safe (readVarUnsigned k) :=
  (safe_readBitsUnchecked 8).bind (fun _ => safe_ite (safe_pure _) (safe_varTail _ _))

theorem safe_varSigned (k : Nat) : Safe (readVarSigned k) :=
  (safe_readBitsUnchecked 8).bind (fun _ => safe_ite (safe_pure _) ((safe_varTail _ _).bind (fun _ => safe_pure _)))

theorem safe_varint : Safe readVarint :=
  (safe_readBitsUnchecked 8).bind (fun _ => safe_ite (safe_pure _) ((safe_varTail _ _).bind (fun _ => safe_pure _)))

theorem safe_varsize : Safe readVarsize :=
  (safe_varUnsigned 3).bind (fun _ => safe_ite (safe_throw _) (safe_pure _))

theorem safe_asInt {m : M Reader Nat} (h : Safe m) : Safe (asInt m) := h.bind (fun _ => safe_pure _)

theorem safe_readVar (t : VarType) : Safe (readVar t) := by
  cases t
  · exact safe_varSigned 0
  · exact safe_varSigned 2
  · exact safe_varSigned 6
  · exact safe_varint
  · exact safe_asInt (safe_varUnsigned 0)
  · exact safe_asInt (safe_varUnsigned 2)
  · exact safe_asInt (safe_varUnsigned 6)
  · exact safe_asInt (safe_varUnsigned 7)
  · exact safe_asInt safe_varsize

theorem safe_byteLoop (n : Nat) : Safe (readByteLoop n) := by
  induction n with
  | zero => exact safe_pure _
  | succ n ih => exact (safe_readBitsUnchecked 8).bind (fun _ => ih.bind (fun _ => safe_pure _))

theorem safe_byteBlock (n : Nat) : Safe (readByteBlock n) :=
  safe_get_bind (fun _ => safe_ite (safe_byteLoop n) ((safe_setBitposition _).bind (fun _ => safe_pure _)))

theorem safe_readBits (n : Int) : Safe (readBits n) := safe_ite (safe_throw _) (safe_readBitsUnchecked _)

theorem safe_readSignedBitsUnchecked (n : Nat) : Safe (readSignedBitsUnchecked n) :=
  (safe_readBitsUnchecked n).bind (fun _ => safe_ite (safe_pure _) (safe_pure _))

theorem safe_alignto (a : Int) : Safe (alignto a) :=
  safe_get_bind (fun _ => safe_ite (safe_throw _) (safe_ite (safe_setBitposition _) (safe_pure _)))

theorem safe_readBytes : Safe readBytes :=
  safe_varsize.bind (fun _ => safe_get_bind (fun _ => safe_ite (safe_throw _) (safe_byteBlock _)))

theorem safe_readString : Safe readString :=
  safe_varsize.bind (fun _ => safe_get_bind (fun _ => safe_ite (safe_throw _)
    ((safe_byteBlock _).bind (fun _ => safe_lift _))))

theorem safe_readBitBuffer : Safe readBitBuffer :=
  safe_varsize.bind (fun _ => safe_get_bind (fun _ => safe_ite (safe_throw _)
    ((safe_byteBlock _).bind (fun _ => safe_ite ((safe_readBits _).bind (fun _ => safe_lift _)) (safe_lift _)))))

theorem safe_run (c : RCall) : Safe c.run := by
  cases c with
  | bits n => exact (safe_readBits n).bind (fun _ => safe_pure _)
  | signedBits n => exact (safe_ite (safe_throw _) (safe_readSignedBitsUnchecked _)).bind (fun _ => safe_pure _)
  | bitsUnchecked n => exact (safe_readBitsUnchecked n).bind (fun _ => safe_pure _)
  | signedBitsUnchecked n => exact (safe_readSignedBitsUnchecked n).bind (fun _ => safe_pure _)
  | var t => exact (safe_readVar t).bind (fun _ => safe_pure _)
  | float16 => exact ((safe_readBitsUnchecked _).bind (fun _ => safe_pure _)).bind (fun _ => safe_pure _)
  | float32 => exact ((safe_readBitsUnchecked _).bind (fun _ => safe_pure _)).bind (fun _ => safe_pure _)
  | float64 => exact ((safe_readBitsUnchecked _).bind (fun _ => safe_pure _)).bind (fun _ => safe_pure _)
  | bytes => exact safe_readBytes.bind (fun _ => safe_pure _)
  | string => exact safe_readString.bind (fun _ => safe_pure _)
  | bool => exact ((safe_readBitsUnchecked _).bind (fun _ => safe_pure _)).bind (fun _ => safe_pure _)
  | bitBuffer => exact safe_readBitBuffer.bind (fun _ => safe_pure _)
  | alignto a => exact (safe_alignto a).bind (fun _ => safe_pure _)
  | setPosition p => exact (safe_setBitposition p).bind (fun _ => safe_pure _)

/-! Relational version: what lies beyond the declared size is irrelevant. -/

/-- Two readers over buffers which agree on the declared bits, at the same position. -/
def Agree (r r' : Reader) : Prop :=
  r.WF ∧ r'.WF ∧ r.bitsize = r'.bitsize ∧ r.pos = r'.pos ∧
    (bytesBits r.buffer).take r.bitsize.toNat = (bytesBits r'.buffer).take r.bitsize.toNat

theorem Agree.rest {r r' : Reader} (h : Agree r r') : r.rest = r'.rest := by
  obtain ⟨_, _, h3, h4, h5⟩ := h
  unfold Reader.rest
  rw [← h3, ← h4, h5]

theorem Agree.advance {r r' : Reader} (h : Agree r r') {n : Nat} (hn : n ≤ r.rest.length) :
    Agree (r.advance n) (r'.advance n) := by
  have hr := h.rest
  obtain ⟨h1, h2, h3, h4, h5⟩ := h
  exact ⟨h1.advance hn, h2.advance (by rw [← hr]; exact hn), h3, by simp [Reader.advance, h4], h5⟩

/-- The method behaves the same on readers which agree. -/
def Blind {α : Type} (m : M Reader α) : Prop :=
  ∀ r r', Agree r r' → (m r).1 = (m r').1 ∧ Agree (m r).2 (m r').2

theorem blind_pure {α : Type} (a : α) : Blind (pure a : M Reader α) := fun _ _ h => ⟨rfl, h⟩
theorem blind_throw {α : Type} (e : Err) : Blind (M.throw e : M Reader α) := fun _ _ h => ⟨rfl, h⟩
theorem blind_lift {α : Type} (x : Except Err α) : Blind (M.lift x : M Reader α) := fun _ _ h => ⟨rfl, h⟩

theorem Blind.bind {α β : Type} {m : M Reader α} {f : α → M Reader β} (hm : Blind m) (hf : ∀ a, Blind (f a)) :
    Blind (m >>= f) := by
  intro r r' h
  obtain ⟨h1, h2⟩ := hm r r' h
  rw [M.bind_apply, M.bind_apply]
  rcases hmr : m r with ⟨e | a, s⟩ <;> rcases hmr' : m r' with ⟨e' | a', s'⟩ <;> rw [hmr, hmr'] at h1 h2 <;>
    simp only at h1 h2
  · injection h1 with h1; exact ⟨by simp only; rw [h1], h2⟩
  · simp at h1
  · simp at h1
  · injection h1 with h1; subst h1; exact hf a s s' h2

theorem blind_ite {α : Type} {c : Prop} [Decidable c] {m m' : M Reader α} (h : Blind m) (h' : Blind m') :
    Blind (if c then m else m') := by split <;> assumption

/-- Reading the state, as long as only position and declared size are used. -/
theorem blind_get_bind {β : Type} {f : Reader → M Reader β} (g : Nat → Int → M Reader β)
    (hfg : ∀ r, f r = g r.pos r.bitsize) (hg : ∀ p b, Blind (g p b)) : Blind (M.get >>= f) := by
  intro r r' h
  rw [M.bind_ok (M.get_apply _), M.bind_ok (M.get_apply _), hfg, hfg, ← h.2.2.1, ← h.2.2.2.1]
  exact hg _ _ r r' h

theorem blind_readBitsUnchecked (n : Nat) : Blind (readBitsUnchecked n) := by
  intro r r' h
  have hr := h.rest
  rw [readBitsUnchecked_spec r n h.1, readBitsUnchecked_spec r' n h.2.1, ← hr]
  split
  · rename_i hn; exact ⟨rfl, h.advance hn⟩
  · exact ⟨rfl, h⟩

theorem blind_setBitposition (p : Int) : Blind (setBitposition p) := by
  intro r r' h
  unfold setBitposition
  have hb := h.2.2.1
  rw [M.bind_ok (M.get_apply _), M.bind_ok (M.get_apply _)]
  split
  · exact blind_throw _ r r' h
  · by_cases h2 : p > r.bitsize
    · rw [if_pos h2, if_pos (by omega)]
      exact blind_throw _ r r' h
    · rw [if_neg h2, if_neg (by omega)]
      obtain ⟨⟨a1, a2⟩, ⟨b1, b2⟩, h3, h4, h5⟩ := h
      refine ⟨rfl, ⟨a1, ?_⟩, ⟨b1, ?_⟩, h3, rfl, h5⟩
      · show ((p.toNat : Nat) : Int) ≤ r.bitsize; omega
      · show ((p.toNat : Nat) : Int) ≤ r'.bitsize; omega

theorem blind_varTail (k acc : Nat) : Blind (readVarTail k acc) := by
  induction k generalizing acc with
  | zero => exact (blind_readBitsUnchecked 8).bind (fun _ => blind_pure _)
  | succ k ih => exact (blind_readBitsUnchecked 8).bind (fun _ => blind_ite (blind_pure _) (ih _))

theorem blind_varUnsigned (k : Nat) : Blind (readVarUnsigned k) :=
  (blind_readBitsUnchecked 8).bind (fun _ => blind_ite (blind_pure _) (blind_varTail _ _))

theorem blind_varSigned (k : Nat) : Blind (readVarSigned k) :=
  (blind_readBitsUnchecked 8).bind
    (fun _ => blind_ite (blind_pure _) ((blind_varTail _ _).bind (fun _ => blind_pure _)))

theorem blind_varint : Blind readVarint :=
  (blind_readBitsUnchecked 8).bind
    (fun _ => blind_ite (blind_pure _) ((blind_varTail _ _).bind (fun _ => blind_pure _)))

theorem blind_varsize : Blind readVarsize :=
  (blind_varUnsigned 3).bind (fun _ => blind_ite (blind_throw _) (blind_pure _))

theorem blind_asInt {m : M Reader Nat} (h : Blind m) : Blind (asInt m) := h.bind (fun _ => blind_pure _)

theorem blind_readVar (t : VarType) : Blind (readVar t) := by
  cases t
  · exact blind_varSigned 0
  · exact blind_varSigned 2
  · exact blind_varSigned 6
  · exact blind_varint
  · exact blind_asInt (blind_varUnsigned 0)
  · exact blind_asInt (blind_varUnsigned 2)
  · exact blind_asInt (blind_varUnsigned 6)
  · exact blind_asInt (blind_varUnsigned 7)
  · exact blind_asInt blind_varsize

theorem blind_byteLoop (n : Nat) : Blind (readByteLoop n) := by
  induction n with
  | zero => exact blind_pure _
  | succ n ih => exact (blind_readBitsUnchecked 8).bind (fun _ => ih.bind (fun _ => blind_pure _))

theorem bits_slice (l : List UInt8) (a b : Nat) :
    bytesBits (pySlice l a b) = ((bytesBits l).take (8 * b)).drop (8 * a) := by
  rw [pySlice, bytesBits_drop, bytesBits_take]

theorem blind_byteBlock (n : Nat) : Blind (readByteBlock n) := by
  intro r r' h
  unfold readByteBlock
  rw [M.bind_ok (M.get_apply _), M.bind_ok (M.get_apply _), ← h.2.2.2.1, and_seven]
  split
  · exact blind_byteLoop n r r' h
  · rename_i h8
    by_cases hle : (r.pos : Int) + n * 8 ≤ r.bitsize
    · -- both succeed with the same slice
      have hs := blind_setBitposition ((r.pos : Int) + n * 8) r r' h
      have hok : ∀ q : Reader, q.bitsize = r.bitsize →
          (setBitposition ((r.pos : Int) + n * 8) q).1 = .ok () := by
        intro q hq
        unfold setBitposition
        rw [M.bind_ok (M.get_apply _), if_neg (by omega), if_neg (by omega)]; rfl
      have e1 := hok r rfl
      have e2 := hok r' h.2.2.1.symm
      rw [M.bind_apply, M.bind_apply]
      rcases hx : setBitposition ((r.pos : Int) + n * 8) r with ⟨_ | _, s⟩ <;>
        rcases hy : setBitposition ((r.pos : Int) + n * 8) r' with ⟨_ | _, s'⟩ <;>
        rw [hx] at e1 hs <;> rw [hy] at e2 hs <;> simp at e1 e2
      refine ⟨?_, hs.2⟩
      show Except.ok _ = Except.ok _
      congr 1
      apply bytesBits_inj
      rw [bits_slice, bits_slice]
      congr 1
      have h5 := h.2.2.2.2
      have hm : 8 * (r.pos / 8 + n) ≤ r.bitsize.toNat := by omega
      calc (bytesBits r.buffer).take (8 * (r.pos / 8 + n))
          = ((bytesBits r.buffer).take r.bitsize.toNat).take (8 * (r.pos / 8 + n)) := by
            rw [List.take_take, Nat.min_eq_left hm]
        _ = ((bytesBits r'.buffer).take r.bitsize.toNat).take (8 * (r.pos / 8 + n)) := by rw [h5]
        _ = (bytesBits r'.buffer).take (8 * (r.pos / 8 + n)) := by
            rw [List.take_take, Nat.min_eq_left hm]
    · have hfail : ∀ q : Reader, q.bitsize = r.bitsize →
          setBitposition ((r.pos : Int) + n * 8) q = (.error .position, q) := by
        intro q hq
        unfold setBitposition
        rw [M.bind_ok (M.get_apply _), if_neg (by omega), if_pos (by omega)]; rfl
      rw [M.bind_error (hfail r rfl), M.bind_error (hfail r' h.2.2.1.symm)]
      exact ⟨rfl, h⟩

theorem blind_readBits (n : Int) : Blind (readBits n) := blind_ite (blind_throw _) (blind_readBitsUnchecked _)

theorem blind_readSignedBitsUnchecked (n : Nat) : Blind (readSignedBitsUnchecked n) :=
  (blind_readBitsUnchecked n).bind (fun _ => blind_ite (blind_pure _) (blind_pure _))

theorem blind_alignto (a : Int) : Blind (alignto a) :=
  blind_get_bind (fun p _ => if a = 0 then M.throw .zeroDivision else
      if Int.fmod (p : Int) a ≠ 0 then setBitposition ((p : Int) + a - Int.fmod (p : Int) a) else pure ())
    (fun _ => rfl)
    (fun _ _ => blind_ite (blind_throw _) (blind_ite (blind_setBitposition _) (blind_pure _)))

theorem blind_readBytes : Blind readBytes :=
  blind_varsize.bind (fun n => blind_get_bind
    (fun p b => if (p : Int) + (n : Int) * 8 > b then M.throw .eos else readByteBlock n) (fun _ => rfl)
    (fun _ _ => blind_ite (blind_throw _) (blind_byteBlock _)))

theorem blind_readString : Blind readString :=
  blind_varsize.bind (fun n => blind_get_bind
    (fun p b => if (p : Int) + (n : Int) * 8 > b then M.throw .eos
      else do let value ← readByteBlock n; M.lift (utf8Decode value)) (fun _ => rfl)
    (fun _ _ => blind_ite (blind_throw _) ((blind_byteBlock _).bind (fun _ => blind_lift _))))

theorem blind_readBitBuffer : Blind readBitBuffer :=
  blind_varsize.bind (fun n => blind_get_bind
    (fun p b => if (p : Int) + (n : Int) > b then M.throw .eos
      else do
        let buffer ← readByteBlock (n / 8)
        if n - n / 8 * 8 ≠ 0 then do
          let x ← readBits ((n - n / 8 * 8 : Nat) : Int)
          M.lift (BitBuffer.make (buffer ++ [UInt8.ofNat (x <<< (8 - (n - n / 8 * 8)))]) (some (n : Int)))
        else M.lift (BitBuffer.make buffer (some (n : Int)))) (fun _ => rfl)
    (fun _ _ => blind_ite (blind_throw _)
      ((blind_byteBlock _).bind
        (fun _ => blind_ite ((blind_readBits _).bind (fun _ => blind_lift _)) (blind_lift _)))))

theorem blind_run (c : RCall) : Blind c.run := by
  cases c with
  | bits n => exact (blind_readBits n).bind (fun _ => blind_pure _)
  | signedBits n => exact (blind_ite (blind_throw _) (blind_readSignedBitsUnchecked _)).bind (fun _ => blind_pure _)
  | bitsUnchecked n => exact (blind_readBitsUnchecked n).bind (fun _ => blind_pure _)
  | signedBitsUnchecked n => exact (blind_readSignedBitsUnchecked n).bind (fun _ => blind_pure _)
  | var t => exact (blind_readVar t).bind (fun _ => blind_pure _)
  | float16 => exact ((blind_readBitsUnchecked _).bind (fun _ => blind_pure _)).bind (fun _ => blind_pure _)
  | float32 => exact ((blind_readBitsUnchecked _).bind (fun _ => blind_pure _)).bind (fun _ => blind_pure _)
  | float64 => exact ((blind_readBitsUnchecked _).bind (fun _ => blind_pure _)).bind (fun _ => blind_pure _)
  | bytes => exact blind_readBytes.bind (fun _ => blind_pure _)
  | string => exact blind_readString.bind (fun _ => blind_pure _)
  | bool => exact ((blind_readBitsUnchecked _).bind (fun _ => blind_pure _)).bind (fun _ => blind_pure _)
  | bitBuffer => exact blind_readBitBuffer.bind (fun _ => blind_pure _)
  | alignto a => exact (blind_alignto a).bind (fun _ => blind_pure _)
  | setPosition p => exact (blind_setBitposition p).bind (fun _ => blind_pure _)

/-! Variable-length reads of arbitrary input. -/

/-- Reading one byte: value and effect, or failure. -/
theorem readByte_cases (r : Reader) (hr : r.WF) :
    (∃ b, b < 256 ∧ readBitsUnchecked 8 r = (.ok b, r.advance 8) ∧ (r.advance 8).WF) ∨
    readBitsUnchecked 8 r = (.error .eos, r) := by
  rw [readBitsUnchecked_spec r 8 hr]
  split
  · rename_i h
    refine Or.inl ⟨bitsVal (r.rest.take 8), ?_, rfl, hr.advance h⟩
    have := bitsVal_lt (r.rest.take 8)
    rw [List.length_take, Nat.min_eq_left h] at this
    exact this
  · exact Or.inr rfl

/-- Result of a variable-length read of at most `k` bytes from `r`: failure, or a value satisfying `P` after 1 to `k`
bytes. -/
def VarResult {α : Type} (k : Nat) (P : α → Prop) (r : Reader) (res : Except Err α × Reader) : Prop :=
  match res with
  | (.ok v, r') => P v ∧ ∃ n, 1 ≤ n ∧ n ≤ k ∧ r' = r.advance (8 * n)
  | (.error _, r') => ∃ n, n ≤ k ∧ r' = r.advance (8 * n)

theorem VarResult.shift {α : Type} {k : Nat} {P : α → Prop} {r : Reader} {res : Except Err α × Reader}
    (h : VarResult k P (r.advance 8) res) : VarResult (k + 1) P r res := by
  rcases res with ⟨e | v, r'⟩
  · obtain ⟨n, h⟩ := h
    obtain ⟨h1, h2⟩ := h
    exact ⟨n + 1, by omega, by rw [h2]; simp [advance]; omega⟩
  · obtain ⟨hp, n, h1, h2, h3⟩ := h
    exact ⟨hp, n + 1, by omega, by omega, by rw [h3]; simp [advance]; omega⟩

theorem VarResult.mono {α : Type} {k : Nat} {P Q : α → Prop} {r : Reader} {res : Except Err α × Reader}
    (h : VarResult k P r res) (hPQ : ∀ v, P v → Q v) : VarResult k Q r res := by
  rcases res with ⟨e | v, r'⟩
  · exact h
  · exact ⟨hPQ _ h.1, h.2⟩

theorem varTail_result (k acc : Nat) (r : Reader) (hr : r.WF) :
    VarResult (k + 1) (fun v => v < (acc + 1) * 2 ^ (7 * k + 8)) r (readVarTail k acc r) := by
  induction k generalizing acc r with
  | zero =>
    unfold readVarTail
    rcases readByte_cases r hr with ⟨b, hb, h, hwf⟩ | h
    · rw [M.bind_ok h]
      refine ⟨?_, 1, by omega, by omega, rfl⟩
      rw [shiftLeft_or_eq _ _ _ (show b < 2 ^ 8 from hb)]
      omega
    · rw [M.bind_error h]
      exact ⟨0, by omega, rfl⟩
  | succ k ih =>
    unfold readVarTail
    rcases readByte_cases r hr with ⟨b, hb, h, hwf⟩ | h
    · rw [M.bind_ok h]
      have hlow : b &&& 0x7F < 2 ^ 7 := by
        have : b &&& 0x7F ≤ 0x7F := Nat.and_le_right
        omega
      rw [shiftLeft_or_eq _ _ _ hlow]
      have hpow : (2 : Nat) ^ (7 * (k + 1) + 8) = 2 ^ 7 * 2 ^ (7 * k + 8) := by rw [← pow_add]; congr 1; omega
      have hp1 : 1 ≤ 2 ^ (7 * k + 8) := Nat.one_le_two_pow
      have hbound : (acc * 2 ^ 7 + (b &&& 0x7F) + 1) * 2 ^ (7 * k + 8) ≤ (acc + 1) * 2 ^ (7 * (k + 1) + 8) := by
        rw [hpow, ← mul_assoc]
        exact Nat.mul_le_mul_right _ (by omega)
      split
      · refine ⟨?_, 1, by omega, by omega, rfl⟩
        refine lt_of_lt_of_le ?_ hbound
        calc acc * 2 ^ 7 + (b &&& 0x7F) < acc * 2 ^ 7 + (b &&& 0x7F) + 1 := by omega
          _ ≤ _ := Nat.le_mul_of_pos_right _ (by positivity)
      · have := (ih (acc * 2 ^ 7 + (b &&& 0x7F)) (r.advance 8) hwf).shift
        exact this.mono (fun v h => lt_of_lt_of_le h hbound)
    · rw [M.bind_error h]
      exact ⟨0, by omega, rfl⟩

theorem varUnsigned_result (k : Nat) (r : Reader) (hr : r.WF) :
    VarResult (k + 2) (fun v => v < 2 ^ (7 * k + 15)) r (readVarUnsigned k r) := by
  unfold readVarUnsigned
  rcases readByte_cases r hr with ⟨b, hb, h, hwf⟩ | h
  · rw [M.bind_ok h]
    have hlow : b &&& 0x7F < 2 ^ 7 := by
      have : b &&& 0x7F ≤ 0x7F := Nat.and_le_right
      omega
    have hpow : (2 : Nat) ^ (7 * k + 15) = 2 ^ 7 * 2 ^ (7 * k + 8) := by rw [← pow_add]; congr 1; omega
    split
    · refine ⟨?_, 1, by omega, by omega, rfl⟩
      exact lt_of_lt_of_le hlow (Nat.pow_le_pow_right (by omega) (by omega))
    · have := (varTail_result k (b &&& 0x7F) (r.advance 8) hwf).shift
      refine this.mono (fun v h => lt_of_lt_of_le h ?_)
      rw [hpow]
      exact Nat.mul_le_mul_right _ (by omega)
  · rw [M.bind_error h]
    exact ⟨0, by omega, rfl⟩

/-- shape shared by the signed reads -/
theorem varSigned_result_aux (k : Nat) (r : Reader) (hr : r.WF) (f : Nat → Nat → Int) (g : Nat → Nat → Int)
    (P : Int → Prop) (hf : ∀ b m, m < 64 → P (f b m)) (hg : ∀ b m, m < 2 ^ (7 * k + 14) → P (g b m)) :
    VarResult (k + 2) P r ((do
      let byte ← readBitsUnchecked 8
      if byte &&& 0x40 = 0 then pure (f byte (byte &&& 0x3F))
      else do
        let result ← readVarTail k (byte &&& 0x3F)
        pure (g byte result) : M Reader Int) r) := by
  rcases readByte_cases r hr with ⟨b, hb, h, hwf⟩ | h
  · rw [M.bind_ok h]
    have hlow : b &&& 0x3F < 64 := by
      have : b &&& 0x3F ≤ 0x3F := Nat.and_le_right
      omega
    have hpow : (2 : Nat) ^ (7 * k + 14) = 2 ^ 6 * 2 ^ (7 * k + 8) := by rw [← pow_add]; congr 1; omega
    split
    · exact ⟨hf _ _ hlow, 1, by omega, by omega, rfl⟩
    · have := (varTail_result k (b &&& 0x3F) (r.advance 8) hwf).shift
      rw [M.bind_apply]
      rcases hres : readVarTail k (b &&& 0x3F) (r.advance 8) with ⟨e | v, r'⟩
      · rw [hres] at this; exact this
      · rw [hres] at this
        refine ⟨hg _ _ (lt_of_lt_of_le this.1 ?_), this.2⟩
        rw [hpow]
        exact Nat.mul_le_mul_right _ (by omega)
  · rw [M.bind_error h]
    exact ⟨0, by omega, rfl⟩

theorem varSigned_result (k : Nat) (r : Reader) (hr : r.WF) :
    VarResult (k + 2) (fun v => -(2 ^ (7 * k + 14) - 1) ≤ v ∧ v ≤ 2 ^ (7 * k + 14) - 1) r (readVarSigned k r) := by
  have hp : (64 : Int) ≤ 2 ^ (7 * k + 14) := by
    calc (64 : Int) = 2 ^ 6 := by norm_num
      _ ≤ 2 ^ (7 * k + 14) := pow_le_pow_right₀ (by norm_num) (by omega)
  refine varSigned_result_aux k r hr (fun b m => if b &&& 0x80 ≠ 0 then -(m : Int) else m)
    (fun b m => if b &&& 0x80 ≠ 0 then -(m : Int) else m) _ ?_ ?_
  · intro b m hm
    have : (m : Int) < 64 := by exact_mod_cast hm
    split <;> constructor <;> omega
  · intro b m hm
    have : (m : Int) < 2 ^ (7 * k + 14) := by exact_mod_cast hm
    split <;> constructor <;> omega

theorem VarResult.asInt {k : Nat} {P : Nat → Prop} {Q : Int → Prop} {r : Reader} {m : M Reader Nat}
    (h : VarResult k P r (m r)) (hPQ : ∀ v, P v → Q (v : Int)) : VarResult k Q r (Reader.asInt m r) := by
  unfold Reader.asInt
  rw [M.bind_apply]
  rcases hm : m r with ⟨e | v, r'⟩
  · rw [hm] at h; exact h
  · rw [hm] at h; exact ⟨hPQ _ h.1, h.2⟩

theorem readVar_result (t : VarType) (r : Reader) (hr : r.WF) :
    VarResult t.maxBytes (fun v => t.InRange v) r (readVar t r) := by
  cases t
  · exact (varSigned_result 0 r hr).mono (fun v h => h)
  · exact (varSigned_result 2 r hr).mono (fun v h => h)
  · exact (varSigned_result 6 r hr).mono (fun v h => h)
  · refine varSigned_result_aux 7 r hr
      (fun b m => if b &&& 0x80 ≠ 0 then (if m = 0 then INT64_MIN else -(m : Int)) else m)
      (fun b m => if b &&& 0x80 ≠ 0 then -(m : Int) else m) _ ?_ ?_
    · intro b m hm
      have : (m : Int) < 64 := by exact_mod_cast hm
      simp only [VarType.InRange, VarType.lo, VarType.hi, INT64_MIN]
      split
      · split <;> constructor <;> omega
      · constructor <;> omega
    · intro b m hm
      have : (m : Int) < 2 ^ 63 := by exact_mod_cast hm
      simp only [VarType.InRange, VarType.lo, VarType.hi]
      split <;> constructor <;> omega
  · refine VarResult.asInt (varUnsigned_result 0 r hr) (fun v h => ?_)
    have : (v : Int) < 2 ^ 15 := by exact_mod_cast h
    simp only [VarType.InRange, VarType.lo, VarType.hi]; omega
  · refine VarResult.asInt (varUnsigned_result 2 r hr) (fun v h => ?_)
    have : (v : Int) < 2 ^ 29 := by exact_mod_cast h
    simp only [VarType.InRange, VarType.lo, VarType.hi]; omega
  · refine VarResult.asInt (varUnsigned_result 6 r hr) (fun v h => ?_)
    have : (v : Int) < 2 ^ 57 := by exact_mod_cast h
    simp only [VarType.InRange, VarType.lo, VarType.hi]; omega
  · refine VarResult.asInt (varUnsigned_result 7 r hr) (fun v h => ?_)
    have : (v : Int) < 2 ^ 64 := by exact_mod_cast h
    simp only [VarType.InRange, VarType.lo, VarType.hi]; omega
  · have hv : VarResult 5 (fun v => v ≤ VARSIZE_MAX_VALUE) r (readVarsize r) := by
      unfold readVarsize
      have := varUnsigned_result 3 r hr
      rw [M.bind_apply]
      rcases hm : readVarUnsigned 3 r with ⟨e | v, r'⟩
      · rw [hm] at this; exact this
      · rw [hm] at this
        simp only
        split
        · obtain ⟨_, n, h1, h2, h3⟩ := this
          exact ⟨n, h2, h3⟩
        · exact ⟨by simp only [VARSIZE_MAX_VALUE] at *; omega, this.2⟩
    refine VarResult.asInt hv (fun v h => ?_)
    simp only [VARSIZE_MAX_VALUE] at h
    simp only [VarType.InRange, VarType.lo, VarType.hi]; omega

end Zserio.Reader
