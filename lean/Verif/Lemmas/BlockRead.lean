import Verif.Lemmas.VarRead
import Verif.Lemmas.Utf8
set_option linter.unusedSimpArgs false
namespace Zserio

theorem ofNat_bitsVal_byteBits (b : UInt8) : UInt8.ofNat (bitsVal (byteBits b)) = b := by
  have : bitsVal (byteBits b) = b.toNat := bitsVal_natBits_of_lt b.toNat_lt
  rw [this, UInt8.ofNat_toNat]

namespace Reader

theorem parses_readByteLoop (l : List UInt8) (p : Nat) (s : List Bool) :
    Parses (readByteLoop l.length) p (bytesBits l) s l := by
  induction l generalizing p with
  | nil => exact parses_pure _ _ _
  | cons b l ih =>
    rw [bytesBits_cons, List.length_cons, readByteLoop]
    refine Parses.byte_bind (by simp) ?_
    rw [ofNat_bitsVal_byteBits]
    exact (ih _).map

theorem slice_eq_of_rest {r : Reader} {l : List UInt8} {s : List Bool} (hr : r.WF) (h8 : r.pos % 8 = 0)
    (h : r.rest = bytesBits l ++ s) : pySlice r.buffer (r.pos / 8) (r.pos / 8 + l.length) = l := by
  apply bytesBits_inj
  have hlen := rest_length r hr
  rw [h] at hlen
  simp at hlen
  obtain ⟨h1, h2⟩ := hr
  rw [pySlice, bytesBits_drop, bytesBits_take]
  have e1 : bytesBits l = r.rest.take (8 * l.length) := by rw [h]; simp
  rw [e1, rest]
  apply List.ext_getElem
  · simp; omega
  · intro i hi1 hi2
    simp only [List.getElem_drop, List.getElem_take]
    congr 1
    omega

theorem parses_readByteBlock (l : List UInt8) (p : Nat) (s : List Bool) :
    Parses (readByteBlock l.length) p (bytesBits l) s l := by
  intro r hr hp hrest
  have hlen := rest_length r hr
  rw [hrest] at hlen
  simp at hlen
  unfold readByteBlock
  rw [M.bind_ok (M.get_apply _), and_seven]
  by_cases h : r.pos % 8 = 0
  · rw [if_neg (by simpa using h)]
    have hset : setBitposition ((r.pos : Int) + l.length * 8) r = (.ok (), r.advance (bytesBits l).length) := by
      unfold setBitposition
      rw [M.bind_ok (M.get_apply _), if_neg (by omega), if_neg (by omega), M.set_apply]
      congr 1
      simp [advance]; omega
    rw [M.bind_ok hset, slice_eq_of_rest hr h hrest]
    rfl
  · rw [if_pos h]
    exact parses_readByteLoop l p s r hr hp hrest

theorem parses_readVarsize (n p : Nat) (s : List Bool) (h : VarType.varsize.InRange n) :
    Parses readVarsize p (VarType.varsize.encode n) s n := by
  intro r hr hp hrest
  have := parses_readVar .varsize n p s h r hr hp hrest
  simp only [readVar, asInt] at this
  rw [M.bind_apply] at this
  rcases hm : readVarsize r with ⟨_ | a, r'⟩
  · rw [hm] at this; simp at this
  · rw [hm] at this
    simp at this
    rw [this.1, this.2]

theorem eos_check {r : Reader} {bs s : List Bool} (hr : r.WF) (h : r.rest = bs ++ s) :
    ¬ ((r.pos : Int) + bs.length > r.bitsize) := by
  have := rest_length r hr
  rw [h] at this
  simp at this
  omega

/-- the check made before a block is read does not fire when the block is there -/
theorem parses_checked {α : Type} {m : M Reader α} {n : Int} {p : Nat} {bs s : List Bool} {a : α} (hn : n = bs.length)
    (h : Parses m p bs s a) :
    Parses (M.get >>= fun r : Reader => if (r.pos : Int) + n > r.bitsize then M.throw .eos else m) p bs s a := by
  intro r hr hp hrest
  rw [M.bind_ok (M.get_apply _), hn, if_neg (eos_check hr hrest), h r hr hp hrest]

theorem parses_readBytes (l : List UInt8) (p : Nat) (s : List Bool) (h : VarType.varsize.InRange l.length) :
    Parses readBytes p (VarType.varsize.encode l.length ++ bytesBits l) s l := by
  unfold readBytes
  refine (parses_readVarsize _ _ _ h).bind ?_
  exact parses_checked (by simp; omega) (parses_readByteBlock l _ s)

theorem parses_lift {α : Type} {x : Except Err α} {a : α} (h : x = .ok a) (p : Nat) (s : List Bool) :
    Parses (M.lift x) p [] s a := by
  intro r _ _ _; simp [h]

theorem parses_readString {str : PyStr} {l : List UInt8} (hs : utf8Encode str = .ok l) (p : Nat) (s : List Bool)
    (h : VarType.varsize.InRange l.length) :
    Parses readString p (VarType.varsize.encode l.length ++ bytesBits l) s str := by
  unfold readString
  refine (parses_readVarsize _ _ _ h).bind ?_
  refine parses_checked (by simp; omega) ?_
  rw [← List.append_nil (bytesBits l)]
  exact (parses_readByteBlock l _ _).bind (parses_lift (utf8Decode_encode hs) _ _)

theorem parses_readBool (v : Bool) (p : Nat) (s : List Bool) : Parses readBool p [v] s v := by
  have := (parses_readBitsUnchecked' [v] 1 p s rfl).map (f := fun v => v != 0)
  have e : readBool = (fun a => a != 0) <$> readBitsUnchecked 1 := by
    rw [map_eq_pure_bind]; rfl
  rw [e]
  cases v <;> simpa [bitsVal] using this

/-- `read_bitbuffer` after the size. -/
theorem parses_bitBufferBody (bs : List Bool) (p : Nat) (s : List Bool) :
    Parses (M.get >>= fun r : Reader => if (r.pos : Int) + (bs.length : Nat) > r.bitsize then M.throw .eos
      else (do
        let buffer ← readByteBlock (bs.length / 8)
        if bs.length - bs.length / 8 * 8 ≠ 0 then do
          let x ← readBits (bs.length - bs.length / 8 * 8 : Nat)
          M.lift (BitBuffer.make (buffer ++ [UInt8.ofNat (x <<< (8 - (bs.length - bs.length / 8 * 8)))]) (some bs.length))
        else M.lift (BitBuffer.make buffer (some bs.length)))) p bs s ⟨packBits bs, bs.length⟩ := by
  refine parses_checked rfl ?_
  set n := bs.length with hn
  have hrest : n - n / 8 * 8 = n % 8 := by omega
  simp only [hrest]
  -- split into whole bytes and the rest
  have hpack : bytesBits (packBits bs) = bs ++ zeros (padLen n) := bytesBits_packBits bs
  have hplen : (packBits bs).length = (n + padLen n) / 8 := by
    have := congrArg List.length hpack
    simp at this
    omega
  have hsplit : bs = bytesBits ((packBits bs).take (n / 8)) ++ bs.drop (8 * (n / 8)) := by
    rw [bytesBits_take, hpack, List.take_append_of_le_length (by omega), List.take_append_drop]
  have hl8 : ((packBits bs).take (n / 8)).length = n / 8 := by
    simp [hplen]; omega
  have key : Parses (readByteBlock (n / 8) >>= fun buffer =>
      if n % 8 ≠ 0 then do
        let x ← readBits (n % 8 : Nat)
        M.lift (BitBuffer.make (buffer ++ [UInt8.ofNat (x <<< (8 - n % 8))]) (some (n : Int)))
      else M.lift (BitBuffer.make buffer (some (n : Int)))) p
      (bytesBits ((packBits bs).take (n / 8)) ++ bs.drop (8 * (n / 8))) s ⟨packBits bs, n⟩ := by
    have hb := parses_readByteBlock ((packBits bs).take (n / 8)) p
      (bs.drop (8 * (n / 8)) ++ s)
    rw [hl8] at hb
    refine hb.bind ?_
    by_cases hr : n % 8 = 0
    · rw [if_neg (by simpa using hr)]
      have h0 : bs.drop (8 * (n / 8)) = [] := by apply List.drop_of_length_le; omega
      rw [h0]
      refine parses_lift ?_ _ _
      have ht : (packBits bs).take (n / 8) = packBits bs := by
        apply List.take_of_length_le
        rw [hplen]; simp [padLen, hr]
      rw [ht, BitBuffer.make, if_neg]
      rw [hplen]; simp [padLen, hr]; omega
    · rw [if_pos hr]
      have hreadBits : readBits ((n % 8 : Nat) : Int) = readBitsUnchecked (n % 8) := by
        unfold readBits
        rw [if_neg (by omega), Int.toNat_natCast]
      rw [hreadBits]
      set d := bs.drop (8 * (n / 8)) with hd
      have hdl : d.length = n % 8 := by rw [hd]; simp; omega
      rw [← List.append_nil d]
      refine (parses_readBitsUnchecked' d (n % 8) _ _ hdl).bind ?_
      refine parses_lift ?_ _ _
      have hlast : (packBits bs).take (n / 8) ++ [UInt8.ofNat (bitsVal d <<< (8 - n % 8))] = packBits bs := by
        apply bytesBits_inj
        rw [bytesBits_append, hpack, bytesBits_cons, byteBits_ofNat, bytesBits_nil, List.append_nil]
        have e8 : natBits 8 (bitsVal d <<< (8 - n % 8)) = d ++ zeros (8 - n % 8) := by
          obtain ⟨k, hk⟩ : ∃ k, 8 - n % 8 = k := ⟨_, rfl⟩
          have h8 : 8 = n % 8 + k := by omega
          rw [hk]
          have := natBits_shiftLeft (n % 8) k (bitsVal d)
          rw [← h8] at this
          rw [this, ← hdl, natBits_bitsVal]
        rw [e8, ← List.append_assoc, ← hsplit]
        congr 2
        simp [padLen]; omega
      rw [hlast, BitBuffer.make, if_neg]
      rw [hplen]; simp [padLen]; omega
  rw [← hsplit] at key
  exact key

/-- The canonical buffer holding `n` bits `bs`. -/
theorem parses_readBitBuffer (bs : List Bool) (p : Nat) (s : List Bool) (h : VarType.varsize.InRange bs.length) :
    Parses readBitBuffer p (VarType.varsize.encode bs.length ++ bs) s ⟨packBits bs, bs.length⟩ := by
  unfold readBitBuffer
  exact (parses_readVarsize _ _ _ h).bind (parses_bitBufferBody bs _ s)

theorem parses_alignto (a p : Nat) (ha : 0 < a) (s : List Bool) (bs : List Bool) (hbs : bs.length = Writer.alignGap a p) :
    Parses (alignto (a : Int)) p bs s () := by
  intro r hr hp hrest
  have hlen := rest_length r hr
  rw [hrest] at hlen
  simp [hbs] at hlen
  have hlt := Nat.mod_lt p ha
  unfold alignto
  rw [M.bind_ok (M.get_apply _), if_neg (by omega)]
  have hmod : Int.fmod (r.pos : Int) (a : Int) = ((p % a : Nat) : Int) := by
    rw [hp, Int.fmod_eq_emod_of_nonneg _ (by omega)]; rfl
  simp only [hmod]
  rw [hp] at hlen ⊢
  by_cases h : p % a = 0
  · rw [if_neg (by simp [h])]
    simp [hbs, Writer.alignGap, h]
  · rw [if_pos (by omega)]
    have hg : Writer.alignGap a p = a - p % a := by rw [Writer.alignGap, Nat.mod_eq_of_lt (by omega)]
    rw [hg] at hlen hbs
    unfold setBitposition
    rw [M.bind_ok (M.get_apply _), if_neg (by omega), if_neg (by omega), M.set_apply]
    congr 1
    simp [advance, hbs, hp]; omega

end Reader
end Zserio
