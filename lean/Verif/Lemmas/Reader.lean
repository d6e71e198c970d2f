import Verif.Lemmas.BlockWrite
set_option linter.unusedSimpArgs false
namespace Zserio

theorem natFromBytes_eq (l : List UInt8) : natFromBytes l = bitsVal (bytesBits l) := by
  have gen : ∀ (l : List UInt8) (acc : Nat),
      l.foldl (fun acc b => acc * 256 + b.toNat) acc = acc * 2 ^ (8 * l.length) + bitsVal (bytesBits l) := by
    intro l
    induction l with
    | nil => intro acc; simp [bitsVal]
    | cons b l ih =>
      intro acc
      rw [List.foldl_cons, ih, bytesBits_cons, bitsVal_append, bytesBits_length]
      have hb : bitsVal (byteBits b) = b.toNat := bitsVal_natBits_of_lt b.toNat_lt
      rw [hb, List.length_cons, show 8 * (l.length + 1) = 8 + 8 * l.length by omega, pow_add]
      ring
  unfold natFromBytes
  rw [gen]; simp

theorem bitsVal_shiftRight (l : List Bool) (k : Nat) (h : k ≤ l.length) :
    bitsVal l >>> k = bitsVal (l.take (l.length - k)) := by
  have hsplit := List.take_append_drop (l.length - k) l
  conv => lhs; rw [← hsplit]
  rw [bitsVal_append]
  have hlen : (l.drop (l.length - k)).length = k := by simp; omega
  have hlt := bitsVal_lt (l.drop (l.length - k))
  rw [hlen] at hlt ⊢
  rw [Nat.shiftRight_eq_div_pow, Nat.mul_comm, Nat.mul_add_div (by positivity), Nat.div_eq_of_lt hlt, Nat.add_zero]

theorem bitsVal_mod (l : List Bool) (k : Nat) (h : k ≤ l.length) :
    bitsVal l % 2 ^ k = bitsVal (l.drop (l.length - k)) := by
  have hsplit := List.take_append_drop (l.length - k) l
  conv => lhs; rw [← hsplit]
  rw [bitsVal_append]
  have hlen : (l.drop (l.length - k)).length = k := by simp; omega
  have hlt := bitsVal_lt (l.drop (l.length - k))
  rw [hlen] at hlt ⊢
  rw [Nat.mul_add_mod', Nat.mod_eq_of_lt hlt]

namespace Reader

/-- The bits not yet read, up to the declared size. -/
def rest (r : Reader) : List Bool := ((bytesBits r.buffer).take r.bitsize.toNat).drop r.pos

/-- A reader over a buffer with a non-negative declared size, positioned inside the stream. -/
def WF (r : Reader) : Prop := r.bitsize ≤ (r.buffer.length : Int) * 8 ∧ (r.pos : Int) ≤ r.bitsize

/-- The same reader `n` bits further. -/
def advance (r : Reader) (n : Nat) : Reader := { r with pos := r.pos + n }

@[simp] theorem advance_pos (r : Reader) (n : Nat) : (r.advance n).pos = r.pos + n := rfl
@[simp] theorem advance_buffer (r : Reader) (n : Nat) : (r.advance n).buffer = r.buffer := rfl
@[simp] theorem advance_bitsize (r : Reader) (n : Nat) : (r.advance n).bitsize = r.bitsize := rfl
@[simp] theorem advance_zero (r : Reader) : r.advance 0 = r := rfl
@[simp] theorem advance_advance (r : Reader) (n m : Nat) : (r.advance n).advance m = r.advance (n + m) := by
  simp [advance, Nat.add_assoc]

theorem rest_length (r : Reader) (h : r.WF) : (r.rest.length : Int) = r.bitsize - r.pos := by
  obtain ⟨h1, h2⟩ := h
  simp [rest]; omega

theorem rest_advance (r : Reader) (n : Nat) : (r.advance n).rest = r.rest.drop n := by
  simp [rest, List.drop_drop]

theorem WF.advance {r : Reader} (h : r.WF) {n : Nat} (hn : n ≤ r.rest.length) : (r.advance n).WF := by
  have := rest_length r h
  refine ⟨h.1, ?_⟩
  simp; omega

/-- Reading from a well-formed reader: exact result, both branches. -/
theorem readBitsUnchecked_spec (r : Reader) (n : Nat) (h : r.WF) :
    readBitsUnchecked n r =
      if n ≤ r.rest.length then (.ok (bitsVal (r.rest.take n)), r.advance n) else (.error .eos, r) := by
  have hrest := rest_length r h
  obtain ⟨h1, h2⟩ := h
  unfold readBitsUnchecked
  rw [M.bind_ok (M.get_apply _)]
  by_cases hn : n ≤ r.rest.length
  · rw [if_pos hn]
    have hend : ¬ ((r.pos + n : Nat) : Int) > r.bitsize := by push_cast; omega
    simp only [hend, if_false]
    rw [M.bind_ok (M.set_apply _ _), M.pure_apply]
    congr 2
    -- the value
    obtain ⟨S, hS⟩ : ∃ S : Nat, r.bitsize = S := ⟨r.bitsize.toNat, by omega⟩
    set stop := (Int.fdiv (((r.pos + n : Nat) : Int) - 1) 8 + 1).toNat with hstop
    have hstop' : stop = (r.pos + n + 7) / 8 := by
      rw [hstop, Int.fdiv_eq_ediv_of_nonneg _ (by norm_num)]; omega
    have hbytes : bytesBits (pySlice r.buffer (r.pos / 8) stop) =
        ((bytesBits r.buffer).take (8 * stop)).drop (8 * (r.pos / 8)) := by
      rw [pySlice, bytesBits_drop, bytesBits_take]
    rw [natFromBytes_eq, hbytes, Nat.one_shiftLeft, Nat.and_two_pow_sub_one_eq_mod]
    set B := bytesBits r.buffer with hB
    have hBlen : B.length = 8 * r.buffer.length := bytesBits_length _
    set l := (B.take (8 * stop)).drop (8 * (r.pos / 8)) with hl
    have hllen : l.length = 8 * stop - 8 * (r.pos / 8) := by
      rw [hl]; simp; omega
    have hshift : (if (r.pos + n) % 8 ≠ 0 then bitsVal l >>> (8 - (r.pos + n) % 8) else bitsVal l) =
        bitsVal (l.take (r.pos + n - 8 * (r.pos / 8))) := by
      split
      · by_cases h0 : n = 0 ∧ r.pos % 8 = 0
        · omega
        · rw [bitsVal_shiftRight _ _ (by rw [hllen]; omega), hllen]
          congr 2
          omega
      · rw [List.take_of_length_le]
        rw [hllen]; omega
    rw [hshift, bitsVal_mod _ _ (by rw [List.length_take, hllen]; omega)]
    congr 1
    have hlt : (l.take (r.pos + n - 8 * (r.pos / 8))).length = r.pos + n - 8 * (r.pos / 8) := by
      rw [List.length_take, hllen]; omega
    rw [hlt]
    -- compare the lists element by element
    have hS2 : S ≤ B.length := by omega
    have hnS : r.pos + n ≤ S := by omega
    have hr : r.rest = (B.take S).drop r.pos := by simp [rest, hS, hB]
    rw [hr, hl]
    apply List.ext_getElem
    · simp; omega
    · intro i hi1 hi2
      simp only [List.getElem_drop, List.getElem_take]
      congr 1
      simp at hi1 hi2
      omega
  · rw [if_neg hn]
    have hend : ((r.pos + n : Nat) : Int) > r.bitsize := by push_cast; omega
    simp only [hend, if_true]
    rfl

/-- Positioned at `p` with `bs` ahead, followed by `s`, the operation succeeds, consumes exactly `bs`, returns `a`. -/
def Parses {α : Type} (m : M Reader α) (p : Nat) (bs s : List Bool) (a : α) : Prop :=
  ∀ r : Reader, r.WF → r.pos = p → r.rest = bs ++ s → m r = (.ok a, r.advance bs.length)

theorem parses_pure {α : Type} (a : α) (p : Nat) (s : List Bool) : Parses (pure a) p [] s a := by
  intro r _ _ _; simp

theorem Parses.bind {α β : Type} {m : M Reader α} {f : α → M Reader β} {p : Nat} {bs bs' s : List Bool} {a : α} {b : β}
    (h : Parses m p bs (bs' ++ s) a) (h' : Parses (f a) (p + bs.length) bs' s b) :
    Parses (m >>= f) p (bs ++ bs') s b := by
  intro r hr hp hrest
  rw [List.append_assoc] at hrest
  rw [M.bind_ok (h r hr hp hrest), h' (r.advance bs.length) (hr.advance (by rw [hrest]; simp)) (by simp [hp])
    (by rw [rest_advance, hrest]; simp)]
  simp

theorem Parses.map {α β : Type} {m : M Reader α} {f : α → β} {p : Nat} {bs s : List Bool} {a : α}
    (h : Parses m p bs s a) : Parses (m >>= fun x => pure (f x)) p bs s (f a) := by
  intro r hr hp hrest
  rw [M.bind_ok (h r hr hp hrest)]
  rfl

theorem parses_readBitsUnchecked (bs : List Bool) (p : Nat) (s : List Bool) :
    Parses (readBitsUnchecked bs.length) p bs s (bitsVal bs) := by
  intro r hr _ hrest
  rw [readBitsUnchecked_spec r _ hr, if_pos (by rw [hrest]; simp), hrest]
  simp

theorem parses_readBitsUnchecked' (bs : List Bool) (n p : Nat) (s : List Bool) (h : bs.length = n) :
    Parses (readBitsUnchecked n) p bs s (bitsVal bs) := h ▸ parses_readBitsUnchecked bs p s

theorem parses_natBits (n v p : Nat) (s : List Bool) (h : v < 2 ^ n) :
    Parses (readBitsUnchecked n) p (natBits n v) s v := by
  have := parses_readBitsUnchecked' (natBits n v) n p s (by simp)
  rwa [bitsVal_natBits_of_lt h] at this

theorem signed_value (n : Nat) (v : Int) (hn : 0 < n) (h1 : -(2 ^ (n - 1)) ≤ v) (h2 : v ≤ 2 ^ (n - 1) - 1) :
    (let u := bitsVal (intBits n v)
     if n ≠ 0 ∧ u >>> (n - 1) ≠ 0 then (u : Int) - 2 ^ n else (u : Int)) = v := by
  obtain ⟨k, rfl⟩ : ∃ k, n = k + 1 := ⟨n - 1, by omega⟩
  simp only [Nat.add_sub_cancel] at *
  have hp : (0 : Int) < 2 ^ k := by positivity
  have hpk : (2 : Int) ^ (k + 1) = 2 * 2 ^ k := by rw [pow_succ]; ring
  have hu : ((bitsVal (intBits (k + 1) v) : Nat) : Int) = v % 2 ^ (k + 1) := by
    unfold intBits
    rw [bitsVal_natBits, Int.natCast_mod, Int.toNat_of_nonneg (Int.emod_nonneg _ (by positivity))]
    push_cast
    rw [Int.emod_emod_of_dvd _ (dvd_refl _)]
  generalize hU : bitsVal (intBits (k + 1) v) = u at hu ⊢
  rw [Nat.shiftRight_eq_div_pow]
  have hpn : ((2 ^ k : Nat) : Int) = 2 ^ k := by push_cast; rfl
  by_cases hv : 0 ≤ v
  · rw [Int.emod_eq_of_lt hv (by omega)] at hu
    have : u / 2 ^ k = 0 := Nat.div_eq_of_lt (by omega)
    simp [this, hu]
  · have : v % 2 ^ (k + 1) = v + 2 ^ (k + 1) := by
      rw [← Int.add_emod_right, Int.emod_eq_of_lt (by omega) (by omega)]
    rw [this] at hu
    have : u / 2 ^ k ≠ 0 := by
      have hge : 2 ^ k ≤ u := by omega
      have := Nat.div_pos hge (by positivity)
      omega
    simp only [this, ne_eq, not_false_eq_true, and_true, Nat.succ_ne_zero, if_true]
    omega

theorem parses_intBits (n : Nat) (v : Int) (p : Nat) (s : List Bool) (hn : 0 < n) (h1 : -(2 ^ (n - 1)) ≤ v)
    (h2 : v ≤ 2 ^ (n - 1) - 1) : Parses (readSignedBitsUnchecked n) p (intBits n v) s v := by
  have hval := signed_value n v hn h1 h2
  intro r hr hp hrest
  unfold readSignedBitsUnchecked
  rw [M.bind_ok (parses_readBitsUnchecked' (intBits n v) n p s (by simp) r hr hp hrest)]
  simp only at hval
  split at hval <;> rename_i hc
  · rw [if_pos hc, hval]; rfl
  · rw [if_neg hc, hval]; rfl

end Reader
end Zserio
