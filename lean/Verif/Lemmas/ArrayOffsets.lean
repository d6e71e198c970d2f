import Verif.Lemmas.BuiltinTraits
set_option linter.unusedSimpArgs false
/-
Helper lemmas on arrays with indexed offsets.
-/
namespace Zserio
namespace Array'
open Writer
variable {α : Type}

/-- The position `align8 p` in bytes. -/
theorem bitsToBytes_align8 (p : Nat) :
    ∃ v : Int, bitsToBytes (align8 p) = .ok v ∧ bytesToBits v = (align8 p : Int) := by
  have h8 : (align8 p) % 8 = 0 := by rw [align8_eq]; unfold gapTo; omega
  unfold bitsToBytes bytesToBits
  have hf : Int.fmod (align8 p : Int) 8 = 0 := by
    rw [Int.fmod_eq_emod_of_nonneg _ (by norm_num)]; omega
  refine ⟨Int.fdiv (align8 p) 8, ?_, ?_⟩
  · simp [hf]
  · rw [Int.fdiv_eq_ediv_of_nonneg _ (by norm_num)]; omega

/-- The offsets `offs` record where the elements start, and `e` is where they end. -/
def Marks (tr : Traits α) (offs : List Int) : Nat → Nat → List α → Nat → Prop
  | p, _, [], e => e = p
  | p, i, x :: xs, e => (∃ v, offs[i]? = some v ∧ bytesToBits v = (align8 p : Int)) ∧ Appends (tr.write x) ∧
      ∃ p', (∀ b0 bs, b0.length = align8 p → Runs (tr.write x) b0 bs () → p' = align8 p + bs.length) ∧
        Marks tr offs p' (i + 1) xs e

theorem setOffsetArray_ok {i p : Nat} {s s1 : List Int} (h : setOffsetArray i (align8 p) s = .ok s1) :
    i < s.length ∧ ∃ v, bytesToBits v = (align8 p : Int) ∧ s1 = s.set i v := by
  obtain ⟨v, h1, h2⟩ := bitsToBytes_align8 p
  unfold setOffsetArray at h
  rw [h1, ok_bind] at h
  split at h
  · next hi =>
    simp only [Except.ok.injEq] at h
    exact ⟨hi, v, h2, h.symm⟩
  · cases h

theorem initOffsetsLoop_marks {tr : Traits α} : ∀ (xs : List α) (p i : Nat) (s : List Int) (e : Nat) (xs1 : List α)
    (s1 : List Int), (∀ x ∈ xs, InitExact tr x) →
    initOffsetsLoop tr (some setOffsetArray) p i xs s = .ok (e, xs1, s1) →
    xs1.length = xs.length ∧ s1.length = s.length ∧ (∀ j, j < i → s1[j]? = s[j]?) ∧ Marks tr s1 p i xs1 e := by
  intro xs
  induction xs with
  | nil =>
    intro p i s e xs1 s1 _ h
    simp only [initOffsetsLoop, Except.ok.injEq, Prod.mk.injEq] at h
    obtain ⟨rfl, rfl, rfl⟩ := h
    exact ⟨rfl, rfl, fun _ _ => rfl, rfl⟩
  | cons x xs ih =>
    intro p i s e xs1 s1 hx h
    rw [initOffsetsLoop] at h
    obtain ⟨⟨p1, s2⟩, h1, h⟩ := except_bind_ok h
    obtain ⟨⟨p2, x1⟩, h2, h⟩ := except_bind_ok h
    obtain ⟨⟨p3, xs2, s3⟩, h3, h⟩ := except_bind_ok h
    simp only [Except.ok.injEq, Prod.mk.injEq] at h
    obtain ⟨rfl, rfl, rfl⟩ := h
    simp only [offsetStep] at h1
    obtain ⟨s2', h4, h1⟩ := except_bind_ok h1
    simp only [Except.ok.injEq, Prod.mk.injEq] at h1
    obtain ⟨rfl, rfl⟩ := h1
    obtain ⟨hi, v, hv, rfl⟩ := setOffsetArray_ok h4
    obtain ⟨h5, h6, h7, h8⟩ := ih _ _ _ _ _ _ (fun y hy => hx y (by simp [hy])) h3
    obtain ⟨ha, hex⟩ := hx x (by simp) _ _ _ h2
    refine ⟨by simp [h5], by simpa using h6, ?_, ⟨v, ?_, hv⟩, ha, p2, hex, h8⟩
    · intro j hj
      rw [h7 j (by omega), List.getElem?_set_ne (by omega)]
    · rw [h7 i (by omega), List.getElem?_set_self (by omega)]

/-- The initialised offsets pass every check of the write loop, and the loop ends at the announced position. -/
theorem writeLoop_marks {tr : Traits α} {s1 : List Int} : ∀ (xs : List α) (b0 : List Bool) (i e : Nat),
    Marks tr s1 b0.length i xs e →
    writeLoop tr (some checkOffsetArray) s1 i xs (ofBits b0) =
      writeLoop tr (some fun _ _ _ => .ok ()) s1 i xs (ofBits b0) ∧
    ∀ w', writeLoop tr (some checkOffsetArray) s1 i xs (ofBits b0) = (.ok (), w') → w'.pos = e := by
  intro xs
  induction xs with
  | nil =>
    rintro b0 i e rfl
    refine ⟨rfl, ?_⟩
    intro w' h
    simp only [writeLoop, M.pure_apply, Prod.mk.injEq] at h
    rw [← h.2]; rfl
  | cons x xs ih =>
    rintro b0 i e ⟨⟨v, hv, hv2⟩, ha, p', hp', hm⟩
    have hb : (b0 ++ zeros (gap true b0.length)).length = align8 b0.length := by
      rw [align8_eq]; simp [gap, length_zeros]
    have hc : Runs (writeCheck (some checkOffsetArray) i s1) b0 (zeros (gap true b0.length)) () := by
      refine runs_writeCheck (some checkOffsetArray) i s1 b0 ?_
      rintro c ⟨⟩
      have : b0.length + gap (some checkOffsetArray).isSome b0.length = align8 b0.length := by rw [align8_eq]; simp [gap]
      rw [this, checkOffsetArray, hv]
      simp [hv2]
    have hc' : Runs (writeCheck (some fun _ _ _ => .ok ()) i s1) b0 (zeros (gap true b0.length)) () :=
      runs_writeCheck (some fun _ _ _ => .ok ()) i s1 b0 (by rintro c ⟨⟩; rfl)
    unfold Runs at hc hc'
    rw [writeLoop, writeLoop, M.bind_ok hc, M.bind_ok hc', M.bind_apply, M.bind_apply]
    rcases hw : tr.write x (ofBits (b0 ++ zeros (gap true b0.length))) with ⟨er | a, w1⟩
    · simp
    · obtain ⟨bs, rfl⟩ := ha _ _ _ hw
      have hlen := hp' _ _ hb hw
      have hm' : Marks tr s1 (b0 ++ zeros (gap true b0.length) ++ bs).length (i + 1) xs e := by
        rw [List.length_append, hb, ← hlen]; exact hm
      obtain ⟨h1, h2⟩ := ih _ _ _ hm'
      exact ⟨h1, h2⟩

theorem marks_get {tr : Traits α} {s1 : List Int} : ∀ (xs : List α) (p i e : Nat), Marks tr s1 p i xs e →
    ∀ j, i ≤ j → j < i + xs.length → ∃ v, s1[j]? = some v := by
  intro xs
  induction xs with
  | nil => intro p i e _ j h1 h2; simp at h2; omega
  | cons x xs ih =>
    rintro p i e ⟨⟨v, hv, _⟩, _, p', _, hm⟩ j h1 h2
    by_cases hj : j = i
    · exact ⟨v, by rw [hj, hv]⟩
    · exact ih _ _ _ hm j (by omega) (by simp at h2; omega)

/-- The check of element `i` fails with an offset error. -/
theorem checkOffsetArray_ne {s1 s2 : List Int} {i p : Nat} {v : Int} (hv : s1[i]? = some v)
    (hv2 : bytesToBits v = (p : Int)) (h2 : i < s2.length) (hne : s2[i]? ≠ s1[i]?) :
    checkOffsetArray i p s2 = .error .offset := by
  unfold checkOffsetArray
  rw [List.getElem?_eq_getElem h2] at hne ⊢
  simp only
  rw [if_pos]
  intro hc
  apply hne
  rw [hv]
  congr 1
  rw [← hv2] at hc
  unfold bytesToBits at hc
  omega

theorem checkOffsetArray_eq {s1 s2 : List Int} {i p : Nat} (h : checkOffsetArray i p s1 = .ok ())
    (he : s2[i]? = s1[i]?) : checkOffsetArray i p s2 = .ok () := by
  unfold checkOffsetArray at *
  rw [he]; exact h

theorem checkOffsetArray_ok {s1 : List Int} {i p : Nat} (h : checkOffsetArray i p s1 = .ok ()) :
    ∃ v, s1[i]? = some v ∧ bytesToBits v = (p : Int) := by
  unfold checkOffsetArray at h
  split at h
  · cases h
  · next o ho =>
    split at h
    · cases h
    · next hc => exact ⟨o, ho, by push Not at hc; exact hc.symm⟩

theorem writeLoop_wrong {tr : Traits α} {s1 s2 : List Int} {b0 bits : List Bool} {i : Nat} {xs : List α}
    (h : Wrote tr (some checkOffsetArray) s1 b0 i xs bits) (hlen : i + xs.length ≤ s2.length) (j : Nat) (h1 : i ≤ j)
    (h2 : j < i + xs.length) (hne : s2[j]? ≠ s1[j]?) :
    ∃ w', writeLoop tr (some checkOffsetArray) s2 i xs (ofBits b0) = (.error .offset, w') := by
  induction h with
  | nil b0 i => simp at h2; omega
  | @cons b0 i x xs bs rest hchk hx hxs ih =>
    simp only [List.length_cons] at hlen h2
    have hok := hchk _ rfl
    rw [writeLoop]
    by_cases hi : s2[i]? = s1[i]?
    · have hc := runs_writeCheck (some checkOffsetArray) i s2 b0 (by
        rintro c ⟨⟩; exact checkOffsetArray_eq hok hi)
      unfold Runs at hc hx
      rw [M.bind_ok hc, M.bind_ok hx]
      have : j ≠ i := by rintro rfl; exact hne hi
      exact ih (by omega) (by omega) (by omega)
    · obtain ⟨v, hv, hv2⟩ := checkOffsetArray_ok hok
      have hc := checkOffsetArray_ne hv hv2 (show i < s2.length by omega) hi
      have ha := (emits_alignto 8 b0.length (by omega)).runs (b0 := b0) rfl
      unfold Runs at ha
      refine ⟨ofBits (b0 ++ zeros (alignGap 8 b0.length)), ?_⟩
      have : writeCheck (some checkOffsetArray) i s2 (ofBits b0) =
          (.error .offset, ofBits (b0 ++ zeros (alignGap 8 b0.length))) := by
        rw [writeCheck, M.bind_ok ha, M.bind_ok (M.get_apply _), M.lift_apply]
        simpa [gap, ofBits, gapTo, alignGap, zeros] using hc
      rw [M.bind_error this]

theorem readLoop_wrong {tr : Traits α} {s1 s2 : List Int} {b0 bits : List Bool} {i : Nat} {xs xs' : List α}
    (h : Wrote tr (some checkOffsetArray) s1 b0 i xs bits) (hr : ReadsList tr i xs xs')
    (hlen : i + xs.length ≤ s2.length) (j : Nat) (h1 : i ≤ j)
    (h2 : j < i + xs.length) (hne : s2[j]? ≠ s1[j]?) (s : List Bool) (r : Reader) (hwf : r.WF) (hp : r.pos = b0.length)
    (hrest : r.rest = bits ++ s) :
    ∃ r', readLoop tr (some checkOffsetArray) s2 i xs.length r = (.error .offset, r') := by
  induction h generalizing xs' r with
  | nil b0 i => simp at h2; omega
  | @cons b0 i x xs bs rest hchk hx hxs ih =>
    cases xs' with
    | nil => exact hr.elim
    | cons x' xs' =>
    obtain ⟨hr1, hr2⟩ := hr
    simp only [List.length_cons] at hlen h2 ⊢
    have hok := hchk _ rfl
    rw [readLoop]
    simp only [List.append_assoc] at hrest
    by_cases hi : s2[i]? = s1[i]?
    · have hc := parses_readCheck (some checkOffsetArray) i s2 b0.length (bs ++ (rest ++ s)) (by
        rintro c ⟨⟩; exact checkOffsetArray_eq hok hi) r hwf hp hrest
      have hwf1 := hwf.advance (n := (zeros (gap (some checkOffsetArray).isSome b0.length)).length) (by rw [hrest]; simp)
      have hrest1 := Reader.rest_advance r (zeros (gap (some checkOffsetArray).isSome b0.length)).length
      rw [hrest, List.drop_left] at hrest1
      have hx1 := hr1 _ _ hx (rest ++ s) _ hwf1 (by simp [hp]) hrest1
      rw [M.bind_ok hc, M.bind_ok hx1]
      have hwf2 := hwf1.advance (n := bs.length) (by rw [hrest1]; simp)
      have hrest2 := Reader.rest_advance (r.advance (zeros (gap (some checkOffsetArray).isSome b0.length)).length) bs.length
      rw [hrest1, List.drop_left] at hrest2
      have : j ≠ i := by rintro rfl; exact hne hi
      obtain ⟨r', hr'⟩ := ih hr2 (by omega) (by omega) (by omega) _ hwf2 (by simp [hp]) hrest2
      rw [M.bind_error hr']
      exact ⟨r', rfl⟩
    · obtain ⟨v, hv, hv2⟩ := checkOffsetArray_ok hok
      have hc := checkOffsetArray_ne hv hv2 (show i < s2.length by omega) hi
      have ha := Reader.parses_alignto 8 b0.length (by omega) (bs ++ (rest ++ s)) (zeros (gapTo 8 b0.length))
        (by simp [gapTo, alignGap]) r hwf hp hrest
      have : readCheck (some checkOffsetArray) i s2 r =
          (.error .offset, r.advance (zeros (gapTo 8 b0.length)).length) := by
        rw [readCheck, M.bind_ok (show Reader.alignto 8 r = _ from ha), M.bind_ok (M.get_apply _), M.lift_apply]
        simpa [gap, hp] using hc
      rw [M.bind_error this]
      exact ⟨_, rfl⟩

end Array'
end Zserio
