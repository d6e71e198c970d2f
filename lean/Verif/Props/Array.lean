import Verif.Lemmas.ArrayOffsets
import Verif.Props.RoundTrip
set_option linter.unusedSimpArgs false
/-
Properties C25, C26, C27: arrays.
-/
namespace Zserio
open Writer Array'
variable {σ α : Type}

/-! ### C25 -/

/-- **C25.** If the size prediction of every element is exact, so is that of the array: whenever `write` succeeds at a
position, `bitsizeof` at that position is the number of bits it appended.  The generated code passes the offset setter and
the offset checker of an array either both or not at all (`hcfg`). -/
theorem C25_array_bitsizeof (tr : Traits α) (cfg : ArrayCfg σ) (hcfg : cfg.setOffset.isSome = cfg.checkOffset.isSome)
    (s : σ) (xs : List α) (hx : ∀ x ∈ xs, Appends (tr.write x) ∧ SizeExact tr x)
    (w w' : Writer) (hw : w.Reachable) (h : Array'.write tr cfg s xs w = (.ok (), w')) :
    w.pos ≤ w'.pos ∧ Array'.bitsizeof tr cfg w.pos xs = .ok (w'.pos - w.pos) := by
  obtain ⟨b0, rfl⟩ := hw.eq_ofBits
  obtain ⟨bits, rfl, hn, hwr⟩ := write_inv (fun x hm => (hx x hm).1) h
  have := bitsizeof_eq (fun x hm => (hx x hm).2) hcfg hn hwr
  refine ⟨by simp [ofBits], ?_⟩
  rw [show (ofBits b0).pos = b0.length from rfl, this]
  simp [ofBits]

/-- **C25** for the arrays of every built-in type. -/
theorem C25_builtin_array_bitsizeof (b : Builtin) (cfg : ArrayCfg σ)
    (hcfg : cfg.setOffset.isSome = cfg.checkOffset.isSome) (s : σ) (xs : List b.Elem) (hx : ∀ x ∈ xs, b.Valid x)
    (w w' : Writer) (hw : w.Reachable) (h : Array'.write b.traits cfg s xs w = (.ok (), w')) :
    w.pos ≤ w'.pos ∧ Array'.bitsizeof b.traits cfg w.pos xs = .ok (w'.pos - w.pos) :=
  C25_array_bitsizeof b.traits cfg hcfg s xs (fun x hm => ⟨b.appends x (hx x hm), b.sizeExact x (hx x hm)⟩) w w' hw h

/-- An auto array of strings at an unaligned position. -/
example : ∃ w', Array'.write Traits.string (ArrayCfg.plain true false) () [[97, 98], [], [0x20AC]]
    (Writer.init.runAll [.bool true]) = (.ok (), w') ∧ w'.pos = 1 + 8 + 24 + 8 + 32 :=
  ⟨_, succeeds (by decide +kernel), by decide +kernel⟩

/-- An array of constant size elements with indexed offsets at an unaligned position. -/
example : ∃ w', Array'.write (Traits.bitField 13) (ArrayCfg.offsetArray false) [1, 3, 5] [1, 8191, 5]
    (Writer.init.runAll [.bool true]) = (.ok (), w') ∧
    Array'.bitsizeof (Traits.bitField 13) (ArrayCfg.offsetArray false) 1 [1, 8191, 5] = .ok 52 ∧ w'.pos = 53 :=
  ⟨_, succeeds (by decide +kernel), by decide +kernel, by decide +kernel⟩

/-- The same for nested arrays: the array traits of an array whose elements are exact are exact (so C25 applies to elements
that consist of arrays). -/
theorem C25_nested (tr : Traits α) (cfg : ArrayCfg σ) (hcfg : cfg.setOffset.isSome = cfg.checkOffset.isSome) (s : σ)
    (xs : List α) (hx : ∀ x ∈ xs, Appends (tr.write x) ∧ SizeExact tr x) :
    Appends (Array'.write tr cfg s xs) ∧ ∀ b0 bs, Runs (Array'.write tr cfg s xs) b0 bs () →
      Array'.bitsizeof tr cfg b0.length xs = .ok bs.length := by
  refine ⟨(appends_writePrefix _ _).bind (fun _ => appends_writeLoop _ _ _ (fun x hm => (hx x hm).1) _), ?_⟩
  intro b0 bs h
  have h1 := (C25_array_bitsizeof tr cfg hcfg s xs hx _ _ (reachable_ofBits b0) h).2
  rw [show (ofBits b0).pos = b0.length from rfl] at h1
  rw [h1]
  simp [ofBits]

/-! ### C26 -/

/-- **C26.** `initialize_offsets(position)` records in the offset array the positions at which `write` checks them: whatever
checks `write` makes of the initialised array succeed (its outcome is the one it has when the check is replaced by one
that accepts everything), and if writing succeeds it ends at the position that was returned. -/
theorem C26_initialize_then_write (tr : Traits α) (isAuto : Bool) (xs xs1 : List α) (offs offs1 : List Int)
    (hx : ∀ x ∈ xs, InitExact tr x) (w : Writer) (hw : w.Reachable) (e : Nat)
    (h : Array'.initOffsets tr (ArrayCfg.offsetArray isAuto) w.pos xs offs = .ok (e, xs1, offs1)) :
    xs1.length = xs.length ∧ offs1.length = offs.length ∧
    Array'.write tr (ArrayCfg.offsetArray isAuto) offs1 xs1 w =
      Array'.write tr { ArrayCfg.offsetArray isAuto with checkOffset := some (fun _ _ _ => .ok ()) } offs1 xs1 w ∧
    ∀ w', Array'.write tr (ArrayCfg.offsetArray isAuto) offs1 xs1 w = (.ok (), w') → w'.pos = e := by
  obtain ⟨b0, rfl⟩ := hw.eq_ofBits
  unfold Array'.initOffsets at h
  obtain ⟨p1, h1, h2⟩ := except_bind_ok h
  have hn := sizePrefix_ok h1
  rw [sizePrefix_eq hn] at h1
  simp only [Except.ok.injEq] at h1
  obtain ⟨h3, h4, -, h5⟩ := initOffsetsLoop_marks _ _ _ _ _ _ _ hx h2
  rw [← h1] at h5
  have hp := runs_writePrefix isAuto xs.length hn b0
  rw [← h3] at hp
  have hpos : (ofBits b0).pos + (prefixBits (ArrayCfg.offsetArray isAuto).isAuto xs.length).length =
      (b0 ++ prefixBits isAuto xs1.length).length := by rw [h3]; simp [ofBits, ArrayCfg.offsetArray]
  rw [hpos] at h5
  obtain ⟨h6, h7⟩ := writeLoop_marks _ _ _ _ h5
  refine ⟨h3, h4, ?_, ?_⟩
  · unfold Array'.write
    simp only [ArrayCfg.offsetArray]
    unfold Runs at hp
    rw [M.bind_ok hp, M.bind_ok hp]
    exact h6
  · intro w' hw'
    unfold Array'.write at hw'
    simp only [ArrayCfg.offsetArray] at hw'
    unfold Runs at hp
    rw [M.bind_ok hp] at hw'
    exact h7 w' hw'

/-- **C26** for built-in element types, where the elements are not changed. -/
theorem C26_builtin_initialize_then_write (b : Builtin) (isAuto : Bool) (xs xs1 : List b.Elem) (offs offs1 : List Int)
    (hx : ∀ x ∈ xs, b.Valid x) (w : Writer) (hw : w.Reachable) (e : Nat)
    (h : Array'.initOffsets b.traits (ArrayCfg.offsetArray isAuto) w.pos xs offs = .ok (e, xs1, offs1)) :
    xs1.length = xs.length ∧ offs1.length = offs.length ∧
    Array'.write b.traits (ArrayCfg.offsetArray isAuto) offs1 xs1 w =
      Array'.write b.traits { ArrayCfg.offsetArray isAuto with checkOffset := some (fun _ _ _ => .ok ()) } offs1 xs1 w ∧
    ∀ w', Array'.write b.traits (ArrayCfg.offsetArray isAuto) offs1 xs1 w = (.ok (), w') → w'.pos = e :=
  C26_initialize_then_write b.traits isAuto xs xs1 offs offs1 (fun x hm => b.initExact x (hx x hm)) w hw e h

/-- Offsets 0, 0, 0 become 1, 3, 5 at position 1. -/
example : Array'.initOffsets (Traits.bitField 13) (ArrayCfg.offsetArray false) 1 [1, 8191, 5] [0, 0, 0] =
    .ok (53, [1, 8191, 5], [1, 3, 5]) := by decide +kernel

/-- **C26**, second half: if the array can be written with some offsets, then an offset array differing at any index makes
both `write` and the `read` of what was written raise the offset error. -/
theorem C26_wrong_offset_raises (tr : Traits α) (isAuto : Bool) (xs xs' : List α) (offs1 offs2 : List Int)
    (hx : ∀ x ∈ xs, Appends (tr.write x) ∧ SizeExact tr x)
    (hr : xs'.length = xs.length ∧ ∀ i x x', xs[i]? = some x → xs'[i]? = some x' → ReadsTo tr i x x')
    (w w1 : Writer) (hw : w.Reachable)
    (h : Array'.write tr (ArrayCfg.offsetArray isAuto) offs1 xs w = (.ok (), w1))
    (hlen : xs.length ≤ offs2.length) (j : Nat) (hj : j < xs.length) (hne : offs2[j]? ≠ offs1[j]?) :
    (∃ w', Array'.write tr (ArrayCfg.offsetArray isAuto) offs2 xs w = (.error .offset, w')) ∧
    ∀ later r, ReadsAt r (w1.runAll later).bytes w.pos w1.pos →
      ∃ r', Array'.read tr (ArrayCfg.offsetArray isAuto) offs2 xs.length r = (.error .offset, r') := by
  obtain ⟨b0, rfl⟩ := hw.eq_ofBits
  obtain ⟨bits, rfl, hn, hwr⟩ := write_inv (fun x hm => (hx x hm).1) h
  have hp := runs_writePrefix isAuto xs.length hn b0
  constructor
  · obtain ⟨w', hw'⟩ := writeLoop_wrong hwr (s2 := offs2) (by omega) j (by omega) (by omega) hne
    refine ⟨w', ?_⟩
    unfold Runs at hp
    rw [Array'.write, show (ArrayCfg.offsetArray isAuto).isAuto = isAuto from rfl, M.bind_ok hp]
    exact hw'
  · intro later r hra
    obtain ⟨h1, h2, h3, h4⟩ := hra
    have hlist : ReadsList tr 0 xs xs' := by
      have gen : ∀ (ys ys' : List α) (i : Nat), ys'.length = ys.length →
          (∀ k y y', ys[k]? = some y → ys'[k]? = some y' → ReadsTo tr (i + k) y y') → ReadsList tr i ys ys' := by
        intro ys
        induction ys with
        | nil => intro ys' i hl _; cases ys' with
          | nil => trivial
          | cons _ _ => simp at hl
        | cons y ys ih =>
          intro ys' i hl hk
          cases ys' with
          | nil => simp at hl
          | cons y' ys' =>
            refine ⟨hk 0 y y' rfl rfl, ih ys' (i + 1) (by simpa using hl) ?_⟩
            intro k a a' ha ha'
            have := hk (k + 1) a a' (by simpa using ha) (by simpa using ha')
            rwa [show i + 1 + k = i + (k + 1) by omega]
      exact gen xs xs' 0 hr.1 (fun k y y' hy hy' => by rw [Nat.zero_add]; exact hr.2 k y y' hy hy')
    refine Zserio.read_after
      (P := fun r x => ∃ r', x = (.error .offset, r')) (mr := Array'.read tr (ArrayCfg.offsetArray isAuto) offs2 xs.length)
      ?_ later r h1 h2 h3 h4
    intro s r hwf hpos hrest
    rw [Array'.read, if_neg (by simp [ArrayCfg.offsetArray])]
    have hsize : Reader.Parses (readSize isAuto xs.length) b0.length (prefixBits isAuto xs.length) (bits ++ s)
        xs.length := by
      unfold prefixBits readSize
      cases isAuto
      · exact Reader.parses_pure _ _ _
      · exact Reader.parses_readVarsize _ _ _ ((varsize_inRange_iff _).2 (hn rfl))
    rw [List.append_assoc] at hrest
    have h5 := hsize r hwf hpos hrest
    rw [M.bind_ok (show readSize (ArrayCfg.offsetArray isAuto).isAuto xs.length r = _ from h5)]
    have hwf1 := hwf.advance (n := (prefixBits isAuto xs.length).length)
      (by rw [show r.rest = prefixBits isAuto xs.length ++ (bits ++ s) from hrest]; simp)
    have hrest1 := Reader.rest_advance r (prefixBits isAuto xs.length).length
    rw [show r.rest = prefixBits isAuto xs.length ++ (bits ++ s) from hrest, List.drop_left] at hrest1
    have hloop := readLoop_wrong hwr hlist (s2 := offs2) (by omega) j (by omega) (by omega) hne s _ hwf1
      (by simp [hpos, ArrayCfg.offsetArray]) hrest1
    rcases hc : tr.constSize with _ | n
    · exact hloop
    · simp only
      rw [M.bind_ok (M.get_apply _), if_neg]
      · exact hloop
      · have hl := Reader.rest_length _ hwf1
        rw [hrest1] at hl
        have hlb := const_length (fun x hm => (hx x hm).2) hc hwr (by omega)
        simp only [ArrayCfg.offsetArray, Option.isSome_some, if_true, align8_eq] at hlb
        have hle : xs.length * n ≤ bits.length := by
          rw [hlb]
          obtain ⟨k, hk⟩ : ∃ k, xs.length = k + 1 := ⟨xs.length - 1, by omega⟩
          rw [hk, Nat.add_sub_cancel, Nat.succ_mul]
          have := Nat.mul_le_mul_left k (Nat.le_add_right n (gapTo 8 n))
          omega
        have : ((xs.length * n : Nat) : Int) ≤ bits.length := by exact_mod_cast hle
        push_cast at this
        simp at hl
        simp
        omega

/-- The hypotheses are met by offsets 1, 3, 5 and a second offset array differing in its last entry. -/
example : (∃ w1, Array'.write (Traits.bitField 13) (ArrayCfg.offsetArray true) [2, 4, 6] [1, 8191, 5]
      (Writer.init.runAll [.bool true]) = (.ok (), w1)) ∧ ([2, 4, 7] : List Int)[2]? ≠ ([2, 4, 6] : List Int)[2]? :=
  ⟨⟨_, succeeds (by decide +kernel)⟩, by decide⟩

/-! ### C27 -/

/-- **C27.** Writing an array and reading it with the same configuration gives, element by element, what the elements read
back as, and consumes exactly the written bits (explicit length `size`, or the stored one; indexed offsets or not). -/
theorem C27_array_round_trip (tr : Traits α) (f : α → α) (cfg : ArrayCfg σ) (himp : cfg.isImplicit = false) (s : σ)
    (xs : List α) (hx : ∀ x ∈ xs, Appends (tr.write x) ∧ SizeExact tr x ∧ ∀ i, ReadsTo tr i x (f x))
    (w w1 : Writer) (hw : w.Reachable) (h : Array'.write tr cfg s xs w = (.ok (), w1))
    (size : Nat) (hsize : cfg.isAuto = false → size = xs.length) :
    ∀ later r, ReadsAt r (w1.runAll later).bytes w.pos w1.pos →
      Array'.read tr cfg s size r = (.ok (xs.map f), { r with pos := w1.pos }) := by
  obtain ⟨b0, rfl⟩ := hw.eq_ofBits
  obtain ⟨bits, rfl, hn, hwr⟩ := write_inv (fun x hm => (hx x hm).1) h
  rintro later r ⟨h1, h2, h3, h4⟩
  refine Zserio.read_after (P := fun r x => x = (.ok (xs.map f), { r with pos := (ofBits (b0 ++ (prefixBits cfg.isAuto
    xs.length ++ bits))).pos })) (mr := Array'.read tr cfg s size) ?_ later r h1 h2 h3 h4
  intro st r hwf hp hrest
  rw [parses_read (fun x hm => (hx x hm).2.1) himp hn hwr (readsList_same xs (fun x hm => (hx x hm).2.2) 0) st size hsize
    r hwf hp hrest, Reader.advance]
  simp [ofBits, hp]

/-- **C27**, implicit arrays: the length is not stored; reading takes all whole elements up to the end of the stream, so the
declared stream must end less than one element behind the array. -/
theorem C27_implicit_round_trip (tr : Traits α) (f : α → α) (cfg : ArrayCfg σ) (himp : cfg.isImplicit = true)
    (hauto : cfg.isAuto = false) (hchk : cfg.checkOffset = none) (n : Nat) (hc : tr.constSize = some n) (hn : 0 < n) (s : σ)
    (xs : List α) (hx : ∀ x ∈ xs, Appends (tr.write x) ∧ SizeExact tr x ∧ ∀ i, ReadsTo tr i x (f x))
    (w w1 : Writer) (hw : w.Reachable) (h : Array'.write tr cfg s xs w = (.ok (), w1)) (size : Nat) :
    ∀ later r, ReadsAt r (w1.runAll later).bytes w.pos w1.pos → r.bitsize < w1.pos + n →
      Array'.read tr cfg s size r = (.ok (xs.map f), { r with pos := w1.pos }) := by
  obtain ⟨b0, rfl⟩ := hw.eq_ofBits
  obtain ⟨bits, rfl, -, hwr⟩ := write_inv (fun x hm => (hx x hm).1) h
  rw [hauto, hchk] at hwr
  simp only [hauto, prefixBits, Bool.false_eq_true, if_false, List.append_nil, List.nil_append] at hwr ⊢
  rintro later r ⟨h1, h2, h3, h4⟩ h5
  refine Zserio.read_after (P := fun r x => r.bitsize < (ofBits (b0 ++ bits)).pos + n →
      x = (.ok (xs.map f), { r with pos := (ofBits (b0 ++ bits)).pos }))
    (mr := Array'.read tr cfg s size) ?_ later r h1 h2 h3 h4 h5
  intro st r hwf hp hrest h5
  have hl := Reader.rest_length r hwf
  rw [hrest] at hl
  have : st.length < n := by simp [ofBits] at hl h5; omega
  rw [parses_read_implicit (fun x hm => (hx x hm).2.1) himp hc hn hwr
    (readsList_same xs (fun x hm => (hx x hm).2.2) 0) st this size r hwf hp hrest, Reader.advance]
  simp [ofBits, hp]

/-- **C27** for the arrays of every built-in type: what is read back is `Builtin.stored` of the elements, i.e. the elements
themselves except for float precision and the unused bits of bit buffers. -/
theorem C27_builtin_round_trip (b : Builtin) (cfg : ArrayCfg σ) (himp : cfg.isImplicit = false) (s : σ)
    (xs : List b.Elem) (hx : ∀ x ∈ xs, b.Valid x)
    (w w1 : Writer) (hw : w.Reachable) (h : Array'.write b.traits cfg s xs w = (.ok (), w1))
    (size : Nat) (hsize : cfg.isAuto = false → size = xs.length) :
    ∀ later r, ReadsAt r (w1.runAll later).bytes w.pos w1.pos →
      Array'.read b.traits cfg s size r = (.ok (xs.map b.stored), { r with pos := w1.pos }) :=
  C27_array_round_trip b.traits b.stored cfg himp s xs
    (fun x hm => ⟨b.appends x (hx x hm), b.sizeExact x (hx x hm), b.readsTo x (hx x hm)⟩) w w1 hw h size hsize

/-- **C27** for implicit arrays of every built-in type of constant size (the compiler accepts no others). -/
theorem C27_builtin_implicit_round_trip (b : Builtin) (n : Nat) (hc : b.traits.constSize = some n) (hn : 0 < n)
    (xs : List b.Elem) (w w1 : Writer) (hw : w.Reachable)
    (h : Array'.write b.traits (ArrayCfg.plain false true) () xs w = (.ok (), w1)) (size : Nat) :
    ∀ later r, ReadsAt r (w1.runAll later).bytes w.pos w1.pos → r.bitsize < w1.pos + n →
      Array'.read b.traits (ArrayCfg.plain false true) () size r = (.ok (xs.map b.stored), { r with pos := w1.pos }) := by
  have hv : ∀ x : b.Elem, b.Valid x := by
    cases b <;> first | (intro x; trivial) | (simp [Builtin.traits, Traits.bitBuffer, Traits.simple] at hc)
  exact C27_implicit_round_trip b.traits b.stored (ArrayCfg.plain false true) rfl rfl rfl n hc hn () xs
    (fun x _ => ⟨b.appends x (hv x), b.sizeExact x (hv x), b.readsTo x (hv x)⟩) w w1 hw h size

/-- An auto array of strings, and an implicit array of 13 bit numbers followed by nothing but padding. -/
example : (∃ w1, Array'.write (Builtin.traits .string) (ArrayCfg.plain true false) () [[97, 98], [], [0x20AC]]
      (Writer.init.runAll [.bool true]) = (.ok (), w1)) ∧
    (∃ w1, Array'.write (Builtin.traits (.bitField 13)) (ArrayCfg.plain false true) () ([1, 8191, 5] : List Int)
      (Writer.init.runAll [.bool true]) = (.ok (), w1) ∧
      ReadsAt ⟨w1.bytes, 40, 1⟩ (w1.runAll []).bytes 1 w1.pos ∧ (40 : Int) < w1.pos + 13) :=
  ⟨⟨_, succeeds (by decide +kernel)⟩, ⟨_, succeeds (by decide +kernel), by unfold ReadsAt; decide +kernel, by decide +kernel⟩⟩

end Zserio
