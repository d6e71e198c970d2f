import Verif.Lemmas.Calls
import Verif.Lemmas.ReaderAny
import Verif.Props.Sizes
import Verif.Spec.Array
set_option linter.unusedSimpArgs false
/-
Helper lemmas on arrays: what writing a list of elements appends.
-/
namespace Zserio

theorem ok_bind {α β : Type} (a : α) (f : α → Except Err β) : (Except.ok a >>= f) = f a := rfl

/-- For examples: an outcome evaluated to success. -/
theorem succeeds {σ : Type} {x : Except Err Unit × σ} (h : x.1.isOk = true) : x = (.ok (), x.2) := by
  rcases x with ⟨_ | _, _⟩
  · cases h
  · rfl

theorem length_zeros (n : Nat) : (zeros n).length = n := by simp [zeros]

namespace Writer
variable {α β : Type}

theorem Emits.runs {m : M Writer α} {p : Nat} {bs : List Bool} {a : α} (h : Emits m p bs a) {b0 : List Bool}
    (hb : b0.length = p) : Runs m b0 bs a := h b0 hb

theorem Runs.bind {m : M Writer α} {f : α → M Writer β} {b0 bs bs' : List Bool} {a : α} {b : β}
    (h : Runs m b0 bs a) (h' : Runs (f a) (b0 ++ bs) bs' b) : Runs (m >>= f) b0 (bs ++ bs') b := by
  unfold Runs at *
  rw [M.bind_ok h, h', List.append_assoc]

theorem runs_pure (a : α) (b0 : List Bool) : Runs (pure a) b0 [] a := by simp [Runs]

theorem runs_lift {x : Except Err α} {a : α} (h : x = .ok a) (b0 : List Bool) : Runs (M.lift x) b0 [] a := by
  simp [Runs, h]

theorem runs_get_bind {f : Writer → M Writer β} {b0 bs : List Bool} {b : β} (h : Runs (f (ofBits b0)) b0 bs b) :
    Runs (M.get >>= f) b0 bs b := by
  unfold Runs at *
  rw [M.bind_ok (M.get_apply _), h]

theorem Runs.inj {m : M Writer α} {b0 bs bs' : List Bool} {a a' : α} (h : Runs m b0 bs a) (h' : Runs m b0 bs' a') :
    a = a' ∧ bs = bs' := by
  unfold Runs at *
  rw [h] at h'
  simp only [Prod.mk.injEq, Except.ok.injEq] at h'
  refine ⟨h'.1, ?_⟩
  have e := congrArg Writer.pos h'.2
  have hl : bs.length = bs'.length := by simp [ofBits] at e; exact e
  have hb := congrArg (fun w => bytesBits w.bytes) h'.2
  simp only [ofBits, bytesBits_packBits] at hb
  rw [List.append_assoc, List.append_assoc, List.append_cancel_left_eq] at hb
  exact (List.append_inj hb hl).1

theorem bind_inv {m : M Writer α} {f : α → M Writer β} {w w' : Writer} {b : β}
    (h : (m >>= f) w = (.ok b, w')) : ∃ a w1, m w = (.ok a, w1) ∧ f a w1 = (.ok b, w') := by
  rw [M.bind_apply] at h
  rcases hm : m w with ⟨e | a, w1⟩
  · rw [hm] at h; simp at h
  · rw [hm] at h; exact ⟨a, w1, rfl, h⟩

theorem Appends.bind_inv {m : M Writer α} {f : α → M Writer β} (hm : Appends m) {b0 : List Bool} {w' : Writer} {b : β}
    (h : (m >>= f) (ofBits b0) = (.ok b, w')) :
    ∃ a bs, Runs m b0 bs a ∧ f a (ofBits (b0 ++ bs)) = (.ok b, w') := by
  obtain ⟨a, w1, h1, h2⟩ := Writer.bind_inv h
  obtain ⟨bs, rfl⟩ := hm _ _ _ h1
  exact ⟨a, bs, h1, h2⟩

theorem Appends.bind {m : M Writer α} {f : α → M Writer β} (hm : Appends m) (hf : ∀ a, Appends (f a)) :
    Appends (m >>= f) := by
  intro b0 b w' h
  obtain ⟨a, bs, _, h2⟩ := hm.bind_inv h
  obtain ⟨bs', rfl⟩ := hf a _ _ _ h2
  exact ⟨bs ++ bs', by rw [List.append_assoc]⟩

theorem appends_pure (a : α) : Appends (pure a : M Writer α) := by
  intro b0 a' w' h
  simp only [M.pure_apply, Prod.mk.injEq] at h
  exact ⟨[], by simp [← h.2]⟩

theorem appends_lift (x : Except Err α) : Appends (M.lift x : M Writer α) := by
  intro b0 a' w' h
  simp only [M.lift_apply, Prod.mk.injEq] at h
  exact ⟨[], by simp [← h.2]⟩

theorem appends_throw (e : Err) : Appends (M.throw e : M Writer α) := by
  intro b0 a' w' h
  simp at h

theorem appends_get_bind {f : Writer → M Writer β} (hf : ∀ w, Appends (f w)) : Appends (M.get >>= f) := by
  intro b0 b w' h
  rw [M.bind_ok (M.get_apply _)] at h
  exact hf _ _ _ _ h

theorem appends_ite {c : Prop} [Decidable c] {m m' : M Writer α} (h : Appends m) (h' : Appends m') :
    Appends (if c then m else m') := by split <;> assumption

/-- Every public call only appends. -/
theorem appends_call (c : WCall) : Appends c.run := by
  intro b0 a w' h
  have := c.run_ofBits b0
  rw [h] at this
  exact ⟨_, this⟩

theorem appends_alignto (a : Nat) : Appends (Writer.alignto a) := appends_call (.alignto a)
theorem appends_varsize (v : Int) : Appends (Writer.writeVarsize v) := appends_call (.var .varsize v)

/-- A method that reaches its result through public calls only appends. -/
theorem appends_of_calls {m : M Writer α}
    (h : ∀ w a w', m w = (.ok a, w') → ∃ calls, w' = w.runAll calls) : Appends m := by
  intro b0 a w' hm
  obtain ⟨cs, rfl⟩ := h _ _ _ hm
  obtain ⟨ext, he⟩ := specStream_prefix b0 cs
  exact ⟨ext, by rw [runAll_ofBits, he]⟩

end Writer

/-- Two ways to write "the rest of an aligned position". -/
theorem align8_eq (p : Nat) : Array'.align8 p = p + gapTo 8 p := by
  unfold Array'.align8 alignTo gapTo
  by_cases h : (p : Int) ≤ 0
  · have : p = 0 := by omega
    subst this; simp
  · rw [if_neg (by omega), Int.fdiv_eq_ediv_of_nonneg _ (by norm_num)]
    omega

namespace Array'
open Writer
variable {σ α : Type}

/-- Bits skipped before an element at position `p`. -/
def gap (aligned : Bool) (p : Nat) : Nat := if aligned then gapTo 8 p else 0

/-- The elements `xs` (the first with index `i`) have been written after `b0`, giving the bits `bits`. -/
inductive Wrote (tr : Traits α) (chk : Option (Nat → Nat → σ → Except Err Unit)) (s : σ) :
    List Bool → Nat → List α → List Bool → Prop
  | nil (b0 : List Bool) (i : Nat) : Wrote tr chk s b0 i [] []
  | cons {b0 : List Bool} {i : Nat} {x : α} {xs : List α} {bs rest : List Bool}
      (hchk : ∀ c, chk = some c → c i (b0.length + gap chk.isSome b0.length) s = .ok ())
      (hx : Runs (tr.write x) (b0 ++ zeros (gap chk.isSome b0.length)) bs ())
      (hxs : Wrote tr chk s (b0 ++ zeros (gap chk.isSome b0.length) ++ bs) (i + 1) xs rest) :
      Wrote tr chk s b0 i (x :: xs) (zeros (gap chk.isSome b0.length) ++ (bs ++ rest))

theorem runs_writeCheck (chk : Option (Nat → Nat → σ → Except Err Unit)) (i : Nat) (s : σ) (b0 : List Bool)
    (h : ∀ c, chk = some c → c i (b0.length + gap chk.isSome b0.length) s = .ok ()) :
    Runs (writeCheck chk i s) b0 (zeros (gap chk.isSome b0.length)) () := by
  cases chk with
  | none => simpa [writeCheck, gap, zeros] using runs_pure () b0
  | some c =>
    simp only [writeCheck, gap, Option.isSome_some, if_true]
    have ha := (emits_alignto 8 b0.length (by omega)).runs (b0 := b0) rfl
    have := ha.bind (f := fun _ => M.get >>= fun w => M.lift (c i w.pos s)) (bs' := []) (b := ())
      (runs_get_bind (runs_lift (by
        have := h c rfl
        simpa [gap, ofBits, gapTo, alignGap, zeros] using this) _))
    simpa [gapTo, alignGap] using this

theorem appends_writeCheck (chk : Option (Nat → Nat → σ → Except Err Unit)) (i : Nat) (s : σ) :
    Appends (writeCheck chk i s) := by
  cases chk with
  | none => exact appends_pure ()
  | some c => exact (appends_alignto 8).bind (fun _ => appends_get_bind (fun _ => appends_lift _))

/-- Success of the check: the gap is skipped and the check passed. -/
theorem writeCheck_inv {chk : Option (Nat → Nat → σ → Except Err Unit)} {i : Nat} {s : σ} {b0 bs : List Bool}
    (h : Runs (writeCheck chk i s) b0 bs ()) :
    bs = zeros (gap chk.isSome b0.length) ∧
      ∀ c, chk = some c → c i (b0.length + gap chk.isSome b0.length) s = .ok () := by
  cases chk with
  | none =>
    refine ⟨?_, by simp⟩
    have h2 := runs_pure () b0
    simpa [gap, zeros] using (Runs.inj h h2).2
  | some c =>
    have ha := (emits_alignto 8 b0.length (by omega)).runs (b0 := b0) rfl
    have hc : c i (b0.length + gap (some c).isSome b0.length) s = .ok () := by
      unfold Runs at h ha
      rw [writeCheck, M.bind_ok ha, M.bind_ok (M.get_apply _), M.lift_apply] at h
      simp only [Prod.mk.injEq] at h
      simpa [gap, ofBits, gapTo, alignGap, zeros] using h.1
    refine ⟨?_, by rintro c' ⟨⟩; exact hc⟩
    have h2 := runs_writeCheck (some c) i s b0 (by rintro c' ⟨⟩; exact hc)
    exact (Runs.inj h h2).2

theorem runs_writeLoop {tr : Traits α} {chk : Option (Nat → Nat → σ → Except Err Unit)} {s : σ} {b0 bits : List Bool}
    {i : Nat} {xs : List α} (h : Wrote tr chk s b0 i xs bits) : Runs (writeLoop tr chk s i xs) b0 bits () := by
  induction h with
  | nil b0 i => exact runs_pure _ _
  | cons hchk hx _ ih => exact (runs_writeCheck _ _ _ _ hchk).bind (hx.bind ih)

theorem wrote_of_writeLoop {tr : Traits α} {chk : Option (Nat → Nat → σ → Except Err Unit)} {s : σ}
    {xs : List α} (ht : ∀ x ∈ xs, Appends (tr.write x)) : ∀ {b0 : List Bool} {i : Nat} {w' : Writer},
    writeLoop tr chk s i xs (ofBits b0) = (.ok (), w') →
    ∃ bits, w' = ofBits (b0 ++ bits) ∧ Wrote tr chk s b0 i xs bits := by
  induction xs with
  | nil =>
    intro b0 i w' h
    simp only [writeLoop, M.pure_apply, Prod.mk.injEq] at h
    exact ⟨[], by simp [← h.2], .nil _ _⟩
  | cons x xs ih =>
    intro b0 i w' h
    rw [writeLoop] at h
    obtain ⟨_, g, h1, h2⟩ := (appends_writeCheck chk i s).bind_inv h
    obtain ⟨hg, hc⟩ := writeCheck_inv h1
    obtain ⟨_, bs, h3, h4⟩ := (ht x (by simp)).bind_inv h2
    obtain ⟨rest, rfl, h5⟩ := ih (fun y hy => ht y (by simp [hy])) h4
    subst hg
    exact ⟨_, by simp, .cons hc h3 h5⟩

theorem appends_writeLoop {tr : Traits α} (chk : Option (Nat → Nat → σ → Except Err Unit)) (s : σ)
    (xs : List α) (ht : ∀ x ∈ xs, Appends (tr.write x)) (i : Nat) : Appends (writeLoop tr chk s i xs) := by
  intro b0 a w' h
  obtain ⟨bits, h1, _⟩ := wrote_of_writeLoop ht h
  exact ⟨bits, h1⟩

theorem appends_writePrefix (isAuto : Bool) (n : Nat) : Appends (writePrefix isAuto n) :=
  appends_ite (appends_varsize _) (appends_pure _)

/-- The bits of the length of an array. -/
def prefixBits (isAuto : Bool) (n : Nat) : List Bool := if isAuto then VarType.varsize.encode n else []

theorem runs_writePrefix (isAuto : Bool) (n : Nat) (h : isAuto = true → n < 2 ^ 31) (b0 : List Bool) :
    Runs (writePrefix isAuto n) b0 (prefixBits isAuto n) () := by
  cases isAuto with
  | false => exact runs_pure _ _
  | true => exact (emits_writeVar .varsize n b0.length ((varsize_inRange_iff _).2 (h rfl))).runs rfl

theorem writePrefix_inv {isAuto : Bool} {n : Nat} {b0 bs : List Bool} (h : Runs (writePrefix isAuto n) b0 bs ()) :
    bs = prefixBits isAuto n ∧ (isAuto = true → n < 2 ^ 31) := by
  have hn : isAuto = true → n < 2 ^ 31 := by
    rintro rfl
    by_contra hc
    have := fails_writeVar .varsize n b0.length (fun h => hc ((varsize_inRange_iff _).1 h)) b0 rfl
    unfold Runs writePrefix at h
    rw [if_pos rfl] at h
    rw [show Writer.writeVarsize (n : Int) = Writer.writeVar .varsize n from rfl, this] at h
    simp at h
  exact ⟨(Runs.inj h (runs_writePrefix isAuto n hn b0)).2, hn⟩

/-- A successful `write` of an array. -/
theorem write_inv {tr : Traits α} {cfg : ArrayCfg σ} {s : σ} {xs : List α} (ht : ∀ x ∈ xs, Appends (tr.write x))
    {b0 : List Bool} {w' : Writer} (h : write tr cfg s xs (ofBits b0) = (.ok (), w')) :
    ∃ bits, w' = ofBits (b0 ++ (prefixBits cfg.isAuto xs.length ++ bits)) ∧
      (cfg.isAuto = true → xs.length < 2 ^ 31) ∧
      Wrote tr cfg.checkOffset s (b0 ++ prefixBits cfg.isAuto xs.length) 0 xs bits := by
  rw [write] at h
  obtain ⟨_, bs, h1, h2⟩ := (appends_writePrefix cfg.isAuto xs.length).bind_inv h
  obtain ⟨rfl, hn⟩ := writePrefix_inv h1
  obtain ⟨bits, rfl, h3⟩ := wrote_of_writeLoop ht h2
  exact ⟨bits, by simp, hn, h3⟩

theorem runs_write {tr : Traits α} {cfg : ArrayCfg σ} {s : σ} {xs : List α} {b0 bits : List Bool}
    (hn : cfg.isAuto = true → xs.length < 2 ^ 31)
    (h : Wrote tr cfg.checkOffset s (b0 ++ prefixBits cfg.isAuto xs.length) 0 xs bits) :
    Runs (write tr cfg s xs) b0 (prefixBits cfg.isAuto xs.length ++ bits) () :=
  (runs_writePrefix _ _ hn b0).bind (runs_writeLoop h)

/-! ### Sizes -/

theorem sizePrefix_eq {isAuto : Bool} {n : Nat} (hn : isAuto = true → n < 2 ^ 31) (p : Nat) :
    sizePrefix isAuto p n = .ok (p + (prefixBits isAuto n).length) := by
  cases isAuto with
  | false => simp [sizePrefix, prefixBits]
  | true =>
    have h := (varsize_inRange_iff n).2 (hn rfl)
    simp only [sizePrefix, prefixBits, if_true]
    rw [show bitsizeofVarsize (n : Int) = bitsizeofVar .varsize n from rfl, bitsizeofVar_inRange _ _ h]
    rfl

theorem sizePrefix_ok {isAuto : Bool} {p n q : Nat} (h : sizePrefix isAuto p n = .ok q) :
    isAuto = true → n < 2 ^ 31 := by
  rintro rfl
  by_contra hc
  have := bitsizeofVar_outOfRange .varsize n (fun h => hc ((varsize_inRange_iff _).1 h))
  simp only [sizePrefix, if_true] at h
  rw [show bitsizeofVarsize (n : Int) = bitsizeofVar .varsize n from rfl, this] at h
  cases h

theorem bitsizeofLoop_eq {tr : Traits α} {xs : List α} (he : ∀ x ∈ xs, SizeExact tr x) {chk : Option (Nat → Nat → σ → Except Err Unit)} {s : σ}
    {b0 bits : List Bool} {i : Nat} (h : Wrote tr chk s b0 i xs bits) :
    bitsizeofLoop tr chk.isSome b0.length xs = .ok (b0.length + bits.length) := by
  induction h with
  | nil b0 i => simp [bitsizeofLoop]
  | @cons b0 i x xs bs rest hchk hx hxs ih =>
    rw [bitsizeofLoop]
    have hp : (if chk.isSome = true then align8 b0.length else b0.length) =
        (b0 ++ zeros (gap chk.isSome b0.length)).length := by
      simp only [gap, List.length_append, length_zeros]
      split
      · exact align8_eq _
      · simp
    rw [hp, (he _ (by simp) _ _ hx).1]
    simp only [ok_bind]
    rw [← List.length_append, ih (fun y hy => he y (by simp [hy]))]
    simp; omega

theorem const_length {tr : Traits α} {xs : List α} (he : ∀ x ∈ xs, SizeExact tr x) {n : Nat} (hn : tr.constSize = some n)
    {chk : Option (Nat → Nat → σ → Except Err Unit)} {s : σ}
    {b0 bits : List Bool} {i : Nat} (h : Wrote tr chk s b0 i xs bits) (h0 : 0 < xs.length) :
    bits.length = if chk.isSome then gapTo 8 b0.length + (n + (xs.length - 1) * align8 n) else xs.length * n := by
  induction h with
  | nil b0 i => simp at h0
  | @cons b0 i x xs bs rest hchk hx hxs ih =>
    have hb := (he _ (by simp) _ _ hx).2 n hn
    cases hxs with
    | nil =>
      simp only [gap]
      split <;> simp [hb]
    | @cons _ _ y ys bs' rest' hchk' hy hys =>
      have := ih (fun y hy => he y (by simp at hy ⊢; tauto)) (by simp)
      simp only [List.length_append, List.length_cons, length_zeros, hb, Nat.add_sub_cancel] at this ⊢
      rw [this]
      simp only [gap]
      cases hs : chk.isSome
      · simp
        ring
      · simp only [if_true]
        rw [align8_eq n, Nat.succ_mul]
        have : gapTo 8 (b0.length + gapTo 8 b0.length + n) = gapTo 8 n := by unfold gapTo; omega
        rw [this]
        ring

/-- The predicted size of an array is the number of bits written. -/
theorem bitsizeof_eq {tr : Traits α} {xs : List α} (he : ∀ x ∈ xs, SizeExact tr x) {cfg : ArrayCfg σ} {s : σ}
    (hcfg : cfg.setOffset.isSome = cfg.checkOffset.isSome) {b0 bits : List Bool}
    (hn : cfg.isAuto = true → xs.length < 2 ^ 31)
    (h : Wrote tr cfg.checkOffset s (b0 ++ prefixBits cfg.isAuto xs.length) 0 xs bits) :
    bitsizeof tr cfg b0.length xs = .ok (prefixBits cfg.isAuto xs.length ++ bits).length := by
  have hloop := bitsizeofLoop_eq he h
  rw [List.length_append] at hloop
  have helem : bitsizeofElements tr cfg.setOffset.isSome (b0.length + (prefixBits cfg.isAuto xs.length).length) xs =
      .ok (b0.length + (prefixBits cfg.isAuto xs.length).length + bits.length) := by
    rw [hcfg]
    unfold bitsizeofElements
    rcases hc : tr.constSize with _ | n
    · exact hloop
    · simp only
      by_cases h0 : xs.length > 0
      · rw [if_pos h0]
        have hl := const_length he hc h h0
        rw [List.length_append] at hl
        cases hs : cfg.checkOffset.isSome
        · rw [hs] at hl
          simp only [Bool.false_eq_true, if_false] at hl
          simp [hl]
        · rw [hs] at hl
          simp only [if_true] at hl
          simp only [Bool.not_true, Bool.false_eq_true, if_false, align8_eq, hl]
          congr 1; omega
      · rw [if_neg h0]; exact hloop
  unfold bitsizeof
  rw [sizePrefix_eq hn, ok_bind, helem, ok_bind, List.length_append]
  congr 1; omega

/-! ### Reading back -/

/-- Element by element. -/
def ReadsList (tr : Traits α) : Nat → List α → List α → Prop
  | _, [], [] => True
  | i, x :: xs, x' :: xs' => ReadsTo tr i x x' ∧ ReadsList tr (i + 1) xs xs'
  | _, _, _ => False

theorem readsList_same {tr : Traits α} {f : α → α} (xs : List α) (h : ∀ x ∈ xs, ∀ i, ReadsTo tr i x (f x)) (i : Nat) :
    ReadsList tr i xs (xs.map f) := by
  induction xs generalizing i with
  | nil => trivial
  | cons x xs ih => exact ⟨h x (by simp) i, ih (fun y hy => h y (by simp [hy])) _⟩

theorem parses_readCheck (chk : Option (Nat → Nat → σ → Except Err Unit)) (i : Nat) (st : σ) (p : Nat) (s : List Bool)
    (h : ∀ c, chk = some c → c i (p + gap chk.isSome p) st = .ok ()) :
    Reader.Parses (readCheck chk i st) p (zeros (gap chk.isSome p)) s () := by
  cases chk with
  | none => simpa [readCheck, gap, zeros] using Reader.parses_pure () p s
  | some c =>
    simp only [readCheck, gap, Option.isSome_some, if_true]
    have h1 := Reader.parses_alignto 8 p (by omega) s (zeros (gapTo 8 p)) (by simp [gapTo, alignGap])
    intro r hr hp hrest
    rw [M.bind_ok (show Reader.alignto 8 r = _ from h1 r hr hp hrest), M.bind_ok (M.get_apply _), M.lift_apply]
    have := h c rfl
    simp only [gap, Option.isSome_some, if_true] at this
    simp [hp, this]

theorem parses_readLoop {tr : Traits α} {chk : Option (Nat → Nat → σ → Except Err Unit)} {st : σ}
    {b0 bits : List Bool} {i : Nat} {xs xs' : List α} (h : Wrote tr chk st b0 i xs bits)
    (hr : ReadsList tr i xs xs') (s : List Bool) :
    Reader.Parses (readLoop tr chk st i xs.length) b0.length bits s xs' := by
  induction h generalizing xs' with
  | nil b0 i =>
    cases xs' with
    | nil => exact Reader.parses_pure _ _ _
    | cons _ _ => exact hr.elim
  | @cons b0 i x xs bs rest hchk hx hxs ih =>
    cases xs' with
    | nil => exact hr.elim
    | cons x' xs' =>
      obtain ⟨h1, h2⟩ := hr
      rw [List.length_cons, readLoop]
      refine Reader.Parses.bind (parses_readCheck chk i st b0.length _ hchk) ?_
      have hp := h1 _ _ hx (rest ++ s)
      rw [List.length_append] at hp
      refine Reader.Parses.bind hp ?_
      have := ih h2
      simp only [List.length_append] at this
      exact Reader.Parses.map this

/-- Reading back an array with an explicit or stored length. -/
theorem parses_read {tr : Traits α} {xs xs' : List α} (he : ∀ x ∈ xs, SizeExact tr x) {cfg : ArrayCfg σ} {st : σ} (himp : cfg.isImplicit = false)
    {b0 bits : List Bool}
    (hn : cfg.isAuto = true → xs.length < 2 ^ 31)
    (h : Wrote tr cfg.checkOffset st (b0 ++ prefixBits cfg.isAuto xs.length) 0 xs bits)
    (hr : ReadsList tr 0 xs xs') (s : List Bool) (size : Nat) (hsize : cfg.isAuto = false → size = xs.length) :
    Reader.Parses (read tr cfg st size) b0.length (prefixBits cfg.isAuto xs.length ++ bits) s xs' := by
  unfold read
  rw [if_neg (by simp [himp])]
  refine Reader.Parses.bind (a := xs.length) ?_ ?_
  · unfold prefixBits readSize
    cases ha : cfg.isAuto
    · simp only [hsize ha]
      exact Reader.parses_pure _ _ _
    · exact Reader.parses_readVarsize _ _ _ ((varsize_inRange_iff _).2 (hn ha))
  · have hloop := parses_readLoop h hr s
    rw [List.length_append] at hloop
    rcases hc : tr.constSize with _ | n
    · exact hloop
    · intro r hwf hp hrest
      simp only
      rw [M.bind_ok (M.get_apply _), if_neg]
      · exact hloop r hwf hp hrest
      · have hlen := Reader.rest_length r hwf
        rw [hrest] at hlen
        have hle : xs.length * n ≤ bits.length := by
          by_cases h0 : 0 < xs.length
          · rw [const_length he hc h h0]
            split
            · rw [align8_eq]
              obtain ⟨k, hk⟩ : ∃ k, xs.length = k + 1 := ⟨xs.length - 1, by omega⟩
              rw [hk, Nat.add_sub_cancel, Nat.succ_mul]
              have := Nat.mul_le_mul_left k (Nat.le_add_right n (gapTo 8 n))
              omega
            · exact le_refl _
          · simp [show xs.length = 0 by omega]
        have : ((xs.length * n : Nat) : Int) ≤ bits.length := by exact_mod_cast hle
        push_cast at this
        simp at hlen
        omega

/-- Reading back an implicit array: the stream ends less than one element behind it. -/
theorem parses_read_implicit {tr : Traits α} {xs xs' : List α} (he : ∀ x ∈ xs, SizeExact tr x) {cfg : ArrayCfg σ} {st : σ}
    (himp : cfg.isImplicit = true) {n : Nat} (hc : tr.constSize = some n) (hn : 0 < n)
    {b0 bits : List Bool}
    (h : Wrote tr (none : Option (Nat → Nat → σ → Except Err Unit)) st b0 0 xs bits)
    (hr : ReadsList tr 0 xs xs') (s : List Bool) (hs : s.length < n) (size : Nat) :
    Reader.Parses (read tr cfg st size) b0.length bits s xs' := by
  intro r hwf hp hrest
  have hlen := Reader.rest_length r hwf
  unfold read
  rw [if_pos himp, hc]
  simp only
  rw [M.bind_ok (M.get_apply _), if_neg (by omega)]
  have hcount : (Int.fdiv (r.bitsize - r.pos) n).toNat = xs.length := by
    have hb : bits.length = xs.length * n := by
      by_cases h0 : 0 < xs.length
      · have := const_length he hc h h0
        simpa using this
      · have : xs = [] := List.length_eq_zero_iff.1 (by omega)
        subst this
        cases h; simp
    rw [← hlen, hrest, List.length_append, hb, Int.fdiv_eq_ediv_of_nonneg _ (by omega)]
    have : (xs.length * n + s.length) / n = xs.length := by
      rw [Nat.mul_comm, Nat.mul_add_div hn, Nat.div_eq_of_lt hs, Nat.add_zero]
    have h2 : (((xs.length * n + s.length : Nat) : Int) / (n : Int)) = ((xs.length : Nat) : Int) := by
      rw [← Int.natCast_div, this]
    rw [h2]; simp
  rw [hcount]
  exact parses_readLoop h hr s r hwf hp hrest

end Array'
end Zserio
