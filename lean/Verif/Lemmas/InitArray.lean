import Verif.Lemmas.InitElem
set_option linter.unusedSimpArgs false
/-
Helper lemmas for `initialize_offsets`: arrays.
-/
namespace Zserio
open Writer Array'

theorem bitsToBytes_ok {p : Nat} {v : Int} (h : bitsToBytes (p : Int) = .ok v) : (p : Int) = bytesToBits v := by
  unfold bitsToBytes at h
  unfold bytesToBits
  split at h
  · simp at h
  · simp only [Except.ok.injEq] at h
    rename_i hp
    subst h
    simp only [Int.fdiv_eq_ediv_of_nonneg _ (show (0 : Int) ≤ 8 by omega), Int.fmod_eq_emod_of_nonneg _ (show (0 : Int) ≤ 8 by omega), ne_eq, Decidable.not_not] at hp ⊢
    omega

theorem setOffsetAt_ok {j i p : Nat} {s s1 : List Val} (h : setOffsetAt j i p s = .ok s1) :
    ∃ v os, (p : Int) = bytesToBits v ∧ s[j]? = some (.arr os) ∧ i < os.length ∧ s1 = s.set j (.arr (os.set i (.int v))) := by
  unfold setOffsetAt at h
  obtain ⟨v, hv, h⟩ := except_bind_ok h
  rcases hj : s[j]? with _ | x
  · rw [hj] at h; simp at h
  · rw [hj] at h
    simp only at h
    obtain ⟨os, hos, h⟩ := except_bind_ok h
    cases x <;> simp [Val.asArr] at hos
    subst hos
    split at h
    · rename_i hi
      exact ⟨v, _, bitsToBytes_ok hv, rfl, hi, (Except.ok.inj h).symm⟩
    · simp at h

theorem quietE_checkOffsetAt {j i p : Nat} {s : List Val} {os : List Val} {v : Int} (hs : s[j]? = some (.arr os))
    (ho : os[i]? = some (.int v)) (hv : (p : Int) = bytesToBits v) : checkOffsetAt j i p s = .ok () := by
  unfold checkOffsetAt
  rw [hs]
  simp only [Val.asArr, ok_bind]
  rw [ho]
  simp only [Val.asInt, ok_bind]
  rw [if_neg (by simpa using hv)]

theorem ends_writeCheck {o : Option Nat} {i p : Nat} {s : List Val}
    (h : ∀ j, o = some j → checkOffsetAt j i (align8 p) s = .ok ()) :
    Ends (writeCheck (o.map checkOffsetAt) i s) p (if o.isSome then align8 p else p) (fun _ => True) := by
  rcases o with _ | j
  · exact ends_pure trivial _
  · simp only [Option.map_some, writeCheck, Option.isSome_some, if_true]
    refine (ends_align8 p).bind fun _ _ => ends_get_bind fun w hw => ?_
    rw [hw, h j rfl]
    exact (ends_lift (quietE_ok _) _).mono fun _ _ => trivial

namespace Array'
variable {κ α : Type}

/-- one element: what changes (`R`), and that it can be written from where it starts to where it ends; `V` are the values it may
have when it is written -/
def InitStep (pt : PackedTraits κ α) (R V : α → α → Prop) (A : κ → κ → Prop) : Prop :=
  ∀ c p x e x1 c1, pt.initOffsets c p x = .ok (e, x1, c1) →
    R x x1 ∧ ∀ x' cw, V x1 x' → A cw c → Ends (pt.write cw x') p e (fun r => A r c1)

theorem loop_init {pt : PackedTraits κ α} {R V : α → α → Prop} {A : κ → κ → Prop} (hlaw : InitStep pt R V A) (o : Option Nat) :
    ∀ xs c p i s e xs1 s1, initOffsetsPackedLoop pt (o.map setOffsetAt) c p i xs s = .ok (e, xs1, s1) →
      List.Forall₂ R xs xs1 ∧ s1.length = s.length ∧ (∀ j, o ≠ some j → s1[j]? = s[j]?) ∧
      (∀ j os, o = some j → s[j]? = some (.arr os) →
        ∃ os1, s1[j]? = some (.arr os1) ∧ os1.length = os.length ∧ ∀ l, l < i → os1[l]? = os[l]?) ∧
      (∀ j v, o = some j → s[j]? = some v → s1[j]? = some v ∨ ∃ os, v = .arr os) ∧
      ∀ xs' s' cw, List.Forall₂ V xs1 xs' → (∀ j, o = some j → s'[j]? = s1[j]?) → A cw c →
        Ends (writePackedLoop pt (o.map checkOffsetAt) s' cw i xs') p e (fun _ => True)
  | [], c, p, i, s, e, xs1, s1, h => by
    simp only [initOffsetsPackedLoop, Except.ok.injEq, Prod.mk.injEq] at h
    obtain ⟨rfl, rfl, rfl⟩ := h
    refine ⟨.nil, rfl, fun _ _ => rfl, fun j os _ h => ⟨os, h, rfl, fun _ _ => rfl⟩, fun _ _ _ h => .inl h, ?_⟩
    intro xs' s' cw hf _ _
    cases hf
    exact ends_pure trivial _
  | x :: xs, c, p, i, s, e, xs1, s1, h => by
    simp only [initOffsetsPackedLoop] at h
    obtain ⟨⟨p2, s2⟩, h1, h⟩ := except_bind_ok h
    obtain ⟨⟨p3, x1, c3⟩, h2, h⟩ := except_bind_ok h
    obtain ⟨⟨e', xs1', s1'⟩, h3, h⟩ := except_bind_ok h
    simp only [Except.ok.injEq, Prod.mk.injEq] at h
    obtain ⟨rfl, rfl, rfl⟩ := h
    obtain ⟨g1, g2, g3, g4, g4', g5⟩ := loop_init hlaw o xs c3 p3 (i + 1) s2 e' xs1' s1' h3
    obtain ⟨k1, k2⟩ := hlaw _ _ _ _ _ _ h2
    rcases o with _ | j
    · simp only [Option.map_none, offsetStep, Except.ok.injEq, Prod.mk.injEq] at h1
      obtain ⟨rfl, rfl⟩ := h1
      refine ⟨.cons k1 g1, g2, g3, fun _ _ h => by simp at h, fun _ _ h => by simp at h, ?_⟩
      intro xs' s' cw hf hs ha
      cases hf with
      | cons hv hf =>
      simp only [writePackedLoop]
      refine (ends_writeCheck (o := none) (by simp)).bind fun _ _ => ?_
      exact (k2 _ _ hv ha).bind fun r hr => g5 _ _ _ hf hs hr
    · simp only [Option.map_some, offsetStep] at h1
      obtain ⟨s3, h1a, h1'⟩ := except_bind_ok h1
      simp only [Except.ok.injEq, Prod.mk.injEq] at h1'
      obtain ⟨rfl, rfl⟩ := h1'
      obtain ⟨v, os, q1, q2, q3, rfl⟩ := setOffsetAt_ok h1a
      have hj : j < s.length := by
        rcases Nat.lt_or_ge j s.length with h | h
        · exact h
        · rw [List.getElem?_eq_none h] at q2; simp at q2
      have hset : (s.set j (.arr (os.set i (.int v))))[j]? = some (.arr (os.set i (.int v))) := by
        simp [hj]
      obtain ⟨os1, r1, r2, r3⟩ := g4 j _ rfl hset
      refine ⟨.cons k1 g1, by simpa using g2, ?_, ?_, ?_, ?_⟩
      · intro l hl
        rw [g3 l hl]
        have : j ≠ l := fun h => hl (by rw [h])
        simp [this]
      · intro l os' hl hos'
        simp only [Option.some.injEq] at hl
        subst hl
        rw [q2] at hos'
        simp only [Option.some.injEq, Val.arr.injEq] at hos'
        subst hos'
        refine ⟨os1, r1, by simpa using r2, ?_⟩
        intro l hl
        rw [r3 l (by omega)]
        have : i ≠ l := by omega
        simp [this]
      · intro l v' hl hv'
        simp only [Option.some.injEq] at hl
        subst hl
        rw [q2] at hv'
        exact .inr ⟨os, (Option.some.inj hv').symm⟩
      · intro xs' s' cw hf hs ha
        cases hf with
        | cons hv hf =>
        simp only [writePackedLoop]
        refine (ends_writeCheck (o := some j) (p := p) ?_).bind fun _ _ => ?_
        · intro l hl
          simp only [Option.some.injEq] at hl
          subst hl
          refine quietE_checkOffsetAt (os := os1) (v := v) (by rw [hs j rfl, r1]) ?_ q1
          rw [r3 i (by omega)]
          simp [q3]
        · exact (k2 _ _ hv ha).bind fun r hr => g5 _ _ _ hf hs hr

/-- traits as packed traits without a context -/
def ofPlain (tr : Traits α) : PackedTraits Unit α where
  createContext := ()
  initContext := fun _ _ => .ok ()
  bitsizeof := fun _ p x => do
    let n ← tr.bitsizeof p x
    .ok (n, ())
  initOffsets := fun _ p x => do
    let (p, x) ← tr.initOffsets p x
    .ok (p, x, ())
  write := fun _ x => tr.write x
  read := fun _ i => do
    let x ← tr.read i
    pure (x, ())

theorem initOffsetsLoop_ofPlain {σ : Type} (tr : Traits α) (set : Option (Nat → Nat → σ → Except Err σ)) : ∀ xs p i s,
    initOffsetsLoop tr set p i xs s = initOffsetsPackedLoop (ofPlain tr) set () p i xs s
  | [], _, _, _ => rfl
  | x :: xs, p, i, s => by
    simp only [initOffsetsLoop, initOffsetsPackedLoop, ofPlain]
    rcases offsetStep set p i s with e | ⟨p2, s2⟩
    · rfl
    · simp only [ok_bind]
      rcases tr.initOffsets p2 x with e | ⟨p3, x3⟩
      · rfl
      · simp only [ok_bind]
        rw [initOffsetsLoop_ofPlain tr set xs]
        rfl

theorem writeLoop_ofPlain {σ : Type} (tr : Traits α) (chk : Option (Nat → Nat → σ → Except Err Unit)) (s : σ) : ∀ xs i,
    writeLoop tr chk s i xs = writePackedLoop (ofPlain tr) chk s () i xs
  | [], _ => rfl
  | x :: xs, i => by
    simp only [writeLoop, writePackedLoop, writeLoop_ofPlain tr chk s xs]
    rfl

theorem ends_writePrefix {isAuto : Bool} {p q n : Nat} (h : sizePrefix isAuto p n = .ok q) :
    Ends (writePrefix isAuto n) p q (fun _ => True) := by
  cases isAuto with
  | false =>
    simp only [sizePrefix, Bool.false_eq_true, if_false, Except.ok.injEq] at h
    subst h
    simp only [writePrefix, Bool.false_eq_true, if_false]
    exact ends_pure trivial _
  | true =>
    simp only [sizePrefix, if_true] at h
    obtain ⟨m, hm, h⟩ := except_bind_ok h
    simp only [Except.ok.injEq] at h
    subst h
    simp only [writePrefix, if_true]
    refine ends_traits (tr := Traits.var .varsize) (x := (n : Int)) (appends_varsize _) (sizeExact_var _ _) (quiet_writeVarsize _) ?_
    exact .inl hm

end Array'

/-- the offset field of the elements -/
def FieldDef.elemOffset (f : FieldDef) : Option Nat :=
  match f.offset with
  | some o => if o.indexed then some o.field else none
  | none => none

theorem FieldDef.arrayCfg_set (f : FieldDef) (a : ArrayDef) : (f.arrayCfg a).setOffset = f.elemOffset.map setOffsetAt := by
  unfold FieldDef.arrayCfg FieldDef.elemOffset
  rcases f.offset with _ | ⟨o, _ | _⟩ <;> rfl

theorem FieldDef.arrayCfg_check (f : FieldDef) (a : ArrayDef) : (f.arrayCfg a).checkOffset = f.elemOffset.map checkOffsetAt := by
  unfold FieldDef.arrayCfg FieldDef.elemOffset
  rcases f.offset with _ | ⟨o, _ | _⟩ <;> rfl

namespace Methods.InitLaw
variable {m : Methods} {same : Val → Val → Prop}

theorem plainStep (h : m.InitLaw same) : InitStep (ofPlain m.traits) same (fun x x' => x' = x) (fun _ _ => True) := by
  intro c p x e x1 c1 hi
  simp only [ofPlain, Methods.traits] at hi
  obtain ⟨⟨p2, x2⟩, hi2, hi'⟩ := except_bind_ok hi
  obtain ⟨⟨p3, x3, c3⟩, hi3, hi''⟩ := except_bind_ok hi2
  simp only [Except.ok.injEq, Prod.mk.injEq] at hi' hi''
  obtain ⟨rfl, rfl⟩ := hi''
  obtain ⟨rfl, rfl, _⟩ := hi'
  obtain ⟨g1, g2⟩ := h.init _ _ _ _ _ _ _ hi3
  refine ⟨g1, ?_⟩
  rintro x' cw rfl _
  simp only [ofPlain, Methods.traits]
  exact (g2 _ (Ctx.alike_refl _)).bind fun _ _ => ends_pure (by trivial) _

theorem packedStep (h : m.InitLaw same) : InitStep m.packedTraits same (fun x x' => x' = x) Ctx.Alike := by
  intro c p x e x1 c1 hi
  obtain ⟨g1, g2⟩ := h.init _ _ _ _ _ _ _ hi
  refine ⟨g1, ?_⟩
  rintro x' cw rfl ha
  exact g2 cw ha

theorem initContextLoop (h : m.InitLaw same) : ∀ {xs xs1 : List Val}, List.Forall₂ same xs xs1 → ∀ c,
    Array'.initContextLoop m.packedTraits c xs1 = Array'.initContextLoop m.packedTraits c xs
  | _, _, .nil, _ => rfl
  | _, _, .cons hx hf, c => by
    simp only [Array'.initContextLoop, Methods.packedTraits, h.packing _ _ _ _ hx]
    congr 1
    funext c
    exact h.initContextLoop hf c

end Methods.InitLaw

/-- fixed-size integers used as offsets: any values can be written in place of them -/
theorem fixedStep (n : Nat) : InitStep (ofPlain (intMethods (.bitField n)).traits) (fun x x' => x' = x) (fun _ _ => True) (fun _ _ => True) := by
  intro c p x e x1 c1 hi
  have : e = p + n ∧ x1 = x := by
    simp only [ofPlain, Methods.traits, intMethods, intSize, sizeUnpacked, IntKind.traits, Traits.bitField, Traits.simple, ok_bind, Except.ok.injEq, Prod.mk.injEq] at hi
    exact ⟨hi.1.symm, hi.2.1.symm⟩
  obtain ⟨rfl, rfl⟩ := this
  refine ⟨rfl, fun x' cw _ _ => ?_⟩
  simp only [ofPlain, Methods.traits]
  exact (ends_fixedInt n p _ x').bind fun _ _ => ends_pure (by trivial) _

theorem forall2_elementwise {R : Val → Val → Prop} : ∀ {xs xs' : List Val}, List.Forall₂ R xs xs' → ∀ i, Elementwise (fun _ => R) i xs xs'
  | _, _, .nil, _ => trivial
  | _, _, .cons h hf, i => ⟨h, forall2_elementwise hf (i + 1)⟩

theorem forall2_length {α : Type} {R : α → α → Prop} : ∀ {xs xs' : List α}, List.Forall₂ R xs xs' → xs.length = xs'.length
  | _, _, .nil => rfl
  | _, _, .cons _ hf => by simp [forall2_length hf]

theorem forall2_same (xs : List Val) : List.Forall₂ (fun x x' => x' = x) xs xs := by
  induction xs with
  | nil => exact .nil
  | cons x xs ih => exact .cons rfl ih

theorem forall2_any : ∀ {xs xs' : List Val}, xs'.length = xs.length → List.Forall₂ (fun _ _ => True) xs xs'
  | [], [], _ => .nil
  | x :: xs, x' :: xs', h => .cons trivial (forall2_any (by simpa using h))
  | [], _ :: _, h => by simp at h
  | _ :: _, [], h => by simp at h

/-- `initialize_offsets` of an array field, then `write` with the values `xs'` in an object whose offset array is the one
computed. -/
structure ArrayInit (f : FieldDef) (a : ArrayDef) (m : Methods) (mode : Mode) (R : Val → Val → Prop) (V : List Val → List Val → Prop)
    (p e : Nat) (xs xs1 s s1 : List Val) : Prop where
  same : List.Forall₂ R xs xs1
  length : s1.length = s.length
  kept : ∀ j, f.elemOffset ≠ some j → s1[j]? = s[j]?
  offsets : ∀ j v, f.elemOffset = some j → s[j]? = some v → ∃ v1, s1[j]? = some v1 ∧
    (v1 = v ∨ ∃ os os1, v = .arr os ∧ v1 = .arr os1 ∧ os1.length = os.length)
  ends : ∀ xs' s', V xs1 xs' → (∀ j, f.elemOffset = some j → s'[j]? = s1[j]?) →
    Ends (f.writeArray a m mode s' xs') p e (fun _ => True)

theorem offsets_of_loop {s s1 : List Val} {o : Option Nat} {i : Nat}
    (h1 : ∀ j os, o = some j → s[j]? = some (.arr os) →
        ∃ os1, s1[j]? = some (.arr os1) ∧ os1.length = os.length ∧ ∀ l, l < i → os1[l]? = os[l]?)
    (h2 : ∀ j v, o = some j → s[j]? = some v → s1[j]? = some v ∨ ∃ os, v = .arr os) :
    ∀ j v, o = some j → s[j]? = some v → ∃ v1, s1[j]? = some v1 ∧
      (v1 = v ∨ ∃ os os1, v = .arr os ∧ v1 = .arr os1 ∧ os1.length = os.length) := by
  intro j v hj hv
  rcases h2 j v hj hv with h | ⟨os, rfl⟩
  · exact ⟨v, h, .inl rfl⟩
  · obtain ⟨os1, g1, g2, _⟩ := h1 j os hj hv
    exact ⟨.arr os1, g1, .inr ⟨os, os1, rfl, rfl, g2⟩⟩

theorem plain_init {f : FieldDef} {a : ArrayDef} {m : Methods} {mode : Mode} {R V : Val → Val → Prop}
    (hlaw : InitStep (ofPlain m.traits) R V (fun _ _ => True)) (hp : f.arrayPacked a mode = false) {p e : Nat} {xs xs1 s s1 : List Val}
    (h : f.initOffsetsArray a m mode p xs s = .ok (e, xs1, s1)) :
    ArrayInit f a m mode R (List.Forall₂ V) p e xs xs1 s s1 := by
  unfold FieldDef.initOffsetsArray at h
  rw [hp, if_neg (by simp)] at h
  unfold Array'.initOffsets at h
  obtain ⟨q, hq, h⟩ := except_bind_ok h
  rw [f.arrayCfg_set, initOffsetsLoop_ofPlain] at h
  obtain ⟨g1, g2, g3, g4, g5, g6⟩ := loop_init hlaw f.elemOffset _ _ _ _ _ _ _ _ h
  refine ⟨g1, g2, fun j hj => g3 j hj, offsets_of_loop g4 g5, ?_⟩
  intro xs' s' hf hs
  unfold FieldDef.writeArray
  rw [hp, if_neg (by simp)]
  unfold Array'.write
  have hlen : xs'.length = xs.length := by rw [← forall2_length hf, forall2_length g1]
  rw [hlen, f.arrayCfg_check, writeLoop_ofPlain]
  exact (ends_writePrefix hq).bind fun _ _ => g6 _ _ _ hf hs trivial

theorem packed_init {f : FieldDef} {a : ArrayDef} {m : Methods} {mode : Mode} {same : Val → Val → Prop}
    (hm : m.InitLaw same) (hp : f.arrayPacked a mode = true) {p e : Nat} {xs xs1 s s1 : List Val}
    (h : f.initOffsetsArray a m mode p xs s = .ok (e, xs1, s1)) :
    ArrayInit f a m mode same (fun xs xs' => xs' = xs) p e xs xs1 s s1 := by
  unfold FieldDef.initOffsetsArray at h
  rw [hp, if_pos rfl] at h
  unfold Array'.initOffsetsPacked at h
  obtain ⟨q, hq, h⟩ := except_bind_ok h
  rcases xs with _ | ⟨x, xs⟩
  · rw [if_neg (by simp)] at h
    simp only [Except.ok.injEq, Prod.mk.injEq] at h
    obtain ⟨rfl, rfl, rfl⟩ := h
    refine ⟨.nil, rfl, fun _ _ => rfl, fun j v _ hv => ⟨v, hv, .inl rfl⟩, ?_⟩
    rintro xs' s' rfl _
    unfold FieldDef.writeArray
    rw [hp, if_pos rfl]
    unfold Array'.writePacked
    refine (ends_writePrefix hq).bind fun _ _ => ?_
    rw [if_neg (by simp)]
    exact ends_pure trivial _
  · rw [if_pos (by simp)] at h
    obtain ⟨c, hc, h⟩ := except_bind_ok h
    rw [f.arrayCfg_set] at h
    obtain ⟨g1, g2, g3, g4, g5, g6⟩ := loop_init hm.packedStep f.elemOffset _ _ _ _ _ _ _ _ h
    refine ⟨g1, g2, fun j hj => g3 j hj, offsets_of_loop g4 g5, ?_⟩
    rintro xs' s' rfl hs
    unfold FieldDef.writeArray
    rw [hp, if_pos rfl]
    unfold Array'.writePacked
    have hlen : xs'.length = (x :: xs).length := (forall2_length g1).symm
    rw [hlen, f.arrayCfg_check]
    refine (ends_writePrefix hq).bind fun _ _ => ?_
    rw [if_pos (by simp), hm.initContextLoop g1, hc]
    refine (ends_lift (quietE_ok c) _).bind fun c' hc' => ?_
    obtain rfl := Except.ok.inj hc'
    exact g6 _ _ _ (forall2_same _) hs (Ctx.alike_refl _)

end Zserio
