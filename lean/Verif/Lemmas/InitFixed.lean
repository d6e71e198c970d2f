import Verif.Lemmas.InitStruct
set_option linter.unusedSimpArgs false
/-
Helper lemmas for `initialize_offsets`: it does not change an object which can be written as it is.
-/
namespace Zserio
open Writer Array'

/-- whenever the write succeeds, the other pass succeeds too, ends at the same position, and the results are related -/
def Fix {α β : Type} (m : M Writer β) (ini : Nat → Except Err (Nat × α)) (Q : β → α → Prop) : Prop :=
  ∀ b0 a w', m (ofBits b0) = (.ok a, w') → ∃ bs x, w' = ofBits (b0 ++ bs) ∧ ini b0.length = .ok (b0.length + bs.length, x) ∧ Q a x

theorem fix_of_ends {α β : Type} {m : M Writer β} {ini : Nat → Except Err (Nat × α)} {Q : β → α → Prop}
    (h : ∀ b0 a w', m (ofBits b0) = (.ok a, w') → ∃ e x, ini b0.length = .ok (e, x) ∧ Ends m b0.length e (fun a => Q a x)) :
    Fix m ini Q := by
  intro b0 a w' hm
  obtain ⟨e, x, h1, h2⟩ := h b0 a w' hm
  obtain ⟨hq, bs, hw, he⟩ := (h2 b0 rfl).2 a w' hm
  exact ⟨bs, x, hw, by rw [h1, he], hq⟩

theorem unpacked_size (k : IntKind) {x : Int} {b0 : List Bool} {w' : Writer} {u : Unit}
    (h : k.traits.write x (ofBits b0) = (.ok u, w')) : ∃ n, DeltaContext.bitsizeofUnpacked k.traits x = .ok n := by
  obtain ⟨bs, rfl⟩ := (k.appends x) b0 u w' h
  obtain ⟨h1, h2⟩ := k.sizeExact x b0 bs h
  unfold DeltaContext.bitsizeofUnpacked
  rcases hc : k.traits.constSize with _ | n
  · refine ⟨bs.length, ?_⟩
    simp only
    rw [← h1]
    cases k <;> rfl
  · exact ⟨n, rfl⟩

theorem delta_size (k : IntKind) {x : Int} {d d' d1 : DeltaContext} (ha : DeltaContext.Alike d' d) {b0 : List Bool} {w' : Writer}
    (h : d'.write k.traits x (ofBits b0) = (.ok d1, w')) : ∃ q, d.bitsizeof k.traits x = .ok q := by
  obtain ⟨h1, h2, h3, h4, h5, h6⟩ := ha.fields
  have key : ∀ {d2 : DeltaContext} {b : List Bool}, d2.writeUnpacked k.traits x (ofBits b) = (.ok d1, w') →
      ∃ n, DeltaContext.bitsizeofUnpacked k.traits x = .ok n := by
    intro d2 b hw
    unfold DeltaContext.writeUnpacked at hw
    obtain ⟨u, w1, hw1, -⟩ := Writer.bind_inv hw
    exact unpacked_size k hw1
  unfold DeltaContext.write at h
  unfold DeltaContext.bitsizeof
  rw [h3] at h
  split at h
  · rename_i hs
    rw [if_pos hs]
    obtain ⟨u, w1, hw1, hw2⟩ := Writer.bind_inv h
    obtain ⟨-, bs, rfl, -⟩ := (DeltaContext.ends_descriptor _ b0.length b0 rfl).2 u w1 hw1
    obtain ⟨n, hn⟩ := key hw2
    rw [hn]
    exact ⟨_, rfl⟩
  · rename_i hs
    rw [if_neg hs]
    rw [h1] at h
    split at h
    · rename_i hp
      rw [if_pos hp]
      obtain ⟨n, hn⟩ := key h
      rw [hn]
      exact ⟨_, rfl⟩
    · rename_i hp
      rw [if_neg hp]
      exact ⟨_, rfl⟩

theorem int_size (k : IntKind) (mode : Mode) {x : Int} {c cw c1 : Ctx} (ha : Ctx.Alike cw c) {b0 : List Bool} {w' : Writer}
    (h : intWrite k mode cw x (ofBits b0) = (.ok c1, w')) : ∃ q, intSize k mode c b0.length (.int x) = .ok q := by
  cases mode with
  | none =>
    simp only [intWrite] at h
    obtain ⟨u, w1, hw1, -⟩ := Writer.bind_inv h
    obtain ⟨bs, rfl⟩ := (k.appends x) b0 u w1 hw1
    refine ⟨(bs.length, c), ?_⟩
    simp only [intSize]
    rw [sizeUnpacked_eq (proj := Val.asInt) (v := .int x) (x := x) rfl (k.sizeExact x) hw1]; rfl
  | some q =>
    simp only [intWrite, ctxWrite] at h
    obtain ⟨d, w1, hw1, -⟩ := Writer.bind_inv h
    obtain ⟨r, hr⟩ := delta_size k (ha q) hw1
    refine ⟨(r.1, c.update q r.2), ?_⟩
    simp only [intSize, Val.asInt, ok_bind, ctxBitsizeof]
    rw [hr]; rfl

/-- `initialize_offsets` of what can be written changes nothing -/
def Methods.Fixed (m : Methods) : Prop := ∀ mode cw c v, Ctx.Alike cw c →
  Fix (m.write mode cw v) (fun p => m.initOffsets mode c p v) (fun r q => q.1 = v ∧ Ctx.Alike r q.2)

/-- the same for the methods of a compound -/
def Codec.Fixed (k : Codec) : Prop := ∀ mode cw c v, Ctx.Alike cw c →
  Fix (k.write mode cw v) (fun p => k.initOffsets mode c p v) (fun r q => q.1 = v ∧ Ctx.Alike r q.2)

/-- methods which never change the value -/
theorem fixed_of_law {m : Methods} (hl : m.InitLaw (fun v v' => v' = v))
    (h : ∀ mode cw c v b0 a w', Ctx.Alike cw c → m.write mode cw v (ofBits b0) = (.ok a, w') → ∃ e x, m.initOffsets mode c b0.length v = .ok (e, x)) :
    m.Fixed := by
  intro mode cw c v ha
  refine fix_of_ends fun b0 a w' hw => ?_
  obtain ⟨e, ⟨x, c1⟩, h1⟩ := h mode cw c v b0 a w' ha hw
  obtain ⟨rfl, h3⟩ := hl.init _ _ _ _ _ _ _ h1
  exact ⟨e, (x, c1), h1, (h3 cw ha).mono fun r hr => ⟨rfl, hr⟩⟩

theorem fixed_int (k : IntKind) : (intMethods k).Fixed := by
  refine fixed_of_law (initLaw_int k) fun mode cw c v b0 a w' ha hw => ?_
  simp only [intMethods] at hw ⊢
  obtain ⟨x, hx, hw⟩ := lift_inv hw
  obtain rfl := asInt_ok hx
  obtain ⟨q, hq⟩ := int_size k mode ha hw
  rw [hq]
  exact ⟨_, _, rfl⟩

theorem fixed_bitmask (k : IntKind) : (bitmaskMethods k).Fixed := by
  refine fixed_of_law (initLaw_bitmask k) fun mode cw c v b0 a w' ha hw => ?_
  simp only [bitmaskMethods, bitmaskSize] at hw ⊢
  obtain ⟨x, hx, hw⟩ := lift_inv hw
  obtain rfl := asInt_ok hx
  obtain ⟨q, hq⟩ := int_size k mode ha hw
  simp only [Val.asInt, ok_bind, hq]
  exact ⟨_, _, rfl⟩

theorem fixed_enum (e : EnumDef) : (enumMethods e).Fixed := by
  refine fixed_of_law (initLaw_enum e) fun mode cw c v b0 a w' ha hw => ?_
  simp only [enumMethods, enumSize, enumWrite] at hw ⊢
  obtain ⟨x, hx, hw⟩ := lift_inv hw
  split at hw
  · simp at hw
  obtain ⟨q, hq⟩ := int_size e.underlying mode ha hw
  simp only [hx, ok_bind, hq]
  exact ⟨_, _, rfl⟩

theorem fixed_other (b : Builtin) : (otherMethods b).Fixed := by
  refine fixed_of_law (initLaw_other b) fun mode cw c v b0 a w' ha hw => ?_
  simp only [otherMethods] at hw ⊢
  obtain ⟨x, hx, hw⟩ := lift_inv hw
  have hv := builtin_proj_valid hx
  obtain ⟨u, w1, hw1, -⟩ := Writer.bind_inv hw
  obtain ⟨bs, rfl⟩ := (b.appends x hv) b0 u w1 hw1
  rw [sizeUnpacked_eq hx (b.sizeExact x hv) hw1]
  exact ⟨_, _, rfl⟩

theorem fixed_elem {codecs : Nat → Codec} (hk : ∀ id, (codecs id).Fixed) {env : Env} {ty : ElemType} {m : Methods}
    (h : ty.methods codecs env = .ok m) : m.Fixed := by
  cases ty with
  | int k =>
    simp only [ElemType.methods, Except.ok.injEq] at h
    subst h; exact fixed_int k
  | other b =>
    simp only [ElemType.methods, Except.ok.injEq] at h
    subst h; exact fixed_other b
  | dynBits signed len =>
    simp only [ElemType.methods] at h
    obtain ⟨n, _, h⟩ := except_bind_ok h
    obtain ⟨k, _, h⟩ := except_bind_ok h
    simp only [Except.ok.injEq] at h
    subst h; exact fixed_int k
  | enum e =>
    simp only [ElemType.methods, Except.ok.injEq] at h
    subst h; exact fixed_enum e
  | bitmask k =>
    simp only [ElemType.methods, Except.ok.injEq] at h
    subst h; exact fixed_bitmask k
  | compound id args =>
    simp only [ElemType.methods, Except.ok.injEq] at h
    subst h
    exact hk id

/-! ### Offsets -/

theorem bitsToBytes_bytesToBits {p : Nat} {o : Int} (h : (p : Int) = bytesToBits o) : bitsToBytes (p : Int) = .ok o := by
  unfold bytesToBits at h
  unfold bitsToBytes
  simp only [Int.fdiv_eq_ediv_of_nonneg _ (show (0 : Int) ≤ 8 by omega), Int.fmod_eq_emod_of_nonneg _ (show (0 : Int) ≤ 8 by omega)]
  rw [if_neg (by omega)]
  congr 1
  omega

theorem set_same {α : Type} {l : List α} {i : Nat} {a : α} (h : l[i]? = some a) : l.set i a = l := by
  apply List.ext_getElem?
  intro j
  by_cases hj : i = j
  · subst hj
    have : i < l.length := by
      rcases Nat.lt_or_ge i l.length with h' | h'
      · exact h'
      · rw [List.getElem?_eq_none h'] at h; cases h
    rw [List.getElem?_set_self this, h]
  · rw [List.getElem?_set_ne hj]

theorem setOffset_checked {j p : Nat} {s : List Val} (h : checkOffset j s p = .ok ()) : setOffset j s p = .ok s := by
  unfold checkOffset at h
  rcases hj : s[j]? with _ | v
  · rw [hj] at h; cases h
  · rw [hj] at h
    simp only at h
    obtain ⟨o, ho, h⟩ := except_bind_ok h
    split at h
    · cases h
    · rename_i hp
      obtain rfl := asInt_ok ho
      have hlt : j < s.length := by
        rcases Nat.lt_or_ge j s.length with h' | h'
        · exact h'
        · rw [List.getElem?_eq_none h'] at hj; cases hj
      unfold setOffset
      rw [bitsToBytes_bytesToBits (by simpa using hp), ok_bind, if_pos hlt, set_same hj]

theorem setOffsetAt_checked {j i p : Nat} {s : List Val} (h : checkOffsetAt j i p s = .ok ()) : setOffsetAt j i p s = .ok s := by
  unfold checkOffsetAt at h
  rcases hj : s[j]? with _ | v
  · rw [hj] at h; cases h
  · rw [hj] at h
    simp only at h
    obtain ⟨xs, hxs, h'⟩ := except_bind_ok h
    clear h
    rename' h' => h
    obtain rfl : v = .arr xs := by cases v <;> simp [Val.asArr] at hxs; rw [hxs]
    rcases hi : xs[i]? with _ | o
    · rw [hi] at h; cases h
    · rw [hi] at h
      simp only at h
      obtain ⟨o', ho, h⟩ := except_bind_ok h
      split at h
      · cases h
      · rename_i hp
        obtain rfl := asInt_ok ho
        have hlt : i < xs.length := by
          rcases Nat.lt_or_ge i xs.length with h' | h'
          · exact h'
          · rw [List.getElem?_eq_none h'] at hi; cases hi
        unfold setOffsetAt
        rw [bitsToBytes_bytesToBits (by simpa using hp), ok_bind, hj]
        simp only [Val.asArr, ok_bind]
        rw [if_pos hlt, set_same hi, set_same hj]

/-! ### Arrays -/

theorem fix_writeCheck (o : Option Nat) (i : Nat) (s : List Val) :
    Fix (writeCheck (o.map checkOffsetAt) i s) (fun p => offsetStep (o.map setOffsetAt) p i s) (fun _ s' => s' = s) := by
  intro b0 a w' hw
  rcases o with _ | j
  · simp only [Option.map_none, writeCheck, M.pure_apply, Prod.mk.injEq] at hw
    exact ⟨[], s, by simp [← hw.2], rfl, rfl⟩
  · simp only [Option.map_some, writeCheck] at hw
    obtain ⟨u, w1, hw1, hw2⟩ := Writer.bind_inv hw
    obtain ⟨-, bs, rfl, he⟩ := (ends_align8 b0.length b0 rfl).2 u w1 hw1
    rw [M.bind_ok (M.get_apply _)] at hw2
    simp only [M.lift_apply, Prod.mk.injEq] at hw2
    obtain ⟨hw2, rfl⟩ := hw2
    have hpos : (ofBits (b0 ++ bs)).pos = align8 b0.length := by
      rw [← he]; simp [ofBits]
    rw [hpos] at hw2
    refine ⟨bs, s, rfl, ?_, rfl⟩
    simp only [Option.map_some, offsetStep]
    rw [setOffsetAt_checked hw2, he]
    rfl

theorem fix_loop {κ α : Type} {pt : PackedTraits κ α} {A : κ → κ → Prop}
    (hp : ∀ cw c x, A cw c → Fix (pt.write cw x) (fun p => pt.initOffsets c p x) (fun r q => q.1 = x ∧ A r q.2)) (o : Option Nat) (s : List Val) :
    ∀ (xs : List α) (cw c : κ) (i : Nat), A cw c →
      Fix (writePackedLoop pt (o.map checkOffsetAt) s cw i xs) (fun p => initOffsetsPackedLoop pt (o.map setOffsetAt) c p i xs s)
        (fun _ q => q = (xs, s))
  | [], cw, c, i, ha => by
    intro b0 a w' hw
    simp only [writePackedLoop, M.pure_apply, Prod.mk.injEq] at hw
    exact ⟨[], _, by simp [← hw.2], rfl, rfl⟩
  | x :: xs, cw, c, i, ha => by
    intro b0 a w' hw
    simp only [writePackedLoop] at hw
    obtain ⟨u, w1, hw1, hw2⟩ := Writer.bind_inv hw
    obtain ⟨b1, s1, rfl, h1, rfl⟩ := fix_writeCheck o i s b0 u w1 hw1
    obtain ⟨c2, w2, hw3, hw4⟩ := Writer.bind_inv hw2
    obtain ⟨b2, ⟨x2, c3⟩, rfl, h2, rfl, ha2⟩ := hp cw c x ha _ _ _ hw3
    obtain ⟨b3, q, rfl, h3, rfl⟩ := fix_loop hp o s1 xs c2 c3 (i + 1) ha2 _ _ _ hw4
    try dsimp only at *
    refine ⟨b1 ++ b2 ++ b3, _, by simp, ?_, rfl⟩
    simp only [List.length_append] at h2 h3 ⊢
    simp only [initOffsetsPackedLoop]
    rw [h1]
    simp only [ok_bind]
    rw [h2]
    simp only [ok_bind]
    rw [h3]
    simp only [ok_bind, Nat.add_assoc]

theorem fix_writePrefix (isAuto : Bool) (n : Nat) : ∀ b0 a w', writePrefix isAuto n (ofBits b0) = (.ok a, w') →
    ∃ bs, w' = ofBits (b0 ++ bs) ∧ sizePrefix isAuto b0.length n = .ok (b0.length + bs.length) := by
  intro b0 a w' hw
  cases isAuto with
  | false =>
    simp only [writePrefix, Bool.false_eq_true, if_false, M.pure_apply, Prod.mk.injEq] at hw
    exact ⟨[], by simp [← hw.2], rfl⟩
  | true =>
    simp only [writePrefix, if_true] at hw
    obtain ⟨bs, rfl⟩ := appends_varsize (n : Int) _ _ _ hw
    have := (sizeExact_var .varsize (n : Int) b0 bs hw).1
    try dsimp only at *
    refine ⟨bs, rfl, ?_⟩
    simp only [sizePrefix, if_true]
    rw [show bitsizeofVarsize (n : Int) = .ok bs.length from this]
    rfl

theorem Methods.Fixed.plain {m : Methods} (h : m.Fixed) (cw c : Unit) (x : Val) (_ : True) :
    Fix ((ofPlain m.traits).write cw x) (fun p => (ofPlain m.traits).initOffsets c p x) (fun _ q => q.1 = x ∧ True) := by
  intro b0 a w' hw
  simp only [ofPlain, Methods.traits] at hw
  obtain ⟨r, w1, hw1, hw2⟩ := Writer.bind_inv hw
  simp only [M.pure_apply, Prod.mk.injEq] at hw2
  obtain ⟨-, rfl⟩ := hw2
  obtain ⟨bs, ⟨x2, c2⟩, h1, h2, h3, -⟩ := h none Ctx.empty Ctx.empty x (Ctx.alike_refl _) _ _ _ hw1
  try dsimp only at *
  refine ⟨bs, (x2, ()), h1, ?_, h3, trivial⟩
  simp only [ofPlain, Methods.traits]
  rw [h2]
  rfl

namespace FieldDef
variable {f : FieldDef} {codecs : Nat → Codec}

theorem fix_array (f : FieldDef) (a : ArrayDef) {m : Methods} (h : m.Fixed) (mode : Mode) (fields xs : List Val) :
    Fix (f.writeArray a m mode fields xs) (fun p => f.initOffsetsArray a m mode p xs fields) (fun _ q => q = (xs, fields)) := by
  intro b0 u w' hw
  unfold writeArray at hw
  unfold initOffsetsArray
  split at hw
  · rename_i hp
    simp only [hp, if_true]
    unfold writePacked at hw
    unfold initOffsetsPacked
    obtain ⟨u1, w1, hw1, hw2⟩ := Writer.bind_inv hw
    obtain ⟨b1, rfl, h1⟩ := fix_writePrefix _ _ _ _ _ hw1
    rw [h1]
    simp only [ok_bind]
    split at hw2
    · rename_i hx
      simp only [hx, if_true]
      obtain ⟨c, hc, hw3⟩ := lift_inv hw2
      rw [f.arrayCfg_check] at hw3
      obtain ⟨b2, q, rfl, h2, rfl⟩ := fix_loop (pt := m.packedTraits) (A := Ctx.Alike) (fun cw c x ha => h _ cw c x ha) f.elemOffset fields xs c c 0
        (Ctx.alike_refl _) _ _ _ hw3
      try dsimp only at *
      refine ⟨b1 ++ b2, _, by simp, ?_, rfl⟩
      rw [hc, f.arrayCfg_set]
      simp only [ok_bind, List.length_append] at h2 ⊢
      rw [h2]
      simp only [Nat.add_assoc]
    · rename_i hx
      beta_reduce
      rw [if_neg hx]
      simp only [M.pure_apply, Prod.mk.injEq] at hw2
      exact ⟨b1, _, hw2.2.symm, rfl, rfl⟩
  · rename_i hp
    beta_reduce
    rw [if_neg hp]
    unfold Array'.write at hw
    unfold Array'.initOffsets
    obtain ⟨u1, w1, hw1, hw2⟩ := Writer.bind_inv hw
    obtain ⟨b1, rfl, h1⟩ := fix_writePrefix _ _ _ _ _ hw1
    rw [h1]
    simp only [ok_bind]
    rw [writeLoop_ofPlain, f.arrayCfg_check] at hw2
    obtain ⟨b2, q, rfl, h2, rfl⟩ := fix_loop (pt := ofPlain m.traits) (A := fun _ _ => True) (fun cw c x ha => h.plain cw c x ha) f.elemOffset
      fields xs () () 0 trivial _ _ _ hw2
    try dsimp only at *
    refine ⟨b1 ++ b2, _, by simp, ?_, rfl⟩
    rw [initOffsetsLoop_ofPlain, f.arrayCfg_set]
    simp only [List.length_append] at h2 ⊢
    rw [h2]
    simp only [Nat.add_assoc]

theorem fix_value (hk : ∀ id, (codecs id).Fixed) (f : FieldDef) (env : Env) (slot : Nat) (mode : Mode) {cw c : Ctx} (ha : Ctx.Alike cw c) (v : Val) :
    Fix (f.writeValue codecs env slot mode cw v) (fun p => f.initOffsetsValue codecs env slot mode c p v)
      (fun r q => q.1 = env.fields ∧ q.2.1 = v ∧ Ctx.Alike r q.2.2) := by
  intro b0 a w' hw
  unfold writeValue at hw
  unfold initOffsetsValue
  obtain ⟨m, hm, hw⟩ := lift_inv hw
  have hf := fixed_elem hk hm
  rw [hm]
  simp only [ok_bind]
  cases har : f.array with
  | none =>
    rw [har] at hw
    simp only at hw ⊢
    obtain ⟨bs, ⟨v2, c2⟩, h1, h2, rfl, h4⟩ := hf (f.fieldMode slot mode) cw c v ha _ _ _ hw
    try dsimp only at *
    refine ⟨bs, (env.fields, v2, c2), h1, ?_, rfl, rfl, h4⟩
    rw [h2]
    rfl
  | some ar =>
    rw [har] at hw
    simp only at hw ⊢
    obtain ⟨xs, hxs, hw⟩ := lift_inv hw
    obtain ⟨u, w1, hw1, hw2⟩ := Writer.bind_inv hw
    simp only [M.pure_apply, Prod.mk.injEq, Except.ok.injEq] at hw2
    obtain ⟨rfl, rfl⟩ := hw2
    obtain ⟨bs, q, h1, h2, rfl⟩ := fix_array f ar hf mode env.fields xs _ _ _ hw1
    try dsimp only at *
    refine ⟨bs, (env.fields, .arr xs, c), h1, ?_, rfl, ?_, ha⟩
    · rw [hxs]
      simp only [ok_bind]
      rw [h2]
      rfl
    · cases v <;> simp [Val.asArr] at hxs
      rw [hxs]

theorem fix_inner (hk : ∀ id, (codecs id).Fixed) (f : FieldDef) (env : Env) (slot : Nat) (mode : Mode) {cw c : Ctx} (ha : Ctx.Alike cw c) (v : Val) :
    Fix (f.writeInner codecs env slot mode cw v) (fun p => f.initOffsetsInner codecs env slot mode c p v)
      (fun r q => q.1 = env.fields ∧ q.2.1 = v ∧ Ctx.Alike r q.2.2) := by
  intro b0 a w' hw
  unfold writeInner at hw
  unfold initOffsetsInner
  obtain ⟨u1, w1, hw1, hw⟩ := Writer.bind_inv hw
  obtain ⟨-, b1, rfl, he1⟩ := (ends_writeAlign f b0.length b0 rfl).2 _ _ hw1
  obtain ⟨u2, w2, hw2, hw⟩ := Writer.bind_inv hw
  have hstep : ∃ b2, w2 = ofBits (b0 ++ b1 ++ b2) ∧ f.alignField b0.length = (b0 ++ b1 ++ b2).length ∧
      f.initOwnOffset env.fields (f.alignField b0.length) = .ok env.fields := by
    unfold writeOffset at hw2
    unfold initOwnOffset
    rcases ho : f.ownOffset with _ | o
    · rw [ho] at hw2
      simp only [M.pure_apply, Prod.mk.injEq] at hw2
      refine ⟨[], by simp [← hw2.2], ?_, rfl⟩
      simp [alignField, ho, he1]
    · rw [ho] at hw2
      simp only at hw2 ⊢
      obtain ⟨u3, w3, hw3, hw4⟩ := Writer.bind_inv hw2
      obtain ⟨-, b2, rfl, he2⟩ := (ends_align8 _ (b0 ++ b1) rfl).2 _ _ hw3
      rw [M.bind_ok (M.get_apply _)] at hw4
      simp only [M.lift_apply, Prod.mk.injEq] at hw4
      obtain ⟨hw4, rfl⟩ := hw4
      have hlen : f.alignField b0.length = (b0 ++ b1 ++ b2).length := by
        simp only [alignField, ho, Option.isSome_some, if_true]
        rw [List.length_append, he2, List.length_append, he1]
      try dsimp only at *
      refine ⟨b2, rfl, hlen, ?_⟩
      rw [hlen]
      exact setOffset_checked (by simpa [ofBits] using hw4)
  obtain ⟨b2, rfl, hlen, hown⟩ := hstep
  obtain ⟨u4, -, hw⟩ := lift_inv hw
  obtain ⟨b3, q, h1, h2, h3⟩ := fix_value hk f env slot mode ha v _ _ _ hw
  try dsimp only at *
  refine ⟨b1 ++ b2 ++ b3, q, by simpa using h1, ?_, h3⟩
  rw [hown]
  simp only [ok_bind]
  rw [hlen, h2]
  simp [Nat.add_assoc]

theorem fix_optional (hk : ∀ id, (codecs id).Fixed) (f : FieldDef) (env : Env) (slot : Nat) (mode : Mode) {cw c : Ctx} (ha : Ctx.Alike cw c) (v : Val) :
    Fix (f.writeOptional codecs env slot mode cw v) (fun p => f.initOffsetsOptional codecs env slot mode c p v)
      (fun r q => q.1 = env.fields ∧ q.2.1 = v ∧ Ctx.Alike r q.2.2) := by
  intro b0 a w' hw
  unfold writeOptional at hw
  unfold initOffsetsOptional
  obtain ⟨used, hu, hw⟩ := lift_inv hw
  obtain ⟨u1, w1, hw1, hw⟩ := Writer.bind_inv hw
  have hbit : ∃ b1, w1 = ofBits (b0 ++ b1) ∧ b1.length = f.autoBit := by
    unfold writeAutoBit at hw1
    unfold autoBit
    split at hw1
    · rename_i ho
      rw [ho] at hw1
      obtain ⟨-, b1, h1, h2⟩ := (DeltaContext.ends_bool used b0.length b0 rfl).2 _ _ hw1
      exact ⟨b1, h1, by omega⟩
    · rename_i hne
      have : w1 = ofBits b0 := by
        simp only [M.pure_apply, Prod.mk.injEq] at hw1
        exact hw1.2.symm
      exact ⟨[], by simp [this], rfl⟩
  obtain ⟨b1, rfl, hb1⟩ := hbit
  simp only [hu, ok_bind]
  split at hw
  · rename_i hused
    simp only [hused, if_true]
    obtain ⟨b2, q, h1, h2, h3⟩ := fix_inner hk f env slot mode ha v _ _ _ hw
    try dsimp only at *
    refine ⟨b1 ++ b2, q, by simpa using h1, ?_, h3⟩
    simp only [List.length_append, hb1] at h2 ⊢
    rw [h2]
    simp [Nat.add_assoc]
  · rename_i hused
    beta_reduce
    rw [if_neg hused]
    simp only [M.pure_apply, Prod.mk.injEq, Except.ok.injEq] at hw
    obtain ⟨rfl, rfl⟩ := hw
    exact ⟨b1, (env.fields, v, c), rfl, by simp [hb1], rfl, rfl, ha⟩

theorem fix_field (hk : ∀ id, (codecs id).Fixed) (f : FieldDef) (env : Env) (slot : Nat) (present : Bool) (mode : Mode) {cw c : Ctx}
    (ha : Ctx.Alike cw c) (v : Val) :
    Fix (f.write codecs env slot present mode cw v) (fun p => f.initOffsets codecs env slot present mode c p v)
      (fun r q => q.1 = env.fields ∧ q.2.1 = v ∧ Ctx.Alike r q.2.2) := by
  unfold FieldDef.write FieldDef.initOffsets
  split
  · split
    · intro b0 a w' hw
      obtain ⟨u1, w1, hw1, hw⟩ := Writer.bind_inv hw
      obtain ⟨-, b1, rfl, he1⟩ := (ends_align8 _ b0 rfl).2 _ _ hw1
      obtain ⟨b2, q, h1, h2, h3⟩ := fix_optional hk f env slot mode ha v _ _ _ hw
      try dsimp only at *
      refine ⟨b1 ++ b2, q, by simpa using h1, ?_, h3⟩
      simp only [List.length_append] at h2 ⊢
      rw [← he1, h2]
      simp [Nat.add_assoc]
    · intro b0 a w' hw
      simp only [M.pure_apply, Prod.mk.injEq, Except.ok.injEq] at hw
      obtain ⟨rfl, rfl⟩ := hw
      exact ⟨[], (env.fields, v, c), by simp, rfl, rfl, rfl, ha⟩
  · exact fix_optional hk f env slot mode ha v

end FieldDef

/-! ### Compounds -/

theorem fix_struct {codecs : Nat → Codec} (hk : ∀ id, (codecs id).Fixed) (params : List Int) (K base : Nat) (mode : Mode) :
    ∀ (fs : List FieldDef) (prior vs : List Val) (cw c : Ctx), Ctx.Alike cw c →
      Fix (Struct.write codecs params K base mode fs prior vs cw) (fun p => Struct.initOffsets codecs params K base mode fs prior vs c p)
        (fun r q => q.1 = prior ++ vs ∧ Ctx.Alike r q.2)
  | [], prior, [], cw, c, ha => by
    intro b0 a w' hw
    simp only [Struct.write, M.pure_apply, Prod.mk.injEq, Except.ok.injEq] at hw
    obtain ⟨rfl, rfl⟩ := hw
    exact ⟨[], (prior, c), by simp, rfl, by simp, ha⟩
  | [], _, _ :: _, cw, c, ha => by
    intro b0 a w' hw
    simp [Struct.write] at hw
  | _ :: _, _, [], cw, c, ha => by
    intro b0 a w' hw
    simp [Struct.write] at hw
  | f :: fs, prior, v :: vs, cw, c, ha => by
    intro b0 a w' hw
    simp only [Struct.write] at hw
    obtain ⟨c1, w1, hw1, hw2⟩ := Writer.bind_inv hw
    obtain ⟨b1, ⟨s, v1, c2⟩, rfl, h1, rfl, rfl, ha1⟩ := FieldDef.fix_field hk f _ _ _ mode ha v _ _ _ hw1
    obtain ⟨b2, ⟨vs2, c3⟩, rfl, h2, rfl, ha2⟩ := fix_struct hk params K base mode fs _ vs c1 c2 ha1 _ _ _ hw2
    try dsimp only at *
    refine ⟨b1 ++ b2, (s ++ [v1] ++ vs, c3), by rw [List.append_assoc], ?_, by simp, ha2⟩
    simp only [Struct.initOffsets]
    rw [h1]
    simp only [ok_bind, List.length_append] at h2 ⊢
    rw [h2]
    simp [Nat.add_assoc]

theorem fix_branch {codecs : Nat → Codec} (hk : ∀ id, (codecs id).Fixed) (f : Option FieldDef) (params : List Int) (slot : Nat)
    (mode : Mode) {cw c : Ctx} (ha : Ctx.Alike cw c) (v : Val) :
    Fix (Branch.write codecs f params slot mode cw v) (fun p => Branch.initOffsets codecs f params slot mode c p v)
      (fun r q => q.1 = v ∧ Ctx.Alike r q.2) := by
  intro b0 a w' hw
  cases f with
  | none =>
    simp only [Branch.write, M.pure_apply, Prod.mk.injEq, Except.ok.injEq] at hw
    obtain ⟨rfl, rfl⟩ := hw
    exact ⟨[], (v, c), by simp, rfl, rfl, ha⟩
  | some f =>
    obtain ⟨b1, ⟨s, v1, c2⟩, h0, h1, rfl, rfl, ha1⟩ := FieldDef.fix_field hk f _ _ _ mode ha v _ _ _ hw
    try dsimp only at *
    refine ⟨b1, (v1, c2), h0, ?_, rfl, ha1⟩
    simp only [Branch.initOffsets]
    rw [h1]
    rfl

theorem fixed_struct {codecs : Nat → Codec} (hk : ∀ id, (codecs id).Fixed) (fs : List FieldDef) : (Struct.codec codecs fs).Fixed := by
  intro mode cw c v ha b0 a w' hw
  simp only [Struct.codec] at hw ⊢
  split at hw
  · obtain ⟨bs, ⟨vs, c1⟩, h1, h2, rfl, h3⟩ := fix_struct hk _ _ _ mode fs [] _ cw c ha _ _ _ hw
    try dsimp only at *
    refine ⟨bs, (_, c1), h1, ?_, rfl, h3⟩
    rw [h2]
    rfl
  · simp at hw

theorem fixed_union {codecs : Nat → Codec} (hk : ∀ id, (codecs id).Fixed) (fs : List FieldDef) : (Union.codec codecs fs).Fixed := by
  intro mode cw c v ha b0 a w' hw
  simp only [Union.codec] at hw ⊢
  split at hw
  · rename_i ps k tag x
    obtain ⟨c1, w1, hw1, hw⟩ := Writer.bind_inv hw
    obtain ⟨⟨n, c2⟩, hn⟩ := int_size (.var .varsize) (Union.tagMode mode) ha hw1
    obtain ⟨ha1, b1, rfl, he1⟩ := (ends_intWrite (.var .varsize) (Union.tagMode mode) tag hn ha b0 rfl).2 _ _ hw1
    obtain ⟨f, hf, hw⟩ := lift_inv hw
    obtain ⟨b2, ⟨v2, c3⟩, rfl, h2, rfl, h3⟩ := fix_branch hk (some f) ps _ mode ha1 x _ _ _ hw
    try dsimp only at *
    refine ⟨b1 ++ b2, (_, c3), by simp, ?_, rfl, h3⟩
    rw [hn]
    simp only [ok_bind, hf]
    simp only [List.length_append, he1] at h2
    rw [h2]
    simp only [ok_bind, List.length_append, ← he1, Nat.add_assoc]
  · simp at hw

theorem fixed_choice {codecs : Nat → Codec} (hk : ∀ id, (codecs id).Fixed) (selector : Expr Int) (cases : List CaseDef)
    (default : Option (Option FieldDef)) : (Choice.codec codecs selector cases default).Fixed := by
  intro mode cw c v ha b0 a w' hw
  simp only [Choice.codec] at hw ⊢
  split at hw
  · rename_i ps k tag x
    obtain ⟨⟨f, slot⟩, hf, hw⟩ := lift_inv hw
    obtain ⟨b2, ⟨v2, c3⟩, rfl, h2, rfl, h3⟩ := fix_branch hk f ps _ mode ha x _ _ _ hw
    try dsimp only at *
    refine ⟨b2, (_, c3), rfl, ?_, rfl, h3⟩
    rw [hf]
    simp only [ok_bind]
    rw [h2]
    rfl
  · simp at hw

theorem schema_fixed (defs : Schema) : ∀ n id, (defs.codec n id).Fixed
  | 0, id => by
    intro mode cw c v ha b0 a w' hw
    simp [Schema.codec, Codec.limit] at hw
  | n + 1, id => by
    rw [Schema.codec]
    cases h : defs id with
    | struct fs => exact fixed_struct (schema_fixed defs n) fs
    | union fs => exact fixed_union (schema_fixed defs n) fs
    | choice s cs d => exact fixed_choice (schema_fixed defs n) s cs d

end Zserio
