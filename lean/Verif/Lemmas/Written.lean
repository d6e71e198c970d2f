import Verif.Spec.Written
import Verif.Lemmas.ValidInv
set_option linter.unusedSimpArgs false
/-
What every written object satisfies.
-/
namespace Zserio
open Writer

theorem appends_signedUnchecked (v : Int) (n : Nat) : Appends (writeSignedBitsUnchecked v n) := by
  intro b0 a w' h
  by_cases hf : fitsSigned v n
  · have := emits_signedUnchecked v n b0.length hf b0 rfl
    rw [this] at h
    simp only [Prod.mk.injEq, Except.ok.injEq] at h
    exact ⟨_, h.2.symm⟩
  · obtain ⟨e, he⟩ := fails_signedUnchecked v n b0.length hf
    have := he b0 rfl
    rw [this] at h
    simp at h

theorem DeltaContext.appends_write (c : DeltaContext) (k : IntKind) (x : Int) : Appends (c.write k.traits x) := by
  have hu : ∀ c : DeltaContext, Appends (c.writeUnpacked k.traits x) := by
    intro c
    exact (k.appends x).bind fun _ => appends_pure _
  unfold DeltaContext.write
  refine appends_ite ?_ (appends_ite (hu c) ?_)
  · exact (DeltaContext.appends_writeDescriptor _).bind fun _ => hu _
  · split
    · exact appends_throw _
    · refine appends_ite ?_ (appends_pure _)
      exact (appends_signedUnchecked _ _).bind fun _ => appends_pure _

theorem intWrite_held (k : IntKind) (mode : Mode) (c : Ctx) (x : Int) :
    Inverts (intWrite k mode c x) fun _ => mode.isSome = false → k.InRange x := by
  cases mode with
  | none => exact (intWrite_inverts k c x).mono fun _ h _ => h
  | some path =>
    refine inverts_appends ?_ (by simp)
    exact (DeltaContext.appends_write _ k x).bind fun _ => appends_pure _

variable {codecs : Nat → Codec} {held : Bool → Nat → Val → Prop}

theorem ElemType.inverts_held (hk : ∀ id mode c v, Inverts ((codecs id).write mode c v) fun _ => held mode.isSome id v)
    {ty : ElemType} {env : Env} {m : Methods} (hm : ty.methods codecs env = .ok m) (mode : Mode) (c : Ctx) (v : Val) :
    Inverts (m.write mode c v) fun _ => ty.Held held env mode.isSome false v := by
  have hint : ∀ (k : IntKind) (P : Prop), (∀ x, v = .int x → (mode.isSome = false → k.InRange x) → P) →
      Inverts (M.lift v.asInt >>= fun x => intWrite k mode c x) fun _ => P := by
    intro k P h
    refine Inverts.bind (inverts_lift fun x hx => asInt_ok hx) fun x hx => ?_
    exact (intWrite_held k mode c x).mono fun _ hr => h x hx hr
  cases ty with
  | int k =>
    obtain rfl := Except.ok.inj hm
    exact hint k _ fun x h1 h2 => ⟨x, h1, h2, nofun⟩
  | bitmask k =>
    obtain rfl := Except.ok.inj hm
    exact hint k _ fun x h1 h2 => ⟨x, h1, h2, nofun⟩
  | dynBits signed length =>
    obtain ⟨n, h1, h2⟩ := except_bind_ok hm
    obtain ⟨k, h3, h4⟩ := except_bind_ok h2
    obtain rfl := Except.ok.inj h4
    exact hint k _ fun x e1 e2 => ⟨n, k, x, h1, h3, e1, by rintro (h | h); exacts [e2 h, nomatch h]⟩
  | enum e =>
    obtain rfl := Except.ok.inj hm
    show Inverts (enumWrite e mode c v) _
    unfold enumWrite
    refine Inverts.bind (P := fun x => v = .int x ∧ x ∈ e.items) (inverts_lift ?_) fun x hx => ?_
    · intro x hx
      unfold enumValue at hx
      obtain ⟨y, h1, h2⟩ := except_bind_ok hx
      split at h2
      · obtain rfl := Except.ok.inj h2
        exact ⟨asInt_ok h1, by assumption⟩
      · cases h2
    · split
      · exact inverts_throw _
      · rename_i hr
        exact (intWrite_held e.underlying mode c x).mono fun _ h => ⟨x, hx.1, hx.2, hr, h, nofun⟩
  | other b =>
    obtain rfl := Except.ok.inj hm
    refine Inverts.bind (inverts_lift fun x hx => hx) fun x hx => ?_
    exact (b.inverts hx).bind fun _ h => inverts_pure ⟨x, hx, h⟩
  | compound id args =>
    obtain rfl := Except.ok.inj hm
    exact hk id mode c v

/-! ### Fields -/

theorem writePackedLoop_inverts {m : Methods} {P : Val → Prop} {σ : Type} {chk : Option (Nat → Nat → σ → Except Err Unit)} {s : σ}
    {C : Nat → Prop} (h : ∀ c v, Inverts (m.write (some []) c v) fun _ => P v)
    (hc : ∀ i, Inverts (Array'.writeCheck chk i s) fun _ => C i) : ∀ (xs : List Val) (i : Nat) (c : Ctx),
    Inverts (Array'.writePackedLoop m.packedTraits chk s c i xs) fun _ => (∀ x ∈ xs, P x) ∧ ∀ j < xs.length, C (i + j)
  | [], i, c => inverts_pure ⟨by simp, by simp⟩
  | x :: xs, i, c => by
    unfold Array'.writePackedLoop
    refine Inverts.bind (hc i) fun _ hci => ?_
    refine Inverts.bind (h c x) fun c' hx => ?_
    refine (writePackedLoop_inverts h hc xs (i + 1) c').mono ?_
    rintro _ ⟨h1, h2⟩
    refine ⟨by simpa using ⟨hx, h1⟩, ?_⟩
    intro j hj
    cases j with
    | zero => exact hci
    | succ j =>
      have := h2 j (by simpa using hj)
      rwa [show i + (j + 1) = i + 1 + j by omega]

theorem writePrefix_inverts (auto : Bool) (n : Nat) : Inverts (Array'.writePrefix auto n) fun _ => auto = true → n < 2 ^ 31 := by
  intro b0 u w' hw
  obtain ⟨bs, rfl⟩ : ∃ bs, w' = ofBits (b0 ++ bs) := Array'.appends_writePrefix auto n _ _ _ hw
  exact ⟨(Array'.writePrefix_inv hw).2, bs, rfl⟩

namespace FieldDef
variable {f : FieldDef} {env : Env} {slot : Nat} {mode : Mode} {c : Ctx} {v : Val}

theorem fieldMode_isSome : (f.fieldMode slot mode).isSome = (f.packable && mode.isSome) := by
  cases mode <;> simp [fieldMode]
  cases f.packable <;> cases f.recursive <;> simp

/-- the value -/
theorem writeValue_held (hk : ∀ id mode c v, Inverts ((codecs id).write mode c v) fun _ => held mode.isSome id v) :
    Inverts (f.writeValue codecs env slot mode c v) fun _ =>
      (f.array = none → f.type.Held held env (f.packable && mode.isSome) false v) ∧ ∀ a, f.array = some a → ∃ xs, v = .arr xs ∧
        (∀ x ∈ xs, f.type.Held held env (f.packable && (mode.isSome || a.isPacked)) false x) ∧ (a.kind = .auto → xs.length < 2 ^ 31) ∧
        (∀ signed length, f.type = .dynBits signed length → ∃ n k, length env = .ok n ∧ dynKind signed n = .ok k) ∧
        ∀ i < xs.length, ∀ o, f.offset = some o → o.indexed = true →
          ∃ os q, env.fields[o.field]? = some (.arr os) ∧ os[i]? = some (.int q) := by
  unfold writeValue
  refine Inverts.bind (inverts_lift fun m hm => hm) fun m hm => ?_
  rcases ha : f.array with _ | a
  · simp only
    refine (ElemType.inverts_held hk hm (f.fieldMode slot mode) c v).mono fun _ h => ⟨fun _ => ?_, by simp⟩
    rwa [fieldMode_isSome] at h
  · simp only
    refine Inverts.bind (inverts_lift fun xs hx => hx) fun xs hx => ?_
    obtain rfl : v = .arr xs := by cases v <;> simp [Val.asArr] at hx; rw [hx]
    refine Inverts.bind (P := fun _ => _) ?_ fun _ h => inverts_pure h
    have hdyn : ∀ signed length, f.type = .dynBits signed length → ∃ n k, length env = .ok n ∧ dynKind signed n = .ok k := by
      intro signed length ht
      rw [ht] at hm
      obtain ⟨n, h3, h4⟩ := except_bind_ok hm
      obtain ⟨k, h5, -⟩ := except_bind_ok h4
      exact ⟨n, k, h3, h5⟩
    have hauto : a.kind = .auto → (f.arrayCfg a).isAuto = true := by
      intro hau
      rcases a with ⟨_ | _ | _, _⟩ <;> simp [FieldDef.arrayCfg] at hau ⊢
    unfold writeArray
    by_cases hpk : f.arrayPacked a mode = true
    · rw [if_pos hpk]
      have hpk' : (f.packable && (mode.isSome || a.isPacked)) = true := hpk
      unfold Array'.writePacked
      refine Inverts.bind (writePrefix_inverts _ _) fun _ hn => ?_
      split
      · refine Inverts.bind (P := fun _ => True) (inverts_lift fun _ _ => trivial) fun c0 _ => ?_
        refine (writePackedLoop_inverts (fun c v => ElemType.inverts_held hk hm (some []) c v)
          (fun i => writeCheck_inverts f a env.fields i) xs 0 c0).mono ?_
        rintro _ ⟨h1, h2⟩
        refine ⟨by simp, ?_⟩
        rintro _ ⟨⟩
        refine ⟨xs, rfl, ?_, fun h => hn (hauto h), hdyn, fun i hi => by simpa using h2 i hi⟩
        rw [hpk']
        exact h1
      · rename_i h0
        obtain rfl : xs = [] := List.eq_nil_of_length_eq_zero (by omega)
        refine inverts_pure ⟨by simp, ?_⟩
        rintro _ ⟨⟩
        exact ⟨[], rfl, by simp, fun h => hn (hauto h), hdyn, by simp⟩
    · rw [if_neg hpk]
      have hpk' : (f.packable && (mode.isSome || a.isPacked)) = false := by rw [← Bool.not_eq_true]; exact hpk
      unfold Array'.write
      refine Inverts.bind (writePrefix_inverts _ _) fun _ hn => ?_
      refine (writeLoop_inverts (fun v => ElemType.inverts_held hk hm none Ctx.empty v) (fun i => writeCheck_inverts f a env.fields i)
        xs 0).mono ?_
      rintro _ ⟨h1, h2⟩
      refine ⟨by simp, ?_⟩
      rintro _ ⟨⟩
      refine ⟨xs, rfl, ?_, fun h => hn (hauto h), hdyn, fun i hi => by simpa using h2 i hi⟩
      rw [hpk']
      exact h1

/-- what the range check establishes -/
theorem checkRange_between (h : f.checkRange env v = .ok ()) (hc : f.rangeCheck = true) (ha : f.array = none) :
    (∀ k, f.type = .int k → ∀ x, v = .int x → k.Between x) ∧
    ∀ signed length n k, f.type = .dynBits signed length → length env = .ok n → dynKind signed n = .ok k → ∀ x, v = .int x → k.InRange x := by
  unfold checkRange at h
  rw [if_pos hc] at h
  constructor
  · rintro k ht x rfl
    simp only [rangeBounds, ha, ht, ok_bind, Val.asInt] at h
    split at h
    · cases h
    · rename_i hb
      cases k with
      | bitField n => simp only [lowest, highest] at hb; exact ⟨by omega, by omega⟩
      | signedBitField n => simp only [lowest, highest] at hb; exact ⟨by omega, by omega⟩
      | var t =>
        show t.InRange x
        cases t <;> simp only [lowest, highest, VarType.InRange, VarType.lo, VarType.hi] at hb ⊢ <;> omega
  · rintro signed length n k ht hl hk x rfl
    obtain ⟨b, hb, h2⟩ := except_bind_ok h
    simp only [rangeBounds, ha, ht, hl, ok_bind] at hb
    obtain ⟨⟨lo, hi⟩, hd, he⟩ := except_bind_ok hb
    obtain rfl := Except.ok.inj he
    simp only [Val.asInt, ok_bind] at h2
    split at h2
    · cases h2
    rename_i hx
    have hlen : ∀ {α : Type} {g : Except Err α} {y : α}, (checkBitfieldLength n >>= fun _ => g) = .ok y → 1 ≤ n ∧ n ≤ 64 ∧ g = .ok y := by
      intro α g y h
      obtain ⟨⟨⟩, h1, h2⟩ := except_bind_ok h
      unfold checkBitfieldLength MAX_BITFIELD_BITS at h1
      split at h1
      · cases h1
      · exact ⟨by omega, by omega, h2⟩
    unfold dynKind at hk
    split at hk
    · cases hk
    obtain rfl := Except.ok.inj hk
    unfold dynBounds at hd
    cases signed
    · rw [if_neg (by simp)] at hd
      obtain ⟨l, e1, hd⟩ := except_bind_ok hd
      obtain ⟨u, e2, hd⟩ := except_bind_ok hd
      obtain ⟨n1, n2, e1⟩ := hlen e1
      obtain ⟨-, -, e2⟩ := hlen e2
      simp only [Except.ok.injEq, Prod.mk.injEq] at e1 e2 hd
      simp only [Bool.false_eq_true, if_false]
      refine ⟨by omega, by omega, by omega⟩
    · rw [if_pos rfl] at hd
      obtain ⟨l, e1, hd⟩ := except_bind_ok hd
      obtain ⟨u, e2, hd⟩ := except_bind_ok hd
      obtain ⟨n1, n2, e1⟩ := hlen e1
      obtain ⟨-, -, e2⟩ := hlen e2
      simp only [Except.ok.injEq, Prod.mk.injEq] at e1 e2 hd
      have hpred : (n - 1).toNat = n.toNat - 1 := by omega
      rw [hpred] at e1 e2
      simp only [if_true]
      refine ⟨by omega, by omega, by omega⟩

theorem held_checked {packed : Bool} (h : f.type.Held held env packed false v) (ha : f.array = none)
    (hc : f.checkRange env v = .ok ()) : f.type.Held held env packed f.rangeCheck v := by
  cases hr : f.rangeCheck
  · exact h
  · obtain ⟨h1, h2⟩ := checkRange_between hc hr ha
    rcases ht : f.type with k | b | ⟨signed, length⟩ | e | k | ⟨id, args⟩
    case int =>
      rw [ht] at h
      obtain ⟨x, hx, h3, -⟩ := h
      exact ⟨x, hx, h3, fun _ => h1 k ht x hx⟩
    case dynBits =>
      rw [ht] at h
      obtain ⟨n, k, x, e1, e2, e3, -⟩ := h
      exact ⟨n, k, x, e1, e2, e3, fun _ => h2 signed length n k ht e1 e2 x e3⟩
    all_goals (rw [ht] at h; exact h)

theorem writeInner_held (hk : ∀ id mode c v, Inverts ((codecs id).write mode c v) fun _ => held mode.isSome id v) :
    Inverts (f.writeInner codecs env slot mode c v) fun _ => f.HeldValue held env mode.isSome v := by
  unfold writeInner
  refine (writeAlign_inverts f).bind fun _ hal => (writeOffset_inverts f env).bind fun _ hof => ?_
  refine Inverts.bind (inverts_lift fun _ h => h) fun _ hch => ?_
  unfold writeChecks at hch
  obtain ⟨_, hc1, hch⟩ := except_bind_ok hch
  obtain ⟨_, hc2, hch⟩ := except_bind_ok hch
  obtain ⟨_, hc3, hc4⟩ := except_bind_ok hch
  refine (writeValue_held hk).mono ?_
  rintro _ ⟨h1, h2⟩
  refine ⟨fun ha => held_checked (h1 ha) ha hc4, ?_, checkConstraint_ok hc1, ?_, ?_, hal⟩
  · rintro a ha
    obtain ⟨xs, hv, h3, h4, h5, -⟩ := h2 a ha
    refine ⟨xs, hv, h3, h4, ?_, h5⟩
    intro length hl
    rcases a with ⟨k, p⟩
    obtain rfl : k = .fixed length := hl
    exact checkLength_ok hc2 ha hv
  · intro id args ha ht hne
    exact checkParams_ok hc3 ha ht hne
  · intro o ho
    by_cases hi : o.indexed = true
    · rw [if_pos hi]
      intro has xs hv i hix
      obtain ⟨a, ha⟩ := Option.isSome_iff_exists.1 has
      obtain ⟨xs', hv', -, -, -, h6⟩ := h2 a ha
      rw [hv] at hv'
      obtain rfl : xs = xs' := by injection hv'
      exact h6 i hix o ho hi
    · rw [if_neg hi]
      exact hof o ho (by simpa using hi)

theorem write_held (hk : ∀ id mode c v, Inverts ((codecs id).write mode c v) fun _ => held mode.isSome id v) {present : Bool} :
    Inverts (f.write codecs env slot present mode c v) fun _ => f.Held held env present mode.isSome v := by
  have hopt : Inverts (f.writeOptional codecs env slot mode c v) fun _ => f.Held held env present mode.isSome v := by
    unfold writeOptional
    refine Inverts.bind (inverts_lift fun u hu => hu) fun u hu => ?_
    refine Inverts.bind (P := fun _ => True) (inverts_appends ?_ fun _ => trivial) fun _ _ => ?_
    · unfold writeAutoBit
      split
      · exact appends_call (.bool u)
      · exact appends_pure ()
    · cases u with
      | false => exact inverts_pure (.inr (.inl hu))
      | true => exact (writeInner_held hk).mono fun _ h => .inr (.inr ⟨hu, h⟩)
  unfold write
  by_cases he : f.extended = true
  · simp only [he, if_true]
    cases present with
    | false => exact inverts_pure (.inl ⟨he, rfl⟩)
    | true => exact Inverts.bind (inverts_appends (appends_alignto 8) (P := fun _ => True) fun _ => trivial) fun _ _ => hopt
  · simp only [he, Bool.false_eq_true, if_false]
    exact hopt

end FieldDef

/-! ### Compounds -/

theorem Struct.write_held (hk : ∀ id mode c v, Inverts ((codecs id).write mode c v) fun _ => held mode.isSome id v)
    {params : List Int} {numExt base : Nat} {mode : Mode} : ∀ {fs : List FieldDef} (prior vs : List Val) (c : Ctx),
    Inverts (Struct.write codecs params numExt base mode fs prior vs c) fun _ =>
      Struct.Held held params numExt base mode.isSome fs prior vs
  | [], _, [], _ => inverts_pure trivial
  | [], _, _ :: _, _ => inverts_throw _
  | _ :: _, _, [], _ => inverts_throw _
  | f :: fs, prior, v :: vs, c => by
    unfold Struct.write
    refine Inverts.bind (FieldDef.write_held hk) fun c' h1 => ?_
    exact (Struct.write_held hk (prior ++ [v]) vs c').mono fun _ h2 => ⟨h1, h2⟩

theorem CompoundDef.write_held (hk : ∀ id mode c v, Inverts ((codecs id).write mode c v) fun _ => held mode.isSome id v)
    {d : CompoundDef} (mode : Mode) (c : Ctx) (x : Val) :
    Inverts ((d.codec codecs).write mode c x) fun _ => d.Held held mode.isSome x := by
  cases d with
  | struct fs =>
    cases x with
    | obj ps k tag vs => exact Struct.write_held hk [] vs c
    | _ => exact inverts_throw _
  | union fs =>
    show Inverts ((Union.codec codecs fs).write mode c x) _
    simp only [Union.codec]
    split
    · rename_i ps k tag v
      refine (intWrite_held (.var .varsize) (Union.tagMode mode) c tag).bind fun c' htag => ?_
      refine Inverts.bind (inverts_lift fun f hf => hf) fun f hf => ?_
      refine (FieldDef.write_held hk).mono fun _ h => ?_
      refine ⟨fun hm => ?_, f, hf, h⟩
      have : VarType.varsize.InRange tag := htag (by cases mode <;> simp [Union.tagMode] at hm ⊢)
      have := this.2
      simp [VarType.hi] at this
      omega
    · exact inverts_throw _
  | choice selector cases default =>
    show Inverts ((Choice.codec codecs selector cases default).write mode c x) _
    simp only [Choice.codec]
    split
    · rename_i ps k tag v
      refine Inverts.bind (inverts_lift fun y hy => hy) fun y hy => ?_
      obtain ⟨f, slot⟩ := y
      cases f with
      | none => exact inverts_pure ⟨none, slot, hy, by simp⟩
      | some f => exact (FieldDef.write_held hk).mono fun _ h => ⟨some f, slot, hy, by rintro _ ⟨⟩; exact h⟩
    · exact inverts_throw _

theorem Schema.write_held (defs : Schema) : ∀ (n id : Nat) (mode : Mode) (c : Ctx) (x : Val),
    Inverts ((defs.codec n id).write mode c x) fun _ => defs.Held n mode.isSome id x
  | 0, _, _, _, _ => inverts_throw _
  | n + 1, id, mode, c, x => CompoundDef.write_held (fun id mode c v => Schema.write_held defs n id mode c v) mode c x

/-! ### Objects of schemas which check everything -/

theorem ElemType.Held.valid {valid : Nat → Val → Prop} {env : Env} {packed : Bool} {ty : ElemType} {v : Val}
    (h : ty.Held held env packed false v) (hs : packed = true → ty.SafeElement)
    (hc : ∀ id args, ty = .compound id args → ∀ v, held packed id v → valid id v) : ty.Valid valid env v := by
  cases ty with
  | int k =>
    obtain ⟨x, hx, h1, -⟩ := h
    cases packed
    · exact ⟨x, hx, h1 rfl⟩
    · exact (hs rfl).elim
  | bitmask k =>
    obtain ⟨x, hx, h1, -⟩ := h
    cases packed
    · exact ⟨x, hx, h1 rfl⟩
    · exact (hs rfl).elim
  | dynBits signed length =>
    obtain ⟨n, k, x, e1, e2, e3, h1⟩ := h
    cases packed
    · exact ⟨n, k, x, e1, e2, e3, h1 (.inl rfl)⟩
    · exact (hs rfl).elim
  | enum e =>
    obtain ⟨x, hx, e1, e2, h1, -⟩ := h
    cases packed
    · exact ⟨x, hx, e1, e2, h1 rfl⟩
    · exact ⟨x, hx, e1, e2, hs rfl x e1⟩
  | other b => exact h
  | compound id args => exact hc id args rfl v h

theorem FieldDef.held_valid {valid : Nat → Val → Prop} {env : Env} {packed : Bool} {f : FieldDef} {v : Val}
    (h : f.type.Held held env packed f.rangeCheck v) (hs : packed = true → f.SafeField)
    (hc : ∀ id args, f.type = .compound id args → ∀ v, held packed id v → valid id v) : f.type.Valid valid env v := by
  rcases ht : f.type with k | b | ⟨signed, length⟩ | e | k | ⟨id, args⟩
  case int =>
    rw [ht] at h
    obtain ⟨x, hx, h1, h2⟩ := h
    cases packed
    · exact ⟨x, hx, h1 rfl⟩
    · have := hs rfl
      unfold FieldDef.SafeField at this
      rw [ht] at this
      cases k with
      | bitField n => exact ⟨x, hx, ⟨this.1, this.2.1⟩, (h2 this.2.2).1, (h2 this.2.2).2⟩
      | signedBitField n => exact ⟨x, hx, ⟨this.1, this.2.1⟩, (h2 this.2.2).1, (h2 this.2.2).2⟩
      | var t => exact ⟨x, hx, h2 this⟩
  case bitmask =>
    rw [ht] at h
    obtain ⟨x, hx, h1, -⟩ := h
    cases packed
    · exact ⟨x, hx, h1 rfl⟩
    · have := hs rfl
      unfold FieldDef.SafeField at this
      rw [ht] at this
      exact this.elim
  case dynBits =>
    rw [ht] at h
    obtain ⟨n, k, x, e1, e2, e3, h1⟩ := h
    refine ⟨n, k, x, e1, e2, e3, h1 ?_⟩
    cases packed
    · exact .inl rfl
    · have := hs rfl
      unfold FieldDef.SafeField at this
      rw [ht] at this
      exact .inr this
  case enum =>
    rw [ht] at h
    obtain ⟨x, hx, e1, e2, h1, -⟩ := h
    cases packed
    · exact ⟨x, hx, e1, e2, h1 rfl⟩
    · have := hs rfl
      unfold FieldDef.SafeField at this
      rw [ht] at this
      exact ⟨x, hx, e1, e2, this x e1⟩
  case other => rw [ht] at h; exact h
  case compound => rw [ht] at h; exact hc id args ht v h

/-- what the schema guarantees for a field -/
structure FieldDef.Safe (packed : Bool) (f : FieldDef) : Prop where
  elements : ∀ a, f.array = some a → (f.packable && (packed || a.isPacked)) = true → f.type.SafeElement
  value : f.array = none → (f.packable && packed) = true → f.SafeField

theorem FieldDef.Held.valid {valid : Nat → Val → Prop} {env : Env} {present packed : Bool} {f : FieldDef} {v : Val}
    (h : f.Held held env present packed v) (hs : f.Safe packed)
    (hc : ∀ id args q, f.type = .compound id args →
      (q = true → f.packable = true ∧ (packed = true ∨ ∃ a, f.array = some a ∧ a.isPacked = true)) → ∀ v, held q id v → valid id v) :
    f.Valid valid env present v := by
  rcases h with h | h | ⟨hu, h⟩
  · exact .inl h
  · exact .inr (.inl h)
  · refine .inr (.inr ⟨hu, ?_, ?_, h.constraint, h.params, h.offsets, h.alignment⟩)
    · intro ha
      refine FieldDef.held_valid (h.value ha) (hs.value ha) ?_
      intro id args ht
      refine hc id args _ ht fun hq => ?_
      simp only [Bool.and_eq_true] at hq
      exact ⟨hq.1, .inl hq.2⟩
    · intro a ha
      obtain ⟨xs, hv, h1, h2, h3, h4⟩ := h.elements a ha
      refine ⟨xs, hv, ?_, h2, h3, h4⟩
      intro x hx
      refine (h1 x hx).valid (hs.elements a ha) ?_
      intro id args ht
      refine hc id args _ ht fun hq => ?_
      simp only [Bool.and_eq_true, Bool.or_eq_true] at hq
      exact ⟨hq.1, hq.2.imp_right fun h => ⟨a, ha, h⟩⟩

theorem Struct.Held.valid {valid : Nat → Val → Prop} {params : List Int} {numExt base : Nat} {packed : Bool} :
    ∀ {fs : List FieldDef} {prior vs : List Val} (_ : Struct.Held held params numExt base packed fs prior vs)
    (_ : ∀ f ∈ fs, ∀ env present v, f.Held held env present packed v → f.Valid valid env present v),
    Struct.Valid valid params numExt base fs prior vs
  | [], _, [], _, _ => trivial
  | [], _, _ :: _, h, _ => h.elim
  | _ :: _, _, [], h, _ => h.elim
  | f :: fs, prior, v :: vs, h, hf =>
    ⟨hf f (by simp) _ _ _ h.1, Struct.Held.valid h.2 fun g hg => hf g (by simp [hg])⟩

theorem CompoundDef.Held.valid {valid : Nat → Val → Prop} {packed : Bool} {d : CompoundDef} {x : Val} (h : d.Held held packed x)
    (hf : ∀ f, d.HasField f → ∀ env present v, f.Held held env present packed v → f.Valid valid env present v)
    (hu : packed = true → ∀ fs, d = .union fs → fs.length ≤ 2 ^ 31) : d.Valid valid x := by
  cases d with
  | struct fs =>
    cases x with
    | obj ps k tag vs => exact Struct.Held.valid h fun f hm => hf f hm
    | _ => exact h
  | union fs =>
    unfold CompoundDef.Held at h
    split at h
    · rename_i he; cases he
    · rename_i fs' ps k tag v he
      obtain rfl : fs = fs' := by injection he
      obtain ⟨h1, f, h2, h3⟩ := h
      refine ⟨?_, f, h2, hf f (select_field h2) _ _ _ h3⟩
      cases packed
      · exact h1 rfl
      · have hl := hu rfl fs rfl
        unfold Union.select at h2
        split at h2
        · cases h2
        · split at h2
          · rename_i g hg
            have := (List.getElem?_eq_some_iff.1 hg).1
            omega
          · cases h2
    · rename_i he; cases he
    · exact h.elim
  | choice selector cases default =>
    unfold CompoundDef.Held at h
    split at h
    · rename_i he; cases he
    · rename_i he; cases he
    · rename_i ps k tag v he
      injection he with e1 e2 e3
      subst e1 e2 e3
      obtain ⟨f, slot, h1, h2⟩ := h
      refine ⟨f, slot, h1, ?_⟩
      rintro g rfl
      refine hf g ?_ _ _ _ (h2 g rfl)
      obtain ⟨s, hs, hc⟩ := except_bind_ok h1
      exact selectCase_field hc
    · exact h.elim

theorem Schema.held_valid {defs : Schema} (hs : defs.PackedSafe) : ∀ (n : Nat) (packed : Bool) (id : Nat)
    (_ : packed = true → defs.InPacked id) (x : Val), defs.Held n packed id x → defs.Valid n id x
  | 0, _, _, _, _, h => h.elim
  | n + 1, packed, id, hp, x, h => by
    refine CompoundDef.Held.valid h ?_ fun he fs hd => hs.unions id fs (hp he) hd
    intro f hf env present v hh
    refine hh.valid ⟨?_, ?_⟩ ?_
    · intro a ha hq
      simp only [Bool.and_eq_true, Bool.or_eq_true] at hq
      rcases hq.2 with hq2 | hq2
      · exact hs.inner id f a (hp hq2) hf ha hq.1
      · exact hs.arrays id f a hf ha hq.1 hq2
    · intro ha hq
      simp only [Bool.and_eq_true] at hq
      exact hs.fields id f (hp hq.2) hf ha hq.1
    · intro j args q ht hq v hv
      refine Schema.held_valid hs n q j ?_ v hv
      intro hq'
      obtain ⟨hpk, hq2 | ⟨a, ha, hi⟩⟩ := hq hq'
      · exact .nested (hp hq2) hf hpk ht
      · exact .element hf ha hpk hi ht

/-! ### The parts of written objects -/

theorem Struct.Held.get {params : List Int} {numExt base : Nat} {packed : Bool} :
    ∀ {fs : List FieldDef} {prior vs : List Val} {i : Nat} {f : FieldDef} {v : Val}
    (_ : Struct.Held held params numExt base packed fs prior vs) (_ : fs[i]? = some f) (_ : vs[i]? = some v),
    f.Held held ⟨params, prior ++ vs.take i, 0⟩ (Struct.isPresent numExt base (prior.length + i)) packed v
  | [], _, _, _, _, _, _, hf, _ => by simp at hf
  | _ :: _, _, [], _, _, _, _, _, hv => by simp at hv
  | g :: fs, prior, u :: vs, 0, f, v, h, hf, hv => by
    simp only [List.getElem?_cons_zero, Option.some.injEq] at hf hv
    subst hf hv
    simpa using h.1
  | g :: fs, prior, u :: vs, i + 1, f, v, h, hf, hv => by
    simp only [List.getElem?_cons_succ] at hf hv
    have := Struct.Held.get h.2 hf hv
    simp only [List.append_assoc, List.length_append, List.length_cons, List.length_nil, Nat.zero_add, List.singleton_append] at this
    rwa [show prior.length + (i + 1) = prior.length + 1 + i by omega, List.take_succ_cons]

/-- a written value of a used field -/
def Schema.HeldSomehow (defs : Schema) (f : FieldDef) (env : Env) (v : Val) : Prop :=
  ∃ n packed, f.HeldValue (defs.Held n) env packed v

theorem FieldDef.Held.used {env : Env} {present packed : Bool} {f : FieldDef} {v : Val} (h : f.Held held env present packed v)
    (hp : f.extended = false ∨ present = true) (hu : f.isUsed env v = .ok true) : f.HeldValue held env packed v := by
  rcases h with ⟨h1, h2⟩ | h | ⟨-, h⟩
  · rcases hp with hp | hp
    · rw [h1] at hp; cases hp
    · rw [h2] at hp; cases hp
  · rw [hu] at h; cases h
  · exact h

theorem Schema.Part.written {defs : Schema} {id : Nat} {x : Val} {f : FieldDef} {env : Env} {v : Val} (h : defs.Part id x f env v) :
    ∀ {n : Nat} {packed : Bool}, defs.Held n packed id x → defs.HeldSomehow f env v := by
  induction h with
  | @ofStruct id i k fs ps tag vs f v hd hf hv hp hu =>
    intro n packed h
    cases n with
    | zero => exact h.elim
    | succ n =>
      refine ⟨n, packed, ?_⟩
      have h2 : (defs id).Held (defs.Held n) packed (.obj ps k tag vs) := h
      rw [hd] at h2
      have := Struct.Held.get (prior := []) h2 hf hv
      simp only [List.nil_append, List.length_nil, Nat.zero_add] at this
      exact this.used hp hu
  | @ofUnion id k fs ps tag f v hd hf hu =>
    intro n packed h
    cases n with
    | zero => exact h.elim
    | succ n =>
      refine ⟨n, packed, ?_⟩
      have h2 : (defs id).Held (defs.Held n) packed (.obj ps k tag [v]) := h
      rw [hd] at h2
      obtain ⟨-, g, hg, h3⟩ := h2
      rw [hf] at hg
      obtain rfl := Except.ok.inj hg
      exact h3.used (.inr rfl) hu
  | @ofChoice id k slot selector cases default ps tag f v hd hf hu =>
    intro n packed h
    cases n with
    | zero => exact h.elim
    | succ n =>
      refine ⟨n, packed, ?_⟩
      have h2 : (defs id).Held (defs.Held n) packed (.obj ps k tag [v]) := h
      rw [hd] at h2
      obtain ⟨g, s, hg, h3⟩ := h2
      rw [hf] at hg
      simp only [Except.ok.injEq, Prod.mk.injEq] at hg
      obtain ⟨rfl, rfl⟩ := hg
      exact (h3 f rfl).used (.inr rfl) hu
  | nested h ha ht h' ih ih' =>
    intro n packed hx
    obtain ⟨m, q, hy⟩ := ih hx
    have := hy.value ha
    rw [ht] at this
    exact ih' this
  | element h ha ht hy h' ih ih' =>
    intro n packed hx
    obtain ⟨m, q, hz⟩ := ih hx
    obtain ⟨xs, e1, h1, -⟩ := hz.elements _ ha
    injection e1 with e1
    subst e1
    have := h1 _ hy
    rw [ht] at this
    exact ih' this

end Zserio
