import Verif.Lemmas.InitArray
set_option linter.unusedSimpArgs false
/-
Helper lemmas for `initialize_offsets`: fields.
-/
namespace Zserio
open Writer Array'

namespace FieldDef
variable {codecs : Nat → Codec} {same : Nat → Val → Val → Prop} {targets : List Nat} {fs : List FieldDef} {f : FieldDef}

theorem same_isNone (hk : ∀ id, (codecs id).InitLaw (same id)) {v v1 : Val} (h : f.Same same false v v1) : v1.isNone = v.isNone := by
  rcases h with rfl | h
  · rfl
  · rcases ha : f.array with _ | a
    · rw [ha] at h
      simp only [Bool.false_eq_true, if_false] at h
      cases ht : f.type <;> rw [ht] at h <;> simp only [ElemType.Same] at h <;> first | rw [h] | skip
      exact (hk _).isNone _ _ h
    · rw [ha] at h
      obtain ⟨xs, xs', rfl, rfl, _⟩ := h
      rfl

theorem sameTrue_trans {v v1 v2 : Val} (h : f.Same same true v v1) (h' : f.Same same true v1 v2) : f.Same same true v v2 := by
  rcases h with rfl | h
  · exact h'
  · rcases h' with rfl | h'
    · exact .inr h
    · right
      rcases ha : f.array with _ | a
      · simp
      · rw [ha] at h h'
        obtain ⟨xs, xs1, rfl, rfl, h⟩ := h
        obtain ⟨xs2, xs3, h2, rfl, h'⟩ := h'
        simp only [Val.arr.injEq] at h2
        subst h2
        simp only [if_true] at h h'
        exact ⟨xs, xs3, rfl, rfl, by simp only [if_true]; omega⟩

/-- the value changes only in offsets, and if the offsets of its elements are right when it is written, it is written up to the
position computed -/
structure ValueInit (codecs : Nat → Codec) (same : Nat → Val → Val → Prop) (f : FieldDef) (env : Env) (slot : Nat) (mode : Mode)
    (c : Ctx) (p e : Nat) (v v1 : Val) (s1 : List Val) (c1 : Ctx) : Prop where
  changed : f.Same same false v v1
  target : ∀ b, f.OffsetField b → v1 = v
  length : s1.length = env.fields.length
  kept : ∀ j, f.elemOffset ≠ some j → s1[j]? = env.fields[j]?
  offsets : ∀ j v, f.elemOffset = some j → env.fields[j]? = some v → ∃ v1, s1[j]? = some v1 ∧
    (v1 = v ∨ ∃ os os1, v = .arr os ∧ v1 = .arr os1 ∧ os1.length = os.length)
  ends : ∀ env' v' cw, f.type.Agree env env' → (v' = v1 ∨ (∃ b, f.OffsetField b) ∧ f.Same same true v1 v') →
    (∀ j, f.elemOffset = some j → env'.fields[j]? = s1[j]?) → Ctx.Alike cw c →
    Ends (f.writeValue codecs env' slot mode cw v') p e (fun r => Ctx.Alike r c1)

theorem fieldMode_unpackable (h : f.packable = false) (slot : Nat) (mode : Mode) : f.fieldMode slot mode = none := by
  cases mode <;> simp [fieldMode, h]

theorem forall2_eq : ∀ {xs xs' : List Val}, List.Forall₂ (fun x x' => x' = x) xs xs' → xs' = xs
  | _, _, .nil => rfl
  | _, _, .cons hx hf => by rw [hx, forall2_eq hf]

theorem value_init (hk : ∀ id, (codecs id).InitLaw (same id)) {env : Env} {slot : Nat} {mode : Mode} {c : Ctx} {p e : Nat} {v v1 : Val}
    {s1 : List Val} {c1 : Ctx} (h : f.initOffsetsValue codecs env slot mode c p v = .ok (e, s1, v1, c1)) :
    ValueInit codecs same f env slot mode c p e v v1 s1 c1 := by
  unfold initOffsetsValue at h
  obtain ⟨m, hm, h⟩ := except_bind_ok h
  have hml := initLaw_elem hk hm
  rcases ha : f.array with _ | a
  · rw [ha] at h
    simp only at h
    obtain ⟨⟨p2, v2, c2⟩, hi, h⟩ := except_bind_ok h
    simp only [Except.ok.injEq, Prod.mk.injEq] at h
    obtain ⟨rfl, rfl, rfl, rfl⟩ := h
    obtain ⟨g1, g2⟩ := hml.init _ _ _ _ _ _ _ hi
    refine ⟨?_, ?_, rfl, fun _ _ => rfl, fun j v _ hv => ⟨v, hv, .inl rfl⟩, ?_⟩
    · right
      rw [ha]
      exact g1
    · rintro b ⟨⟨n, hn⟩, _⟩
      rw [hn] at g1
      exact g1
    · intro env' v' cw hag hv _ hc
      unfold writeValue
      rw [hag.methods codecs, hm, ha]
      refine (ends_lift (quietE_ok m) p).bind fun m' hm' => ?_
      obtain rfl := Except.ok.inj hm'
      simp only
      rcases hv with rfl | ⟨⟨b, ⟨n, hn⟩, _, _, hpk, _⟩, _⟩
      · exact g2 cw hc
      · rw [hn] at hm
        obtain rfl := Except.ok.inj hm
        rw [fieldMode_unpackable hpk] at hi ⊢
        have : p + n = p2 ∧ c2 = c := by
          simp only [intMethods, intSize, sizeUnpacked, IntKind.traits, Traits.bitField, Traits.simple, ok_bind, Except.ok.injEq,
            Prod.mk.injEq] at hi
          exact ⟨hi.1, hi.2.2.symm⟩
        obtain ⟨rfl, rfl⟩ := this
        refine (ends_fixedInt n p cw v').mono ?_
        rintro r rfl
        exact hc
  · rw [ha] at h
    simp only at h
    obtain ⟨xs, hxs, h⟩ := except_bind_ok h
    obtain ⟨⟨p2, xs2, s2⟩, hi, h⟩ := except_bind_ok h
    simp only [Except.ok.injEq, Prod.mk.injEq] at h
    obtain ⟨rfl, rfl, rfl, rfl⟩ := h
    obtain rfl : v = .arr xs := by cases v <;> simp [Val.asArr] at hxs; rw [hxs]
    -- writing the values as they are
    have hself : ArrayInit f a m mode (f.type.Same same) (fun xs xs' => xs' = xs) p p2 xs xs2 env.fields s2 := by
      cases hp : f.arrayPacked a mode with
      | false =>
        have := plain_init hml.plainStep hp hi
        refine ⟨this.same, this.length, this.kept, this.offsets, ?_⟩
        rintro xs' s' rfl
        exact this.ends _ _ (forall2_same _)
      | true => exact packed_init hml hp hi
    have htgt : ∀ b, f.OffsetField b → ArrayInit f a m mode (fun x x' => x' = x) (List.Forall₂ fun _ _ => True) p p2 xs xs2 env.fields s2 := by
      rintro b ⟨⟨n, hn⟩, _, _, hpk, _⟩
      have hp : f.arrayPacked a mode = false := by simp [arrayPacked, hpk]
      rw [hn] at hm
      obtain rfl := Except.ok.inj hm
      exact plain_init (fixedStep n) hp hi
    refine ⟨?_, ?_, hself.length, hself.kept, hself.offsets, ?_⟩
    · right
      rw [ha]
      exact ⟨_, _, rfl, rfl, forall2_elementwise hself.same 0⟩
    · intro b hb
      rw [forall2_eq (htgt b hb).same]
    · intro env' v' cw hag hv hs hc
      unfold writeValue
      rw [hag.methods codecs, hm, ha]
      refine (ends_lift (quietE_ok m) p).bind fun m' hm' => ?_
      obtain rfl := Except.ok.inj hm'
      simp only
      obtain ⟨xs', rfl, hends⟩ : ∃ xs', v' = .arr xs' ∧ Ends (f.writeArray a m mode env'.fields xs') p p2 (fun _ => True) := by
        rcases hv with rfl | ⟨⟨b, hb⟩, hst⟩
        · exact ⟨xs2, rfl, hself.ends _ _ rfl hs⟩
        · rcases hst with rfl | hst
          · exact ⟨xs2, rfl, hself.ends _ _ rfl hs⟩
          · rw [ha] at hst
            obtain ⟨ys, ys', hy, rfl, hlen⟩ := hst
            simp only [Val.arr.injEq] at hy
            subst hy
            exact ⟨ys', rfl, (htgt b hb).ends _ _ (forall2_any (by simpa using hlen)) hs⟩
      refine (ends_lift (quietE_asArr _) p).bind fun ys hys => ?_
      simp only [Val.asArr, Except.ok.injEq] at hys
      subst hys
      exact hends.bind fun _ _ => ends_pure (by exact hc) _

/-! ### Expressions -/

theorem evalArgs_ignores {args : List (Expr Int)} (h : ∀ e ∈ args, e.IgnoresOffsets same targets fs) (params : List Int)
    {prior prior' : List Val} (hs : Struct.SameFields same targets fs prior prior') (i : Nat) :
    evalArgs args ⟨params, prior', i⟩ = evalArgs args ⟨params, prior, i⟩ := by
  induction args with
  | nil => rfl
  | cons a as ih =>
    simp only [evalArgs]
    rw [(h a (by simp)).1 params prior prior' i hs, ih fun e he => h e (by simp [he])]

theorem quietE_evalArgs {args : List (Expr Int)} (h : ∀ e ∈ args, e.IgnoresOffsets same targets fs) (env : Env) :
    QuietE (evalArgs args env) := by
  induction args with
  | nil => exact quietE_ok _
  | cons a as ih =>
    simp only [evalArgs]
    exact QuietE.bind ((h a (by simp)).2 env) fun _ _ => (ih fun e he => h e (by simp [he])).bind fun _ _ => quietE_ok _

theorem OffsetRules.agree (h : f.OffsetRules same targets fs) {params : List Int} {prior prior' : List Val} {index : Nat}
    (hs : Struct.SameFields same targets fs prior prior') : f.type.Agree ⟨params, prior, index⟩ ⟨params, prior', index⟩ := by
  cases ht : f.type with
  | dynBits signed len => exact (h.bits _ _ ht).1 _ _ _ _ hs
  | compound id args => exact fun i => evalArgs_ignores (h.args _ _ ht) _ hs i
  | _ => trivial

theorem OffsetRules.quiet_checks (h : f.OffsetRules same targets fs) (env : Env) (v : Val) : QuietE (f.writeChecks env v) := by
  unfold writeChecks
  refine QuietE.bind ?_ fun _ _ => QuietE.bind ?_ fun _ _ => QuietE.bind ?_ fun _ _ => ?_
  · unfold checkConstraint
    rcases hc : f.constraint with _ | e
    · exact quietE_ok _
    · exact QuietE.bind (h.constraint e hc _) fun _ _ => quietE_ite (quietE_ok _) (quietE_error (by simp))
  · unfold checkLength
    rcases ha : f.array with _ | ⟨_ | _ | e, pk⟩
    · exact quietE_ok _
    · exact quietE_ok _
    · exact quietE_ok _
    · exact (quietE_asArr v).bind fun _ _ => QuietE.bind (h.length e pk ha env) fun _ _ => quietE_ite (quietE_error (by simp)) (quietE_ok _)
  · unfold checkParams
    rcases ha : f.array with _ | a
    · cases ht : f.type with
      | compound id args =>
        simp only
        refine quietE_ite (quietE_ok _) ?_
        exact (quietE_params v).bind fun _ _ => (quietE_evalArgs (h.args _ _ ht) env).bind fun _ _ => quietE_ite (quietE_error (by simp)) (quietE_ok _)
      | _ => exact quietE_ok _
    · exact quietE_ok _
  · unfold checkRange
    refine quietE_ite (QuietE.bind ?_ fun b _ => ?_) (quietE_ok _)
    · unfold rangeBounds
      split
      · exact quietE_ok _
      · next signed len _ ht =>
        have hl : ∀ n : Int, QuietE (checkBitfieldLength n) := fun n => quietE_ite (quietE_error (by simp)) (quietE_ok _)
        refine QuietE.bind ((h.bits _ _ ht).2 env) fun n _ => QuietE.bind ?_ fun _ _ => quietE_ok _
        have hb : ∀ x : Int, QuietE (checkBitfieldLength n >>= fun _ => Except.ok x) := fun x => (hl n).bind fun _ _ => quietE_ok _
        exact quietE_ite ((hb _).bind fun _ _ => (hb _).bind fun _ _ => quietE_ok _) ((hb _).bind fun _ _ => (hb _).bind fun _ _ => quietE_ok _)
      · exact quietE_ok _
    · split
      · exact (quietE_asInt v).bind fun _ _ => quietE_ite (quietE_error (by simp)) (quietE_ok _)
      · exact quietE_ok _

/-! ### The field -/

/-- the same for the field, including its own offset -/
structure FieldInit (codecs : Nat → Codec) (same : Nat → Val → Val → Prop) (targets : List Nat) (fs : List FieldDef) (f : FieldDef)
    (params : List Int) (prior : List Val) (slot : Nat) (present : Bool) (mode : Mode) (c : Ctx) (p e : Nat) (v v1 : Val)
    (s1 : List Val) (c1 : Ctx) : Prop where
  changed : f.Same same false v v1
  target : ∀ b, f.OffsetField b → v1 = v
  length : s1.length = prior.length
  kept : ∀ j, (∀ o, f.offset = some o → o.field ≠ j) → s1[j]? = prior[j]?
  offsets : ∀ o v, f.offset = some o → o.indexed = true → prior[o.field]? = some v → ∃ v1, s1[o.field]? = some v1 ∧
    (v1 = v ∨ ∃ os os1, v = .arr os ∧ v1 = .arr os1 ∧ os1.length = os.length)
  ends : ∀ prior' v' cw, Struct.SameFields same targets fs prior prior' →
    (v' = v1 ∨ (∃ b, f.OffsetField b) ∧ f.Same same true v1 v') →
    (∀ o, f.offset = some o → prior'[o.field]? = s1[o.field]?) → Ctx.Alike cw c →
    Ends (f.write codecs ⟨params, prior', 0⟩ slot present mode cw v') p e (fun r => Ctx.Alike r c1)

theorem ends_writeAlign (f : FieldDef) (p : Nat) : Ends f.writeAlign p (alignPos f.alignment p) (fun _ => True) := by
  unfold writeAlign alignPos
  rcases f.alignment with _ | a
  · exact ends_pure trivial _
  · exact ends_alignto a p

theorem setOffset_ok {j p : Nat} {s s1 : List Val} (h : setOffset j s p = .ok s1) :
    ∃ v, (p : Int) = bytesToBits v ∧ j < s.length ∧ s1 = s.set j (.int v) := by
  unfold setOffset at h
  obtain ⟨v, hv, h⟩ := except_bind_ok h
  split at h
  · rename_i hj
    exact ⟨v, bitsToBytes_ok hv, hj, (Except.ok.inj h).symm⟩
  · simp at h

theorem inner_init (hk : ∀ id, (codecs id).InitLaw (same id)) (hr : f.OffsetRules same targets fs)
    (hown : ∀ o, f.offset = some o → o.indexed = false → o.field ∈ targets ∧ ∃ g, fs[o.field]? = some g ∧ g.array = none)
    {params : List Int} {prior : List Val} {slot : Nat} {mode : Mode} {c : Ctx} {p e : Nat} {v v1 : Val} {s1 : List Val} {c1 : Ctx}
    (h : f.initOffsetsInner codecs ⟨params, prior, 0⟩ slot mode c p v = .ok (e, s1, v1, c1)) :
    f.Same same false v v1 ∧ (∀ b, f.OffsetField b → v1 = v) ∧ s1.length = prior.length ∧
    (∀ j, (∀ o, f.offset = some o → o.field ≠ j) → s1[j]? = prior[j]?) ∧
    (∀ o v, f.offset = some o → o.indexed = true → prior[o.field]? = some v → ∃ v1, s1[o.field]? = some v1 ∧
      (v1 = v ∨ ∃ os os1, v = .arr os ∧ v1 = .arr os1 ∧ os1.length = os.length)) ∧
    ∀ prior' v' cw, Struct.SameFields same targets fs prior prior' →
      (v' = v1 ∨ (∃ b, f.OffsetField b) ∧ f.Same same true v1 v') →
      (∀ o, f.offset = some o → prior'[o.field]? = s1[o.field]?) → Ctx.Alike cw c →
      Ends (f.writeInner codecs ⟨params, prior', 0⟩ slot mode cw v') p e (fun r => Ctx.Alike r c1) := by
  unfold initOffsetsInner at h
  obtain ⟨s2, h2, h⟩ := except_bind_ok h
  have hv := value_init hk h
  rcases ho : f.offset with _ | ⟨o, _ | _⟩
  · -- no offset
    have h1 : f.ownOffset = none := by simp [ownOffset, ho]
    have h3 : f.elemOffset = none := by simp [elemOffset, ho]
    simp only [initOwnOffset, h1, Except.ok.injEq] at h2
    subst h2
    have hkept := fun j => hv.kept j (by simp [h3])
    refine ⟨hv.changed, hv.target, hv.length, fun j _ => hkept j, by simp, ?_⟩
    intro prior' v' cw hs hvv _ hc
    unfold writeInner
    refine (ends_writeAlign f p).bind fun _ _ => ?_
    simp only [writeOffset, h1]
    refine (ends_pure (Q := fun _ => True) trivial _).bind fun _ _ => ?_
    refine (ends_lift (hr.quiet_checks _ _) _).bind fun _ _ => ?_
    have := hv.ends ⟨params, prior', 0⟩ v' cw (hr.agree hs) hvv (by simp [h3]) hc
    simpa [alignField, h1] using this
  · -- the offset of the field
    have h1 : f.ownOffset = some o := by simp [ownOffset, ho]
    have h3 : f.elemOffset = none := by simp [elemOffset, ho]
    simp only [initOwnOffset, h1] at h2
    obtain ⟨x, hx, hlt, rfl⟩ := setOffset_ok h2
    have hkept := fun j => hv.kept j (by simp [h3])
    simp only at hkept
    have hlen := hv.length
    simp only [List.length_set] at hlen
    refine ⟨hv.changed, hv.target, hlen, ?_, by rintro o' y hy hi; obtain rfl := Option.some.inj hy; simp at hi, ?_⟩
    · intro j hj
      rw [hkept j]
      have : o ≠ j := hj ⟨o, false⟩ rfl
      simp [this]
    · intro prior' v' cw hs hvv hoff hc
      have hs' : Struct.SameFields same targets fs (prior.set o (.int x)) prior' := by
        refine ⟨by simpa using hs.1, ?_⟩
        intro i g y y' hg hy hy'
        by_cases hi : i = o
        · subst hi
          obtain ⟨ht, g', hg', ga⟩ := hown ⟨i, false⟩ ho rfl
          rw [hg] at hg'
          obtain rfl := Option.some.inj hg'
          right
          rw [ga]
          simp [ht]
        · rw [List.getElem?_set_ne (by omega)] at hy
          exact hs.2 i g y y' hg hy hy'
      unfold writeInner
      refine (ends_writeAlign f p).bind fun _ _ => ?_
      have halign : f.alignField p = align8 (alignPos f.alignment p) := by simp [alignField, h1]
      rw [halign] at hv hx
      simp only [writeOffset, h1]
      have hcheck : Zserio.checkOffset o prior' (align8 (alignPos f.alignment p)) = .ok () := by
        unfold Zserio.checkOffset
        have : prior'[o]? = some (.int x) := by
          rw [hoff ⟨o, false⟩ rfl, hkept o]
          simp [hlt]
        rw [this]
        simp only [Val.asInt, ok_bind]
        rw [if_neg (by simpa using hx)]
      refine Ends.bind (q := align8 (alignPos f.alignment p)) (P := fun _ => True) ?_ fun _ _ => ?_
      · refine (ends_align8 _).bind fun _ _ => ends_get_bind fun w hw => ?_
        rw [hw, hcheck]
        exact (ends_lift (quietE_ok _) _).mono fun _ _ => trivial
      · refine (ends_lift (hr.quiet_checks _ _) _).bind fun _ _ => ?_
        exact hv.ends ⟨params, prior', 0⟩ v' cw (hr.agree hs') hvv (by simp [h3]) hc
  · -- the offsets of the elements
    have h1 : f.ownOffset = none := by simp [ownOffset, ho]
    have h3 : f.elemOffset = some o := by simp [elemOffset, ho]
    simp only [initOwnOffset, h1, Except.ok.injEq] at h2
    subst h2
    refine ⟨hv.changed, hv.target, hv.length, ?_, ?_, ?_⟩
    · intro j hj
      have : o ≠ j := hj ⟨o, true⟩ rfl
      exact hv.kept j (by simpa [h3] using this)
    · rintro o' y hy _ hp
      simp only [Option.some.injEq] at hy
      subst hy
      exact hv.offsets o y h3 hp
    · intro prior' v' cw hs hvv hoff hc
      unfold writeInner
      refine (ends_writeAlign f p).bind fun _ _ => ?_
      simp only [writeOffset, h1]
      refine (ends_pure (Q := fun _ => True) trivial _).bind fun _ _ => ?_
      refine (ends_lift (hr.quiet_checks _ _) _).bind fun _ _ => ?_
      have := hv.ends ⟨params, prior', 0⟩ v' cw (hr.agree hs) hvv ?_ hc
      · simpa [alignField, h1] using this
      · intro j hj
        rw [h3] at hj
        obtain rfl := Option.some.inj hj
        exact hoff ⟨o, true⟩ rfl

theorem ends_writeAutoBit (f : FieldDef) (used : Bool) (p : Nat) : Ends (f.writeAutoBit used) p (p + f.autoBit) (fun _ => True) := by
  unfold writeAutoBit autoBit
  rcases f.optional with _ | _ | e
  · exact ends_pure trivial _
  · exact DeltaContext.ends_bool used p
  · exact ends_pure trivial _

theorem optional_init (hk : ∀ id, (codecs id).InitLaw (same id)) (hr : f.OffsetRules same targets fs)
    (hown : ∀ o, f.offset = some o → o.indexed = false → o.field ∈ targets ∧ ∃ g, fs[o.field]? = some g ∧ g.array = none)
    {params : List Int} {prior : List Val} {slot : Nat} {mode : Mode} {c : Ctx} {p e : Nat} {v v1 : Val} {s1 : List Val} {c1 : Ctx}
    (h : f.initOffsetsOptional codecs ⟨params, prior, 0⟩ slot mode c p v = .ok (e, s1, v1, c1)) :
    f.Same same false v v1 ∧ (∀ b, f.OffsetField b → v1 = v) ∧ s1.length = prior.length ∧
    (∀ j, (∀ o, f.offset = some o → o.field ≠ j) → s1[j]? = prior[j]?) ∧
    (∀ o v, f.offset = some o → o.indexed = true → prior[o.field]? = some v → ∃ v1, s1[o.field]? = some v1 ∧
      (v1 = v ∨ ∃ os os1, v = .arr os ∧ v1 = .arr os1 ∧ os1.length = os.length)) ∧
    ∀ prior' v' cw, Struct.SameFields same targets fs prior prior' →
      (v' = v1 ∨ (∃ b, f.OffsetField b) ∧ f.Same same true v1 v') →
      (∀ o, f.offset = some o → prior'[o.field]? = s1[o.field]?) → Ctx.Alike cw c →
      Ends (f.writeOptional codecs ⟨params, prior', 0⟩ slot mode cw v') p e (fun r => Ctx.Alike r c1) := by
  unfold initOffsetsOptional at h
  obtain ⟨used, hu, h⟩ := except_bind_ok h
  -- whether the field is used does not change
  have hused : ∀ prior' v', f.Same same false v v1 → Struct.SameFields same targets fs prior prior' →
      (v' = v1 ∨ (∃ b, f.OffsetField b) ∧ f.Same same true v1 v') → f.isUsed ⟨params, prior', 0⟩ v' = .ok used := by
    intro prior' v' hsame hs hv
    rw [← hu]
    unfold isUsed
    rcases hopt : f.optional with _ | _ | e
    · rfl
    · simp only
      rcases hv with rfl | ⟨⟨b, hb⟩, _⟩
      · rw [same_isNone hk hsame]
      · simp [hb.2.1] at hopt
    · exact (hr.clause e hopt).1 _ _ _ _ hs
  cases used with
  | true =>
    rw [if_pos rfl] at h
    obtain ⟨g1, g2, g3, g4, g5, g6⟩ := inner_init hk hr hown h
    refine ⟨g1, g2, g3, g4, g5, ?_⟩
    intro prior' v' cw hs hv ho hc
    unfold writeOptional
    rw [hused prior' v' g1 hs hv]
    refine (ends_lift (quietE_ok _) _).bind fun u hu' => ?_
    obtain rfl := Except.ok.inj hu'
    exact (ends_writeAutoBit f true p).bind fun _ _ => g6 prior' v' cw hs hv ho hc
  | false =>
    rw [if_neg (by simp)] at h
    simp only [Except.ok.injEq, Prod.mk.injEq] at h
    obtain ⟨rfl, rfl, rfl, rfl⟩ := h
    refine ⟨.inl rfl, fun _ _ => rfl, rfl, fun _ _ => rfl, fun o y _ _ hy => ⟨y, hy, .inl rfl⟩, ?_⟩
    intro prior' v' cw hs hv ho hc
    unfold writeOptional
    rw [hused prior' v' (.inl rfl) hs hv]
    refine (ends_lift (quietE_ok _) _).bind fun u hu' => ?_
    obtain rfl := Except.ok.inj hu'
    exact (ends_writeAutoBit f false p).bind fun _ _ => ends_pure (by exact hc) _

theorem field_init (hk : ∀ id, (codecs id).InitLaw (same id)) (hr : f.OffsetRules same targets fs)
    (hown : ∀ o, f.offset = some o → o.indexed = false → o.field ∈ targets ∧ ∃ g, fs[o.field]? = some g ∧ g.array = none)
    {params : List Int} {prior : List Val} {slot : Nat} {present : Bool} {mode : Mode} {c : Ctx} {p e : Nat} {v v1 : Val} {s1 : List Val}
    {c1 : Ctx} (h : f.initOffsets codecs ⟨params, prior, 0⟩ slot present mode c p v = .ok (e, s1, v1, c1)) :
    FieldInit codecs same targets fs f params prior slot present mode c p e v v1 s1 c1 := by
  unfold FieldDef.initOffsets at h
  cases hx : f.extended with
  | false =>
    rw [hx, if_neg (by simp)] at h
    obtain ⟨g1, g2, g3, g4, g5, g6⟩ := optional_init hk hr hown h
    refine ⟨g1, g2, g3, g4, g5, ?_⟩
    intro prior' v' cw hs hv ho hc
    unfold FieldDef.write
    rw [hx, if_neg (by simp)]
    exact g6 prior' v' cw hs hv ho hc
  | true =>
    rw [hx, if_pos rfl] at h
    cases present with
    | true =>
      rw [if_pos rfl] at h
      obtain ⟨g1, g2, g3, g4, g5, g6⟩ := optional_init hk hr hown h
      refine ⟨g1, g2, g3, g4, g5, ?_⟩
      intro prior' v' cw hs hv ho hc
      unfold FieldDef.write
      rw [hx, if_pos rfl, if_pos rfl]
      exact (ends_align8 p).bind fun _ _ => g6 prior' v' cw hs hv ho hc
    | false =>
      rw [if_neg (by simp)] at h
      simp only [Except.ok.injEq, Prod.mk.injEq] at h
      obtain ⟨rfl, rfl, rfl, rfl⟩ := h
      refine ⟨.inl rfl, fun _ _ => rfl, rfl, fun _ _ => rfl, fun o y _ _ hy => ⟨y, hy, .inl rfl⟩, ?_⟩
      intro prior' v' cw hs hv ho hc
      unfold FieldDef.write
      rw [hx, if_pos rfl, if_neg (by simp)]
      exact ends_pure (by exact hc) _

end FieldDef
end Zserio
