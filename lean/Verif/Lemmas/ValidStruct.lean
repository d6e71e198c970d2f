import Verif.Lemmas.ValidWrite
import Verif.Lemmas.CompoundInner
import Verif.Lemmas.RewriteStruct
set_option linter.unusedSimpArgs false
/-
Valid objects can be written: fields, structures, unions, choices, schemas.
-/
namespace Zserio
open Writer Ctx

variable {off : Prop} {codecs : Nat → Codec} {valid : Nat → Val → Prop}

/-! ### Fields -/

theorem outcome_alignto {a : Nat} (ha : a ≠ 0) (b0 : List Bool) : Outcome off (Writer.alignto a) b0 fun _ => True :=
  outcome_runs ⟨_, (emits_alignto a b0.length (by omega)).runs rfl⟩ trivial

theorem outcome_get_bind {β : Type} {f : Writer → M Writer β} {b0 : List Bool} {Q : β → Prop}
    (h : Outcome off (f (ofBits b0)) b0 Q) : Outcome off (M.get >>= f) b0 Q := h

theorem outcome_lift {α : Type} {x : Except Err α} {b0 : List Bool} {Q : α → Prop}
    (h : (off ∧ x = .error .offset) ∨ ∃ a, x = .ok a ∧ Q a) : Outcome off (M.lift x) b0 Q := by
  rcases h with ⟨ho, rfl⟩ | ⟨a, rfl, hq⟩
  · exact .inl ⟨ho, _, rfl⟩
  · exact .inr ⟨[], a, runs_lift rfl b0, hq⟩

namespace FieldDef
variable {f : FieldDef} {env : Env} {slot : Nat} {mode : Mode} {v : Val}

theorem outcome_writeOffset (ho : ¬off → f.offset = none) (h : f.HasOffsets env v) (b0 : List Bool) :
    Outcome off (f.writeOffset env) b0 fun _ => True := by
  unfold writeOffset ownOffset
  rcases hf : f.offset with _ | o
  · exact outcome_pure trivial
  · have hoff : off := by
      by_contra hc
      rw [ho hc] at hf; cases hf
    have h1 := h o hf
    by_cases hi : o.indexed = true
    · simp only [hi, if_true]
      exact outcome_pure trivial
    · simp only [hi, if_false, Bool.false_eq_true] at h1 ⊢
      obtain ⟨q, hq⟩ := h1
      refine Outcome.bind (outcome_alignto (by omega) b0) fun _ _ b1 => outcome_get_bind (outcome_lift ?_)
      simp only [Zserio.checkOffset, hq, Val.asInt, ok_bind]
      split
      · exact .inl ⟨hoff, rfl⟩
      · exact .inr ⟨(), rfl, trivial⟩

theorem outcome_writeCheck {a : ArrayDef} {xs : List Val} (ho : ¬off → f.offset = none) (ha : f.array = some a)
    (h : f.HasOffsets env (.arr xs)) :
    ∀ j < xs.length, ∀ b0, Outcome off (Array'.writeCheck (f.arrayCfg a).checkOffset j env.fields) b0 fun _ => True := by
  intro j hj b0
  rcases hf : f.offset with _ | o
  · simp only [arrayCfg, hf]
    exact outcome_pure trivial
  · have hoff : off := by
      by_contra hc
      rw [ho hc] at hf; cases hf
    have h1 := h o hf
    by_cases hi : o.indexed = true
    · simp only [hi, if_true, ha, Option.isSome_some, true_implies] at h1
      obtain ⟨os, q, h1, hq⟩ := h1 xs rfl j hj
      simp only [arrayCfg, hf, hi, if_true, Array'.writeCheck]
      refine Outcome.bind (outcome_alignto (by omega) b0) fun _ _ b1 => outcome_get_bind (outcome_lift ?_)
      simp only [checkOffsetAt, h1, Val.asArr, ok_bind, hq, Val.asInt]
      split
      · exact .inl ⟨hoff, rfl⟩
      · exact .inr ⟨(), rfl, trivial⟩
    · simp only [arrayCfg, hf, hi, if_false, Bool.false_eq_true]
      exact outcome_pure trivial

theorem checkRange_valid (h : f.array = none → f.type.Valid valid env v) : f.checkRange env v = .ok () := by
  refine checkRange_ok ?_ ?_
  · intro k ha ht
    have := h ha
    rw [ht] at this
    exact this
  · intro signed length ha ht
    have := h ha
    rw [ht] at this
    exact this

theorem writeChecks_ok (h : f.ValidValue valid env v) : f.writeChecks env v = .ok () := by
  have h1 : f.checkConstraint env v = .ok () := by
    unfold checkConstraint
    rcases hc : f.constraint with _ | e
    · rfl
    · simp only [h.constraint e hc, ok_bind, if_true]
  have h2 : f.checkLength env v = .ok () := by
    unfold checkLength
    rcases ha : f.array with _ | ⟨_ | _ | length, p⟩
    · rfl
    · rfl
    · rfl
    · obtain ⟨xs, rfl, -, -, hl, -⟩ := h.elements _ ha
      simp only [Val.asArr, hl length rfl, ok_bind, ne_eq, not_true_eq_false, if_false]
  have h3 : f.checkParams env v = .ok () := by
    unfold checkParams
    rcases ha : f.array with _ | a
    · rcases ht : f.type with _ | _ | _ | _ | _ | ⟨id, args⟩
      case compound =>
        cases args with
        | nil => rfl
        | cons e es =>
          obtain ⟨ps, hp, hq⟩ := h.params id (e :: es) ha ht (by simp)
          simp only [List.isEmpty_cons, Bool.false_eq_true, if_false, hp, hq, ok_bind, ne_eq, not_true_eq_false]
      all_goals rfl
    · rfl
  simp only [writeChecks, h1, h2, h3, checkRange_valid h.value, ok_bind]

/-- the value of a used field -/
theorem value_writes (hk : ∀ id v, valid id v → (codecs id).Writes off v) (ho : ¬off → f.offset = none)
    (h : f.ValidValue valid env v) :
    Pass off mode (fun path c => if f.packable && f.array.isNone then f.initPackingInner codecs env slot path c v else .ok c)
      (fun c => f.writeValue codecs env slot mode c v) (fun c p => f.initOffsetsValue codecs env slot mode c p v)
      (fun e c => (e, env.fields, v, c)) := by
  rcases ha : f.array with _ | a
  · have hv := h.value ha
    obtain ⟨m, hm⟩ := f.type.methods_ok (env := env) codecs (by
      intro signed length ht
      rw [ht] at hv
      obtain ⟨n, k, x, h1, h2, -⟩ := hv
      exact ⟨n, k, h1, h2⟩)
    obtain ⟨es, e1, e2, e3, e4⟩ := f.type.writes hk hm hv (f.fieldMode slot mode)
    refine ⟨es, ?_, e2, ?_, ?_⟩
    · rintro rfl; exact e1 rfl
    · rintro path rfl c
      by_cases hp : f.packable = true
      · obtain ⟨q, hq⟩ : ∃ q, f.fieldMode slot (some path) = some q := by
          simp only [fieldMode, hp, if_true]
          split <;> exact ⟨_, rfl⟩
        rw [← e3 q hq c]
        simp only [hp, Option.isNone_none, Bool.and_self, if_true, initPackingInner, ha, hq, hm, ok_bind]
      · obtain rfl := e1 (by simp only [fieldMode, hp, if_false, Bool.false_eq_true])
        simp only [hp, Bool.false_and, Bool.false_eq_true, if_false, initAll]
    · intro rest cw cs cr hs b0
      have hw := outcome_lift_bind (off := off) (f := fun m => m.write (f.fieldMode slot mode) cw v) hm (e4 rest cw cs cr hs b0)
      have hw' : (M.lift (f.type.methods codecs env) >>= fun m => m.write (f.fieldMode slot mode) cw v) =
          f.writeValue codecs env slot mode cw v := by
        unfold writeValue
        simp only [ha]
      rw [hw'] at hw
      refine hw.mono ?_
      · rintro cw' ⟨cs', cr', h1, h2⟩
        refine ⟨cs', cr', h1, fun hoff p => ?_⟩
        obtain ⟨e, he⟩ := h2 hoff p
        exact ⟨e, by simp only [initOffsetsValue, hm, ha, he, ok_bind]⟩
  · obtain ⟨xs, rfl, h1, h2, -, h4⟩ := h.elements a ha
    obtain ⟨m, hm⟩ := f.type.methods_ok (env := env) codecs h4
    obtain ⟨g1, g2⟩ := array_writes (m := m) (mode := mode) (fun x hx => f.type.writes hk hm (h1 x hx)) h2 ho
      (outcome_writeCheck ho ha h.offsets)
    refine Pass.quiet (fun path c _ => by simp) (fun c b0 => ?_) fun hoff c p => ?_
    · unfold writeValue
      simp only [ha]
      exact outcome_lift_bind hm (outcome_lift_bind rfl (Outcome.bind (g1 b0) fun _ _ b1 => outcome_pure rfl))
    · obtain ⟨e, he⟩ := g2 hoff p
      exact ⟨e, by simp only [initOffsetsValue, hm, ha, Val.asArr, he, ok_bind]⟩

/-- prepend a step without events -/
theorem _root_.Zserio.Pass.prepend {β : Type} {mode : Mode} {ip : List Nat → Ctx → Except Err Ctx} {w w' : Ctx → M Writer Ctx}
    {i i' : Ctx → Nat → Except Err β} {mk : Nat → Ctx → β} (h : Pass off mode ip w i mk) {ip' : List Nat → Ctx → Except Err Ctx}
    (hip : ∀ path c, ip' path c = ip path c) (hw : ∀ c b1 (Q : Ctx → Prop), (∀ b2, Outcome off (w c) b2 Q) → Outcome off (w' c) b1 Q)
    (hi : ¬off → ∀ c p, ∃ q, i' c p = i c q) : Pass off mode ip' w' i' mk := by
  obtain ⟨es, e1, e2, e3, e4⟩ := h
  refine ⟨es, e1, e2, fun path hm c => (hip path c).trans (e3 path hm c), ?_⟩
  intro rest cw cs cr hs b0
  refine (hw cw b0 _ fun b2 => e4 rest cw cs cr hs b2).mono ?_
  rintro cw' ⟨cs', cr', h1, h2⟩
  refine ⟨cs', cr', h1, fun hoff p => ?_⟩
  obtain ⟨q, hq⟩ := hi hoff cs p
  rw [hq]
  exact h2 hoff q

/-- a used field -/
theorem inner_writes (hk : ∀ id v, valid id v → (codecs id).Writes off v) (ho : ¬off → f.offset = none)
    (h : f.ValidValue valid env v) :
    Pass off mode (fun path c => if f.packable && f.array.isNone then f.initPackingInner codecs env slot path c v else .ok c)
      (fun c => f.writeInner codecs env slot mode c v) (fun c p => f.initOffsetsInner codecs env slot mode c p v)
      (fun e c => (e, env.fields, v, c)) := by
  refine (value_writes (slot := slot) hk ho h).prepend (fun _ _ => rfl) (fun c b1 Q hq => ?_) fun hoff c p => ?_
  · unfold writeInner
    refine Outcome.bind (P := fun _ => True) ?_ fun _ _ b2 => ?_
    · unfold writeAlign
      rcases hal : f.alignment with _ | a
      · exact outcome_pure trivial
      · exact outcome_alignto (by rintro rfl; exact h.alignment hal) _
    · exact Outcome.bind (outcome_writeOffset ho h.offsets b2) fun _ _ b3 => outcome_lift_bind (writeChecks_ok h) (hq b3)
  · refine ⟨f.alignField p, ?_⟩
    simp only [initOffsetsInner, initOwnOffset, ownOffset, ho hoff, ok_bind]

/-- a field -/
theorem optional_writes (hk : ∀ id v, valid id v → (codecs id).Writes off v) (ho : ¬off → f.offset = none)
    (h : f.isUsed env v = .ok false ∨ (f.isUsed env v = .ok true ∧ f.ValidValue valid env v)) :
    Pass off mode (fun path c => if f.packable && f.array.isNone then (do
        let used ← f.isUsed env v
        if used then f.initPackingInner codecs env slot path c v else .ok c) else .ok c)
      (fun c => f.writeOptional codecs env slot mode c v) (fun c p => f.initOffsetsOptional codecs env slot mode c p v)
      (fun e c => (e, env.fields, v, c)) := by
  have hbit : ∀ used b0, Outcome off (f.writeAutoBit used) b0 fun _ => True := by
    intro used b0
    unfold writeAutoBit
    split
    · exact outcome_runs ⟨_, (emits_writeBool used b0.length).runs rfl⟩ trivial
    · exact outcome_pure trivial
  rcases h with hu | ⟨hu, h⟩
  · refine Pass.quiet (fun path c _ => ?_) (fun c b0 => ?_) fun hoff c p => ?_
    · simp only [hu, ok_bind, Bool.false_eq_true, if_false, ite_self]
    · unfold writeOptional
      refine outcome_lift_bind hu (Outcome.bind (hbit _ b0) fun _ _ b1 => ?_)
      exact outcome_pure rfl
    · exact ⟨p + f.autoBit, by simp only [initOffsetsOptional, hu, ok_bind, Bool.false_eq_true, if_false]⟩
  · refine (inner_writes (slot := slot) hk ho h).prepend (fun path c => ?_) (fun c b1 Q hq => ?_) fun hoff c p => ?_
    · simp only [hu, ok_bind, if_true]
    · unfold writeOptional
      exact outcome_lift_bind hu (Outcome.bind (hbit _ b1) fun _ _ b2 => hq b2)
    · exact ⟨p + f.autoBit, by simp only [initOffsetsOptional, hu, ok_bind, if_true]⟩

theorem field_writes (hk : ∀ id v, valid id v → (codecs id).Writes off v) (ho : ¬off → f.offset = none) {present : Bool}
    (h : f.Valid valid env present v) :
    Pass off mode (fun path c => f.initPacking codecs env slot present path c v) (fun c => f.write codecs env slot present mode c v)
      (fun c p => f.initOffsets codecs env slot present mode c p v) (fun e c => (e, env.fields, v, c)) := by
  by_cases hx : f.extended = true ∧ present = false
  · obtain ⟨h1, rfl⟩ := hx
    refine Pass.quiet (fun path c _ => ?_) (fun c b0 => ?_) fun hoff c p => ?_
    · simp [initPacking, h1]
    · simp only [write, h1, if_true, Bool.false_eq_true, if_false]
      exact outcome_pure rfl
    · exact ⟨p, by simp only [initOffsets, h1, if_true, Bool.false_eq_true, if_false]⟩
  · have h' := h.resolve_left hx
    refine (optional_writes (slot := slot) hk ho h').prepend (fun path c => ?_) (fun c b1 Q hq => ?_) fun hoff c p => ?_
    · have : (f.extended && !present) = false := by
        cases he : f.extended <;> cases hp : present <;> simp_all
      simp only [initPacking, this, Bool.false_eq_true, if_false]
    · unfold write
      by_cases he : f.extended = true
      · have hp : present = true := by cases hp : present <;> simp_all
        simp only [he, hp, if_true]
        exact Outcome.bind (outcome_alignto (by omega) b1) fun _ _ b2 => hq b2
      · simp only [he, Bool.false_eq_true, if_false]
        exact hq b1
    · by_cases he : f.extended = true
      · have hp : present = true := by cases hp : present <;> simp_all
        exact ⟨_, by simp only [initOffsets, he, hp, if_true]; rfl⟩
      · exact ⟨p, by simp only [initOffsets, he, Bool.false_eq_true, if_false]⟩

end FieldDef

/-! ### Compounds -/

/-- two passes after each other -/
theorem Pass.seq {β γ δ : Type} {mode : Mode} {ip1 ip2 ip : List Nat → Ctx → Except Err Ctx} {w1 w2 w : Ctx → M Writer Ctx}
    {i1 : Ctx → Nat → Except Err β} {i2 : Ctx → Nat → Except Err γ} {i : Ctx → Nat → Except Err δ}
    {mk1 : Nat → Ctx → β} {mk2 : Nat → Ctx → γ} {mk : Nat → Ctx → δ}
    (h1 : Pass off mode ip1 w1 i1 mk1) (h2 : Pass off mode ip2 w2 i2 mk2)
    (hip : ∀ path c, ip path c = (ip1 path c >>= fun c => ip2 path c)) (hw : ∀ c, w c = (w1 c >>= w2))
    (hi : ∀ c p e c' e' c'', i1 c p = .ok (mk1 e c') → i2 c' e = .ok (mk2 e' c'') → i c p = .ok (mk e' c'')) :
    Pass off mode ip w i mk := by
  obtain ⟨es, e1, e2, e3, e4⟩ := h1
  obtain ⟨es', g1, g2, g3, g4⟩ := h2
  refine ⟨es ++ es', fun hm => by rw [e1 hm, g1 hm]; rfl, ?_, ?_, ?_⟩
  · intro e he
    rcases List.mem_append.1 he with he | he
    · exact e2 e he
    · exact g2 e he
  · intro path hm c
    rw [hip, initAll_append, ← e3 path hm c]
    congr 1
    funext c
    exact g3 path hm c
  · intro rest cw cs cr hs b0
    rw [List.append_assoc] at hs
    rw [hw]
    have h5 := e4 (es' ++ rest) cw cs cr hs
    by_cases hoff : off
    · refine Outcome.bind (h5 b0) fun cw1 hcw1 b1 => ?_
      obtain ⟨cs1, cr1, k1, -⟩ := hcw1
      refine (g4 rest cw1 cs1 cr1 k1 b1).mono ?_
      rintro cw2 ⟨cs2, cr2, k3, -⟩
      exact ⟨cs2, cr2, k3, fun h => absurd hoff h⟩
    · refine Outcome.bind (h5 b0) fun cw1 hcw1 b1 => ?_
      obtain ⟨cs1, cr1, k1, k2⟩ := hcw1
      refine (g4 rest cw1 cs1 cr1 k1 b1).mono ?_
      rintro cw2 ⟨cs2, cr2, k3, k4⟩
      refine ⟨cs2, cr2, k3, fun h p => ?_⟩
      obtain ⟨e, he⟩ := k2 h p
      obtain ⟨e', he'⟩ := k4 h e
      exact ⟨e', hi _ _ _ _ _ _ he he'⟩

theorem Struct.fields_writes (hk : ∀ id v, valid id v → (codecs id).Writes off v) {params : List Int} {numExt base : Nat}
    {mode : Mode} : ∀ {fs : List FieldDef} (_ : ∀ f ∈ fs, ¬off → f.offset = none) {prior vs : List Val}
    (_ : Struct.Valid valid params numExt base fs prior vs),
    Pass off mode (fun path c => Struct.initPacking codecs params numExt base path fs prior vs c)
      (fun c => Struct.write codecs params numExt base mode fs prior vs c)
      (fun c p => Struct.initOffsets codecs params numExt base mode fs prior vs c p) (fun e c => (e, prior ++ vs, c))
  | [], _, prior, [], _ => Pass.quiet (fun _ _ _ => rfl) (fun _ _ => outcome_pure rfl) fun _ c p => ⟨p, by simp [Struct.initOffsets]⟩
  | [], _, _, _ :: _, h => h.elim
  | f :: fs, _, _, [], h => h.elim
  | f :: fs, ho, prior, v :: vs, h => by
    obtain ⟨h1, h2⟩ := h
    refine Pass.seq (FieldDef.field_writes (slot := prior.length + 1) (mode := mode) hk (ho f (by simp)) h1)
      (Struct.fields_writes hk (fun g hg => ho g (by simp [hg])) h2) (fun _ _ => rfl) (fun _ => rfl) ?_
    intro c p e c' e' c'' k1 k2
    simp only [Struct.initOffsets, k1, k2, ok_bind, List.append_assoc, List.singleton_append]

theorem Branch.writes (hk : ∀ id v, valid id v → (codecs id).Writes off v) {f : Option FieldDef}
    (ho : ∀ g, f = some g → ¬off → g.offset = none) {params : List Int} {slot : Nat} {mode : Mode} {v : Val}
    (h : ∀ g, f = some g → g.Valid valid ⟨params, [], 0⟩ true v) :
    Pass off mode (fun path c => Branch.initPacking codecs f params slot path c v) (fun c => Branch.write codecs f params slot mode c v)
      (fun c p => Branch.initOffsets codecs f params slot mode c p v) (fun e c => (e, v, c)) := by
  cases f with
  | none => exact Pass.quiet (fun _ _ _ => rfl) (fun _ _ => outcome_pure rfl) fun _ c p => ⟨p, rfl⟩
  | some f =>
    obtain ⟨es, e1, e2, e3, e4⟩ := FieldDef.field_writes (slot := slot) (mode := mode) hk (ho f rfl) (h f rfl)
    refine ⟨es, e1, e2, e3, fun rest cw cs cr hs b0 => (e4 rest cw cs cr hs b0).mono ?_⟩
    rintro cw' ⟨cs', cr', h1, h2⟩
    refine ⟨cs', cr', h1, fun hoff p => ?_⟩
    obtain ⟨e, he⟩ := h2 hoff p
    exact ⟨e, by simp only [Branch.initOffsets, he, ok_bind]⟩

theorem CompoundDef.writes (hk : ∀ id v, valid id v → (codecs id).Writes off v) {d : CompoundDef}
    (ho : ¬off → d.AllFields (·.offset = none)) {x : Val} (h : d.Valid valid x) : (d.codec codecs).Writes off x := by
  intro mode
  cases d with
  | struct fs =>
    cases x with
    | obj ps k tag vs =>
      obtain ⟨es, e1, e2, e3, e4⟩ := Struct.fields_writes (mode := mode) hk (fun f hf hoff => ho hoff f hf) h
      refine ⟨es, e1, e2, e3, fun rest cw cs cr hs b0 => (e4 rest cw cs cr hs b0).mono ?_⟩
      rintro cw' ⟨cs', cr', h1, h2⟩
      refine ⟨cs', cr', h1, fun hoff p => ?_⟩
      obtain ⟨e, he⟩ := h2 hoff p
      exact ⟨e, by simp only [CompoundDef.codec, Struct.codec, he, ok_bind, List.nil_append]⟩
    | _ => exact h.elim
  | union fs =>
    match x, h with
    | .obj ps k tag [v], h =>
      obtain ⟨htag, f, hf, hv⟩ := h
      have hx : (IntKind.var .varsize).InRange tag := by
        have h0 : 0 ≤ tag := by
          by_contra hc
          rw [Union.select, if_pos (by omega)] at hf; cases hf
        obtain ⟨n, rfl⟩ := Int.eq_ofNat_of_zero_le h0
        exact (varsize_inRange_iff n).2 (by exact_mod_cast htag)
      have hmem := select_field hf
      obtain ⟨es, e1, e2, e3, e4⟩ := Branch.writes (slot := Union.slot tag) (mode := mode) (params := ps) (f := some f) hk
        (by rintro _ ⟨⟩ hoff; exact ho hoff f hmem) (by rintro _ ⟨⟩; exact hv)
      refine Pass.seq (mode := mode)
        (ip1 := fun path c => intInit (.var .varsize) (path ++ [0]) c (.int tag))
        (w1 := fun c => intWrite (.var .varsize) (Union.tagMode mode) c tag)
        (i1 := fun c p => (do let (n, c) ← intSize (.var .varsize) (Union.tagMode mode) c p (.int tag); .ok (p + n, c) : Except Err (Nat × Ctx)))
        (mk1 := fun e c => (e, c)) ?_ (⟨es, e1, e2, e3, e4⟩ : Pass off mode _ _ _ _) ?_ ?_ ?_
      · obtain ⟨es', g1, g2, g3, g4⟩ := Pass.int (off := off) (mode := Union.tagMode mode)
          (ip := fun path c => intInit (.var .varsize) path c (.int tag))
          (w := fun c => intWrite (.var .varsize) (Union.tagMode mode) c tag)
          (i := fun c p => (do let (n, c) ← intSize (.var .varsize) (Union.tagMode mode) c p (.int tag); .ok (p + n, c) : Except Err (Nat × Ctx)))
          (mk := fun e c => (e, c)) hx (fun _ _ _ => rfl) (fun _ => rfl) (fun c p n c' hn => ⟨p + n, by simp only [hn, ok_bind]⟩)
        refine ⟨es', ?_, g2, ?_, g4⟩
        · rintro rfl; exact g1 rfl
        · rintro path rfl c
          exact g3 (path ++ [0]) rfl c
      · intro path c
        simp only [CompoundDef.codec, Union.codec, hf, ok_bind]
      · intro c
        simp only [CompoundDef.codec, Union.codec, hf]
        rfl
      · intro c p e c' e' c'' k1 k2
        obtain ⟨⟨n, c1⟩, k3, k4⟩ := except_bind_ok k1
        simp only [Except.ok.injEq, Prod.mk.injEq] at k4
        obtain ⟨rfl, rfl⟩ := k4
        simp only [CompoundDef.codec, Union.codec, k3, hf, k2, ok_bind]
  | choice selector cases default =>
    match x, h with
    | .obj ps k tag [v], h =>
      obtain ⟨f, slot, hf, hv⟩ := h
      obtain ⟨es, e1, e2, e3, e4⟩ := Branch.writes (slot := slot) (mode := mode) (params := ps) (f := f) hk
        (by
          rintro g rfl hoff
          obtain ⟨s, hs, hc⟩ := except_bind_ok hf
          rcases selectCase_field hc with ⟨k, hk, hkf⟩ | hd
          · exact (ho hoff).1 k hk g hkf
          · exact (ho hoff).2 g hd) hv
      refine ⟨es, e1, e2, ?_, fun rest cw cs cr hs b0 => ?_⟩
      · intro path hm c
        rw [← e3 path hm c]
        simp only [CompoundDef.codec, Choice.codec, hf, ok_bind]
      · have hw := outcome_lift_bind (off := off) (f := fun (y : Option FieldDef × Nat) => Branch.write codecs y.1 ps y.2 mode cw v) hf
          (e4 rest cw cs cr hs b0)
        refine Outcome.mono (m := (CompoundDef.codec codecs (.choice selector cases default)).write mode cw (.obj ps k tag [v])) hw ?_
        · rintro cw' ⟨cs', cr', h1, h2⟩
          refine ⟨cs', cr', h1, fun hoff p => ?_⟩
          obtain ⟨e, he⟩ := h2 hoff p
          exact ⟨e, by simp only [CompoundDef.codec, Choice.codec, hf, he, ok_bind]⟩

theorem Schema.writes {defs : Schema} (ho : ¬off → defs.NoOffsets) : ∀ (n id : Nat) (x : Val), defs.Valid n id x →
    (defs.codec n id).Writes off x
  | 0, _, _, h => h.elim
  | n + 1, id, x, h => CompoundDef.writes (fun id v hv => Schema.writes ho n id v hv) (fun hoff => ho hoff id) h

/-- An object that is valid is written, or fails for an offset. -/
theorem Schema.writeTo_outcome {defs : Schema} (ho : ¬off → defs.NoOffsets) {n id : Nat} {x : Val} (h : defs.Valid n id x)
    (b0 : List Bool) : Outcome off ((defs.codec n id).writeTo x) b0 fun _ => True := by
  obtain ⟨es, e1, -, -, e4⟩ := Schema.writes ho n id x h none
  obtain rfl := e1 rfl
  unfold Codec.writeTo
  exact Outcome.bind (e4 [] _ _ _ allSync_empty b0) fun _ _ _ => outcome_pure trivial

theorem Schema.initialize_valid {defs : Schema} (ho : defs.NoOffsets) {n id : Nat} {x : Val} (h : defs.Valid n id x) (p : Nat) :
    ∃ e, (defs.codec n id).initialize p x = .ok (e, x) := by
  obtain ⟨es, e1, -, -, e4⟩ := Schema.writes (off := False) (fun _ => ho) n id x h none
  obtain rfl := e1 rfl
  rcases e4 [] _ _ _ allSync_empty [] with h | ⟨_, _, _, _, _, _, h2⟩
  · exact h.1.elim
  · obtain ⟨e, he⟩ := h2 not_false p
    exact ⟨e, by simp only [Codec.initialize, he, ok_bind]⟩

end Zserio
