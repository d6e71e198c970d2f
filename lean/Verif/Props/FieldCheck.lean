import Verif.Lemmas.FieldCheck
import Verif.Props.Position
/-
Property C99: the expressions of a field which the compiler accepts do what their places require: the alignment is a number to which
positions can be aligned, the default value is a value which the field can hold and which can be written, conditions and constraints are
true or false, lengths are numbers, and arguments are values of the types of the parameters.

`check` (Model/FieldCheck.lean) is what the compiler does; what is required is in Spec/FieldCheck.lean.  Values are those which the
generated Python code computes (`Expr.eval` with `Division.floor`, property C67).
-/
set_option linter.unusedSimpArgs false
set_option linter.unusedVariables false

namespace Zserio.FieldCheck

open Zserio.Expression Zserio.TypeCheck
open Zserio.ExprBounds (Known info dynamicKnown)
open Zserio.ConstEval (lowerBound upperBound ValidKind)

variable {O : Type} {T : O → Ty → Prop} {D : Decls} {N : ExprBounds.Names} {params : Nat → List Plain}

theorem evaluated {e : Expression.Expr} {a : Attr} {k : Known} (h : evaluate D N e = .ok (a, k)) (hs : Strict D.signature e) :
    ∃ t, e.type D.signature = some t ∧ a.Says t ∧ Knows D N e k ∧ TypeCheck.check D e = .ok a := by
  obtain ⟨h1, h2⟩ := evaluate_ok.mp h
  obtain ⟨t, ht, ha⟩ := C97_sound_partial D e a h1 hs
  exact ⟨t, ht, ha, h2, h1⟩

theorem evaluates {e : Expression.Expr} {t : Ty} {k : Known} (ht : e.type D.signature = some t) (hs : Supported D e) (hk : Knows D N e k) :
    ∃ a, evaluate D N e = .ok (a, k) ∧ a.Says t ∧ TypeCheck.check D e = .ok a := by
  obtain ⟨a, h1, h2⟩ := C97_accepts D e t ht hs
  exact ⟨a, evaluate_ok.mpr ⟨h1, hk⟩, h2, h1⟩

theorem check_ok {f : Field} : check D N params f = .ok () ↔
    checkIndex f = .ok () ∧ resolve params f.type = .ok () ∧ checkType D N params f.type = .ok () ∧
    (∀ e, f.length = some e → checkLength D N e = .ok ()) ∧ (∀ e, f.alignment = some e → checkAlignment D N e = .ok ()) ∧
    (∀ e, f.initializer = some e → checkInitializer D N f e = .ok ()) ∧ (∀ e, f.clause = some e → checkBoolean D N e = .ok ()) ∧
    (∀ e, f.constraint = some e → checkBoolean D N e = .ok ()) := by
  simp only [check, bind_unit, ifPresent_ok]

theorem checkLength_ok {e : Expression.Expr} :
    checkLength D N e = .ok () ↔ ∃ a k, evaluate D N e = .ok (a, k) ∧ a.kind = .integer := by
  simp only [checkLength, bind_ok, require_ok, decide_eq_true_eq, Prod.exists]

theorem checkBoolean_ok {e : Expression.Expr} :
    checkBoolean D N e = .ok () ↔ ∃ a k, evaluate D N e = .ok (a, k) ∧ a.kind = .boolean := by
  simp only [checkBoolean, bind_ok, require_ok, decide_eq_true_eq, Prod.exists]

theorem checkAlignment_ok {e : Expression.Expr} :
    checkAlignment D N e = .ok () ↔ ∃ a k v, evaluate D N e = .ok (a, k) ∧ k.value = some v ∧ 0 ≤ v ∧ v ≤ 2 ^ 31 - 1 := by
  simp only [checkAlignment, bind_ok, Prod.exists]
  constructor
  · rintro ⟨a, k, h, h2⟩
    split at h2
    · cases h2
    · rename_i v hv
      simp only [bind_unit, require_ok, Bool.not_eq_true', decide_eq_false_iff_not] at h2
      exact ⟨a, k, v, h, hv, by omega, by omega⟩
  · rintro ⟨a, k, v, h, hv, h1, h2⟩
    refine ⟨a, k, h, ?_⟩
    simp only [hv, bind_unit, require_ok, Bool.not_eq_true', decide_eq_false_iff_not]
    omega

theorem checkInitializer_ok {f : Field} {e : Expression.Expr} :
    checkInitializer D N f e = .ok () ↔ ∃ a k b, evaluate D N e = .ok (a, k) ∧
      checkExpressionType a (if f.isArray then none else some f.type.plain) = true ∧ requiresOwnerContext D e = false ∧
      bounds D N f.type = .ok b ∧ inRange b k = true := by
  simp only [checkInitializer, bind_ok, require_ok, Prod.exists, Bool.not_eq_true']
  constructor
  · rintro ⟨a, k, h1, _, h2, _, h3, b, h4, h5⟩; exact ⟨a, k, b, h1, h2, h3, h4, h5⟩
  · rintro ⟨a, k, b, h1, h2, h3, h4, h5⟩; exact ⟨a, k, h1, (), h2, (), h3, b, h4, h5⟩

theorem mem_others {f : Field} {e : Expression.Expr} : e ∈ f.others ↔
    f.type.length = some e ∨ f.length = some e ∨ f.alignment = some e ∨ f.initializer = some e ∨ f.clause = some e ∨
      f.constraint = some e := by
  simp only [Field.others, List.mem_append, Option.mem_toList, or_assoc, Option.mem_def]

theorem mem_expressions {f : Field} {e : Expression.Expr} : e ∈ f.expressions ↔ e ∈ f.type.arguments ∨ e ∈ f.others := by
  simp only [Field.expressions, List.mem_append]

/-- the place of an argument -/
theorem argument_place {f : Field} {e : Expression.Expr} (h : e ∈ f.type.arguments)
    (hc : ∀ c args, f.type = .compound c args → args.length = (params c).length) :
    ∃ c args, ∃ i : Nat, ∃ p, f.type = .compound c args ∧ args[i]? = some e ∧ (params c)[i]? = some p := by
  cases ht : f.type with
  | compound c args =>
    rw [ht] at h
    obtain ⟨i, hi, rfl⟩ := List.mem_iff_getElem.mp h
    have := hc c args ht
    exact ⟨c, args, i, (params c)[i]'(this ▸ hi), rfl, List.getElem?_eq_getElem hi, List.getElem?_eq_getElem (this ▸ hi)⟩
  | _ => rw [ht] at h; simp [FieldType.arguments] at h

theorem inRange_iff {b k : Known} : inRange (some b) k = true ↔
    ∀ v l u, k.value = some v → b.lower = some l → b.upper = some u → l ≤ v ∧ v ≤ u := by
  unfold inRange
  cases hv : k.value <;> cases hl : b.lower <;> cases hu : b.upper <;> simp [hl, hu]

/-- **C99.** A field which the compiler accepts keeps to the rules (`Field.Rules`), if its expressions keep to the rules of the guide in
the places where the compiler does not look (property C97). -/
theorem C99_rules_partial {f : Field} (h : check D N params f = .ok ()) (hs : ∀ e ∈ f.expressions, Strict D.signature e) :
    f.Rules D N params := by
  obtain ⟨h1, h2, h3, h4, h5, h6, h7, h8⟩ := check_ok.mp h
  have hcount := resolve_ok.mp h2
  have hidx := checkIndex_ok.mp h1
  have hso : ∀ e ∈ f.others, Strict D.signature e := fun e he => hs e (mem_expressions.mpr (.inr he))
  have harg : ∀ c args, f.type = .compound c args → ∀ (i : Nat) e p, args[i]? = some e → (params c)[i]? = some p →
      ∃ t k, e.type D.signature = some t ∧ TypeFits t p ∧ Knows D N e k := by
    intro c args hf i e p he hp
    rw [hf] at h3
    obtain ⟨a, k, hev, hty⟩ := (checkArguments_ok (hcount c args hf)).mp h3 i e p he hp
    obtain ⟨t, ht, ha, hk, _⟩ := evaluated hev (hs e (mem_expressions.mpr (.inl (by
      rw [hf]; exact List.mem_of_getElem? he))))
    exact ⟨t, k, ht, (checkExpressionType_iff ha p).mp hty, hk⟩
  have hbits : ∀ signed l, f.type = .bits signed l → l.type D.signature = some .int ∧ ∃ k b, Knows D N l k ∧ dynamicKnown signed k = .ok b := by
    intro signed l hf
    rw [hf] at h3
    simp only [checkType, bind_ok] at h3
    obtain ⟨b, hb, _⟩ := h3
    obtain ⟨a, k, hev, hkind, hdk⟩ := evaluateBits_ok.mp hb
    obtain ⟨t, ht, ha, hk, _⟩ := evaluated hev (hso l (mem_others.mpr (.inl (by rw [hf]; rfl))))
    rw [Says_int ha] at hkind
    subst hkind
    exact ⟨ht, k, b, hk, hdk⟩
  have hlen : ∀ e, f.length = some e → e.type D.signature = some .int ∧ ∃ k, Knows D N e k := by
    intro e he
    obtain ⟨a, k, hev, hkind⟩ := checkLength_ok.mp (h4 e he)
    obtain ⟨t, ht, ha, hk, _⟩ := evaluated hev (hso e (mem_others.mpr (.inr (.inl he))))
    rw [Says_int ha] at hkind
    subst hkind
    exact ⟨ht, k, hk⟩
  have hbool : ∀ e ∈ f.others, checkBoolean D N e = .ok () → e.type D.signature = some .bool ∧ ∃ k, Knows D N e k := by
    intro e he hc
    obtain ⟨a, k, hev, hkind⟩ := checkBoolean_ok.mp hc
    obtain ⟨t, ht, ha, hk, _⟩ := evaluated hev (hso e he)
    rw [Says_bool ha] at hkind
    subst hkind
    exact ⟨ht, k, hk⟩
  have hinit : ∀ e, f.initializer = some e → ∃ a k b, evaluate D N e = .ok (a, k) ∧
      checkExpressionType a (if f.isArray then none else some f.type.plain) = true ∧ requiresOwnerContext D e = false ∧
      bounds D N f.type = .ok b ∧ inRange b k = true := fun e he => checkInitializer_ok.mp (h6 e he)
  refine ⟨hidx, hcount, ?_, hbits, fun e he => (hlen e he).1, ?_, ?_, ?_, ?_, ?_, ?_⟩
  · intro c args hf i e p he hp
    obtain ⟨t, k, ht, hfits, _⟩ := harg c args hf i e p he hp
    exact ⟨t, ht, hfits⟩
  · intro e he
    obtain ⟨a, k, v, hev, hv, h0, h1⟩ := checkAlignment_ok.mp (h5 e he)
    exact ⟨v, k, (evaluate_ok.mp hev).2, hv, h0, h1⟩
  · intro e he
    have hmem : e ∈ f.others := mem_others.mpr (.inr (.inr (.inr (.inl he))))
    obtain ⟨a, k, b, hev, hty, how, _⟩ := hinit e he
    obtain ⟨t, ht, ha, hk, hck⟩ := evaluated hev (hso e hmem)
    have harr : f.isArray = false := by
      cases hia : f.isArray with
      | false => rfl
      | true => rw [hia] at hty; simp [checkExpressionType] at hty
    rw [harr] at hty
    refine ⟨harr, ?_, t, ht, (checkExpressionType_iff ha _).mp hty⟩
    rw [depends_iff e hck (hso e hmem), how, usesIndex_iff]
    simp [hidx.2 e hmem]
  · intro e k v he hk hv
    obtain ⟨a, k', b, hev, hty, how, hb, hr⟩ := hinit e he
    rw [knows_unique (evaluate_ok.mp hev).2 hk] at hr
    constructor
    · intro kind hf
      rw [hf] at hb
      simp only [bounds, Except.ok.injEq] at hb
      subst hb
      exact inRange_iff.mp hr v _ _ hv rfl rfl
    · intro signed l kl b' lo hi hf hkl hdk hlo hhi
      rw [hf] at hb
      simp only [bounds, bind_ok, Except.ok.injEq] at hb
      obtain ⟨b2, hb2, rfl⟩ := hb
      obtain ⟨a', k2, hev', _, hdk2⟩ := evaluateBits_ok.mp hb2
      rw [knows_unique (evaluate_ok.mp hev').2 hkl, hdk] at hdk2
      cases hdk2
      exact inRange_iff.mp hr v lo hi hv hlo hhi
  · intro e he
    exact (hbool e (mem_others.mpr (.inr (.inr (.inr (.inr (.inl he)))))) (h7 e he)).1
  · intro e he
    exact (hbool e (mem_others.mpr (.inr (.inr (.inr (.inr (.inr he)))))) (h8 e he)).1
  · intro e he
    rcases mem_expressions.mp he with he | he
    · obtain ⟨c, args, i, p, hf, hi, hp⟩ := argument_place he hcount
      obtain ⟨t, k, ht, _, hk⟩ := harg c args hf i e p hi hp
      exact ⟨⟨t, ht⟩, k, hk⟩
    · have hm := mem_others.mp he
      rcases hm with hm | hm | hm | hm | hm | hm
      · cases hf : f.type with
        | bits signed l =>
          rw [hf] at hm
          cases hm
          obtain ⟨ht, k, _, hk, _⟩ := hbits signed _ hf
          exact ⟨⟨_, ht⟩, k, hk⟩
        | _ => rw [hf] at hm; cases hm
      · obtain ⟨ht, hk⟩ := hlen e hm; exact ⟨⟨_, ht⟩, hk⟩
      · obtain ⟨a, k, v, hev, _⟩ := checkAlignment_ok.mp (h5 e hm)
        obtain ⟨t, ht, _, hk, _⟩ := evaluated hev (hso e he)
        exact ⟨⟨t, ht⟩, k, hk⟩
      · obtain ⟨a, k, b, hev, _⟩ := hinit e hm
        obtain ⟨t, ht, _, hk, _⟩ := evaluated hev (hso e he)
        exact ⟨⟨t, ht⟩, k, hk⟩
      · obtain ⟨ht, hk⟩ := hbool e he (h7 e hm); exact ⟨⟨_, ht⟩, hk⟩
      · obtain ⟨ht, hk⟩ := hbool e he (h8 e hm); exact ⟨⟨_, ht⟩, hk⟩

/-- **C99.** Every field which keeps to the rules is accepted, if its expressions use only what the compiler supports. -/
theorem C99_accepts {f : Field} (h : f.Rules D N params) (hs : ∀ e ∈ f.expressions, Supported D e) : check D N params f = .ok () := by
  have hso : ∀ e ∈ f.others, Supported D e := fun e he => hs e (mem_expressions.mpr (.inr he))
  have hev : ∀ e ∈ f.expressions, ∀ t, e.type D.signature = some t → ∃ a k, evaluate D N e = .ok (a, k) ∧ a.Says t ∧
      TypeCheck.check D e = .ok a ∧ Knows D N e k := by
    intro e he t ht
    obtain ⟨_, k, hk⟩ := h.expressions e he
    obtain ⟨a, h1, h2, h3⟩ := evaluates ht (hs e he) hk
    exact ⟨a, k, h1, h2, h3, hk⟩
  have hevo : ∀ e ∈ f.others, ∀ t, e.type D.signature = some t → ∃ a k, evaluate D N e = .ok (a, k) ∧ a.Says t ∧
      TypeCheck.check D e = .ok a ∧ Knows D N e k := fun e he => hev e (mem_expressions.mpr (.inr he))
  have hbits : ∀ signed l, f.type = .bits signed l → ∃ b k, evaluateBits D N signed l = .ok b ∧ Knows D N l k ∧ dynamicKnown signed k = .ok b := by
    intro signed l hf
    obtain ⟨ht, k, b, hk, hdk⟩ := h.bits signed l hf
    obtain ⟨a, k', h1, h2, _, hk'⟩ := hevo l (mem_others.mpr (.inl (by rw [hf]; rfl))) .int ht
    rw [knows_unique hk' hk] at h1
    exact ⟨b, k, evaluateBits_ok.mpr ⟨a, k, h1, (Says_int h2).mpr rfl, hdk⟩, hk, hdk⟩
  refine check_ok.mpr ⟨checkIndex_ok.mpr h.index, resolve_ok.mpr h.count, ?_, ?_, ?_, ?_, ?_, ?_⟩
  · cases hf : f.type with
    | bits signed l =>
      obtain ⟨b, k, hb, _⟩ := hbits signed l hf
      simp only [checkType, bind_ok]
      exact ⟨b, hb, trivial⟩
    | compound c args =>
      refine (checkArguments_ok (h.count c args hf)).mpr fun i e p he hp => ?_
      obtain ⟨t, ht, hfits⟩ := h.arguments c args hf i e p he hp
      obtain ⟨a, k, h1, h2, _⟩ := hev e (mem_expressions.mpr (.inl (by rw [hf]; exact List.mem_of_getElem? he))) t ht
      exact ⟨a, k, h1, (checkExpressionType_iff h2 p).mpr hfits⟩
    | _ => rfl
  · intro e he
    obtain ⟨a, k, h1, h2, _⟩ := hevo e (mem_others.mpr (.inr (.inl he))) _ (h.length e he)
    exact checkLength_ok.mpr ⟨a, k, h1, (Says_int h2).mpr rfl⟩
  · intro e he
    obtain ⟨v, k, hk, hv, h0, h1⟩ := h.alignment e he
    have hmem : e ∈ f.others := mem_others.mpr (.inr (.inr (.inl he)))
    obtain ⟨⟨t, ht⟩, _⟩ := h.expressions e (mem_expressions.mpr (.inr hmem))
    obtain ⟨a, k', h2, _, _, hk'⟩ := hevo e hmem t ht
    rw [knows_unique hk' hk] at h2
    exact checkAlignment_ok.mpr ⟨a, k, v, h2, hv, h0, h1⟩
  · intro e he
    have hmem : e ∈ f.others := mem_others.mpr (.inr (.inr (.inr (.inl he))))
    obtain ⟨harr, hdep, t, ht, hfits⟩ := h.initializer e he
    obtain ⟨a, k, h1, h2, hck, hk⟩ := hevo e hmem t ht
    have how : requiresOwnerContext D e = false := by
      cases ho : requiresOwnerContext D e with
      | false => rfl
      | true => exact absurd ((depends_iff e hck (strict_of_type e ht)).mpr (.inl ho)) hdep
    have hty : checkExpressionType a (if f.isArray then none else some f.type.plain) = true := by
      rw [harr]
      exact (checkExpressionType_iff h2 _).mpr hfits
    have hr := fun v hv => h.range e k v he hk hv
    cases hf : f.type with
    | int kind =>
      refine checkInitializer_ok.mpr ⟨a, k, _, h1, hty, how, by rw [hf]; rfl, inRange_iff.mpr fun v l u hv hl hu => ?_⟩
      cases hl
      cases hu
      exact (hr v hv).1 kind hf
    | bits signed l =>
      obtain ⟨b, kl, hb, hkl, hdk⟩ := hbits signed l hf
      refine checkInitializer_ok.mpr ⟨a, k, some b, h1, hty, how, ?_, inRange_iff.mpr fun v lo hi hv hl hu => ?_⟩
      · rw [hf]
        simp only [bounds, bind_ok]
        exact ⟨b, hb, rfl⟩
      · exact (hr v hv).2 signed l kl b lo hi hf hkl hdk hl hu
    | _ => exact checkInitializer_ok.mpr ⟨a, k, none, h1, hty, how, by rw [hf]; rfl, rfl⟩
  · intro e he
    obtain ⟨a, k, h1, h2, _⟩ := hevo e (mem_others.mpr (.inr (.inr (.inr (.inr (.inl he)))))) _ (h.clause e he)
    exact checkBoolean_ok.mpr ⟨a, k, h1, (Says_bool h2).mpr rfl⟩
  · intro e he
    obtain ⟨a, k, h1, h2, _⟩ := hevo e (mem_others.mpr (.inr (.inr (.inr (.inr (.inr he)))))) _ (h.constraint e he)
    exact checkBoolean_ok.mpr ⟨a, k, h1, (Says_bool h2).mpr rfl⟩

theorem intValue_int32 {y : Int} (h0 : -(2 ^ 31) ≤ y) (h1 : y < 2 ^ 31) : ConstEval.intValue y = y := by
  unfold ConstEval.intValue
  exact Int.bmod_eq_of_le (by omega) (by omega)

/-! ### what the rules mean for objects -/

theorem has_of_knows {W : World O} {e : Expression.Expr} {t : Ty} {k : Known} {v : Value O} {x : Int} (hW : W.Typed D.signature T)
    (hN : N.Describe W T) (hk : Knows D N e k) (ht : e.type D.signature = some t) (hc : Calculable D N W e)
    (hv : e.eval W .floor = some v) (hx : ExprBounds.number v = some x) : k.Has x := by
  obtain ⟨i, hi, rfl⟩ := hk
  exact ExprBounds.C86_python_partial hW hN e t i v x ht hi hv hx hc.safe hc.sized hc.plainTexts hc.natural

/-- **C99.** The default value: in every complete object the initializer yields a value which the field can hold, an integer within the
range of the type, a value of the enumeration or bitmask, ...; so the field of a new object can be written. Missing, and false of the
code (see below): integers which the compiler does not compute or computes in another way than Python, and bit fields whose number of
bits is not known. -/
theorem C99_default_partial {W : World O} {f : Field} {e : Expression.Expr} (h : check D N params f = .ok ())
    (hs : ∀ e ∈ f.expressions, Strict D.signature e) (he : f.initializer = some e) (hW : W.Typed D.signature T)
    (hC : Complete W D.signature T) (hN : N.Describe W T) (hf : ¬ Faults W .floor e)
    (hint : f.type.plain = .int → Calculable D N W e ∧ Computed N e)
    (hkind : ∀ kind, f.type = .int kind → ValidKind kind)
    (hbits : ∀ signed l, f.type = .bits signed l → Calculable D N W l ∧ Computed N l ∧
      ∃ n : Nat, l.eval W .floor = some (.int n) ∧ n < 2 ^ 31) :
    ∃ v, e.eval W .floor = some v ∧ f.type.Holds T W v := by
  have hr := C99_rules_partial h hs
  obtain ⟨_, _, t, ht, hfits⟩ := hr.initializer e he
  obtain ⟨v, hv, hty, hm⟩ := eval_progress hW hC .floor e ht hf
  refine ⟨v, hv, ?_⟩
  have hmem : e ∈ f.expressions := mem_expressions.mpr (.inr (mem_others.mpr (.inr (.inr (.inr (.inl he))))))
  obtain ⟨_, k, hk⟩ := hr.expressions e hmem
  have hnum : f.type.plain = .int → ∃ x, v = .int x ∧ k.value = some x := by
    intro hp
    rw [hp] at hfits
    rcases hfits with rfl | ⟨h, _⟩
    · obtain ⟨x, rfl⟩ : ∃ x, v = .int x := by cases v <;> first | exact ⟨_, rfl⟩ | exact hty.elim
      obtain ⟨hcalc, hcomp⟩ := hint hp
      obtain ⟨i, hi, rfl⟩ := id hk
      obtain ⟨y, hy⟩ := Option.isSome_iff_exists.mp (computed_known e ht (.inl rfl) hi hcomp)
      have hh := has_of_knows hW hN hk ht hcalc hv rfl
      exact ⟨x, rfl, by rw [hh.1 y hy]; exact hy⟩
    · cases h
  cases hft : f.type with
  | int kind =>
    obtain ⟨x, rfl, hx⟩ := hnum (by rw [hft]; rfl)
    obtain ⟨h1, h2⟩ := (hr.range e k x he hk hx).1 kind hft
    exact ConstEval.bounds_inRange (hkind kind hft) h1 h2
  | bits signed l =>
    obtain ⟨x, rfl, hx⟩ := hnum (by rw [hft]; rfl)
    obtain ⟨hcalc, hcomp, n, hn, hlt⟩ := hbits signed l hft
    obtain ⟨htl, kl, b, hkl, hdk⟩ := hr.bits signed l hft
    have hh := has_of_knows hW hN hkl htl hcalc hn rfl
    obtain ⟨i, hi, rfl⟩ := id hkl
    obtain ⟨y, hy⟩ := Option.isSome_iff_exists.mp (computed_known l htl (.inl rfl) hi hcomp)
    have hyn := hh.1 y hy
    subst hyn
    refine ⟨n, hn, ?_⟩
    have hr2 := fun lo hi => (hr.range e k x he hk hx).2 signed l _ b lo hi hft hkl hdk
    unfold dynamicKnown ExprBounds.maxBitSize at hdk
    rw [hy] at hdk
    simp only [ConstEval.intValue_small (y := (n : Int)) (by omega) (by omega)] at hdk
    by_cases hbad : (n : Int) < 1 ∨ (n : Int) > 64
    · rw [if_pos hbad] at hdk; cases hdk
    · rw [if_neg hbad] at hdk
      cases signed with
      | false =>
        simp only [Bool.false_eq_true, if_false, bind, Except.bind, Except.ok.injEq] at hdk
        subst hdk
        obtain ⟨h1, h2⟩ := hr2 _ _ rfl rfl
        rw [ConstEval.shiftLeft, if_neg (by omega)] at h2
        have hn' : ((n : Int)).toNat = n := by omega
        rw [hn'] at h2
        exact ⟨by omega, h1, by omega⟩
      | true =>
        simp only [if_true, bind, Except.bind, Except.ok.injEq] at hdk
        subst hdk
        obtain ⟨h1, h2⟩ := hr2 _ _ rfl rfl
        rw [ConstEval.shiftLeft, if_neg (by omega)] at h1 h2
        have hn' : ((n : Int) - 1).toNat = n - 1 := by omega
        rw [hn'] at h1 h2
        exact ⟨by omega, by omega, by omega⟩
  | bitmask c =>
    rw [hft] at hfits
    rcases hfits with rfl | ⟨h, _⟩
    · cases v <;> first | exact hty.elim | exact ⟨hty.symm, by
        have : c = _ := hty.symm
        subst this
        exact hm⟩
    · cases h
  | _ =>
    rw [hft] at hfits
    rcases hfits with rfl | ⟨h, rfl⟩
    · cases v <;> first | exact hty.elim | trivial | exact hty.symm | exact hty
    · first | (cases h; done) | (cases v <;> first | exact hty.elim | trivial)

/-- **C99.** The default value does not depend on the object: it is the same for all objects of the schema, so it can be computed where
the class is defined. -/
theorem C99_default_constant {W W' : World O} {f : Field} {e : Expression.Expr} (h : check D N params f = .ok ())
    (hs : ∀ e ∈ f.expressions, Strict D.signature e) (he : f.initializer = some e) (hW : W.Typed D.signature T)
    (hsame : SameConstants D W W') (d : Division) : e.eval W d = e.eval W' d := by
  obtain ⟨_, hdep, t, ht, _⟩ := (C99_rules_partial h hs).initializer e he
  exact eval_same hW hsame d e ht hdep

/-- **C99.** The alignment: it is the same natural number `a` in all objects, below 2³¹, and positions are aligned to it if it is not 0:
the writer, the reader and the computation of sizes agree about the position.  Missing, and false of the code (see below): the
alignment 0, alignments which are no integers, and ones which the compiler computes in another way than Python. -/
theorem C99_alignment_partial {f : Field} {e : Expression.Expr} (h : check D N params f = .ok ()) (he : f.alignment = some e)
    (ht : e.type D.signature = some .int) :
    ∃ a : Nat, a < 2 ^ 31 ∧
      (∀ W : World O, W.Typed D.signature T → Complete W D.signature T → N.Describe W T → ¬ Faults W .floor e → Calculable D N W e →
        e.eval W .floor = some (.int a)) ∧
      (a ≠ 0 → ∀ p : Nat, ∃ q, IsLeastMultiple a p q ∧ alignTo a p = q ∧
        (∀ bs : List Bool, bs.length = p → Writer.alignto a (Writer.ofBits bs) = (.ok (), Writer.ofBits (bs ++ zeros (q - p)))) ∧
        ∀ r : Reader, r.WF → r.pos = p → (q : Int) ≤ r.bitsize → Reader.alignto a r = (.ok (), { r with pos := q })) := by
  obtain ⟨_, _, _, _, h5, _⟩ := check_ok.mp h
  obtain ⟨at', k, v, hev, hv, h0, h1⟩ := checkAlignment_ok.mp (h5 e he)
  obtain ⟨a, rfl⟩ := Int.eq_ofNat_of_zero_le h0
  refine ⟨a, by omega, ?_, ?_⟩
  · intro W hW hC hN hf hc
    obtain ⟨w, hw, hty, _⟩ := eval_progress hW hC .floor e ht hf
    obtain ⟨x, rfl⟩ : ∃ x, w = .int x := by cases w <;> first | exact ⟨_, rfl⟩ | exact hty.elim
    have hh := has_of_knows hW hN (evaluate_ok.mp hev).2 ht hc hw rfl
    rw [hw, hh.1 _ hv]
  · intro ha p
    obtain ⟨q, hq, h1, h2, h3⟩ := C16_alignto_agree a p (by omega)
    exact ⟨q, hq, h3, h1, fun r hr hp hb => by rw [h2 r hr hp, if_pos hb]⟩

/-- **C99.** Conditions and constraints are true or false in every complete object, unless their evaluation fails because of the
values. -/
theorem C99_conditions_partial {W : World O} {f : Field} {e : Expression.Expr} (h : check D N params f = .ok ())
    (hs : ∀ e ∈ f.expressions, Strict D.signature e) (he : f.clause = some e ∨ f.constraint = some e) (hW : W.Typed D.signature T)
    (hC : Complete W D.signature T) (hf : ¬ Faults W .floor e) : ∃ b, e.eval W .floor = some (.bool b) := by
  have hr := C99_rules_partial h hs
  have ht : e.type D.signature = some .bool := by
    rcases he with he | he
    · exact hr.clause e he
    · exact hr.constraint e he
  obtain ⟨v, hv, hty, _⟩ := eval_progress hW hC .floor e ht hf
  cases v <;> first | exact ⟨_, hv⟩ | exact hty.elim

/-- **C99.** The length of an array and the number of bits of a bit field are integers in every complete object, unless their evaluation
fails because of the values; a number of bits which is computed from constants is from 1 to 64. -/
theorem C99_lengths_partial {W : World O} {f : Field} {e : Expression.Expr} (h : check D N params f = .ok ())
    (hs : ∀ e ∈ f.expressions, Strict D.signature e) (he : f.length = some e ∨ f.type.length = some e) (hW : W.Typed D.signature T)
    (hC : Complete W D.signature T) (hf : ¬ Faults W .floor e) :
    ∃ n, e.eval W .floor = some (.int n) ∧
      (f.type.length = some e → N.Describe W T → Calculable D N W e → Computed N e → -(2 ^ 31) ≤ n → n < 2 ^ 31 → 1 ≤ n ∧ n ≤ 64) := by
  have hr := C99_rules_partial h hs
  have hb : f.type.length = some e → ∃ signed, f.type = .bits signed e := by
    intro he
    cases hft : f.type with
    | bits signed l => rw [hft] at he; cases he; exact ⟨signed, rfl⟩
    | _ => rw [hft] at he; cases he
  have ht : e.type D.signature = some .int := by
    rcases he with he | he
    · exact hr.length e he
    · obtain ⟨signed, hft⟩ := hb he
      exact (hr.bits signed e hft).1
  obtain ⟨v, hv, hty, _⟩ := eval_progress hW hC .floor e ht hf
  obtain ⟨n, rfl⟩ : ∃ x, v = .int x := by cases v <;> first | exact ⟨_, rfl⟩ | exact hty.elim
  refine ⟨n, hv, fun hl hN hc hcomp h1 h2 => ?_⟩
  obtain ⟨signed, hft⟩ := hb hl
  obtain ⟨_, k, b, hk, hdk⟩ := hr.bits signed e hft
  have hh := has_of_knows hW hN hk ht hc hv rfl
  obtain ⟨i, hi, rfl⟩ := id hk
  obtain ⟨y, hy⟩ := Option.isSome_iff_exists.mp (computed_known e ht (.inl rfl) hi hcomp)
  have := hh.1 y hy
  subst this
  unfold dynamicKnown ExprBounds.maxBitSize at hdk
  rw [hy] at hdk
  simp only [intValue_int32 h1 h2] at hdk
  by_cases hbad : n < 1 ∨ n > 64
  · rw [if_pos hbad] at hdk; cases hdk
  · omega

/-- **C99.** A type is used with as many arguments as it has parameters, and in every complete object each argument is a value of the
type of its parameter (or an integer for a floating point parameter), unless its evaluation fails because of the values. -/
theorem C99_arguments_partial {W : World O} {f : Field} {c : Nat} {args : List Expression.Expr} (h : check D N params f = .ok ())
    (hs : ∀ e ∈ f.expressions, Strict D.signature e) (hft : f.type = .compound c args) (hW : W.Typed D.signature T)
    (hC : Complete W D.signature T) :
    args.length = (params c).length ∧ ∀ (i : Nat) e p, args[i]? = some e → (params c)[i]? = some p → ¬ Faults W .floor e →
      ∃ v, e.eval W .floor = some v ∧ Fits T v p := by
  have hr := C99_rules_partial h hs
  refine ⟨hr.count c args hft, fun i e p he hp hf => ?_⟩
  obtain ⟨t, ht, hfits⟩ := hr.arguments c args hft i e p he hp
  obtain ⟨v, hv, hty, _⟩ := eval_progress hW hC .floor e ht hf
  exact ⟨v, hv, fits_of_type hty hfits⟩

/-! ### Examples -/

namespace FieldDemo

open Zserio.ExprBounds.ExprBoundsDemo (lit)

/-- `uint8 n; const uint8 C = 4; Color.RED (= 7); Mask.A (= 1)` -/
def decls : Decls where
  symbol
    | 0 => some (.field .int)
    | 1 => some (.const .int true)
    | 2 => some (.item 0)
    | 3 => some (.value 0)
    | _ => none
  member _ _ := none
  isItem _ _ := false
  isValue _ _ := false
  package _ := none

def names : ExprBounds.Names where
  symbol
    | 0 => { known := .range 0 255 }
    | 1 => { known := .exact 4 }
    | 2 => { known := .exact 7 }
    | 3 => { known := .exact 1 }
    | _ => {}
  member _ _ := {}

/-- `struct Item(uint32 a, float32 b)` -/
def parameters : Nat → List Plain
  | 0 => [.int, .float]
  | _ => []

/-- an object whose field `n` has the given value -/
def world (n : Int) : World Unit where
  symbol
    | 0 => some (.int n)
    | 1 => some (.int 4)
    | 2 => some (.enum 0 7)
    | 3 => some (.bitmask 0 1)
    | _ => none
  index := some 2
  member _ _ := none
  element _ _ := none
  length _ := none
  result _ := none
  equal a b := a = b
  width _ := 8
  floatText _ := 0
  stringText := ConstEval.stripStringLiteral
  floatMinus x := x
  floatArith _ _ _ := none
  floatLess _ _ := false

def noObjects : Unit → Ty → Prop := fun _ _ => False

theorem typed (n : Int) : (world n).Typed decls.signature noObjects where
  symbol id v t h ht := by
    simp only [world, decls, Decls.signature] at h ht
    split at h <;> simp_all <;> (subst h; subst ht; simp [Decl.ty, Plain.ty, Value.HasType])
  member o c m v t h := h.elim
  element o t i v h := h.elim
  result o t v h := h.elim

theorem complete (n : Int) : Complete (world n) decls.signature noObjects where
  symbol id t h := by
    match id with
    | 0 | 1 | 2 => exact ⟨_, rfl, trivial⟩
    | 3 => exact ⟨_, rfl, (by decide : (world 0).inMask 0 1 = true)⟩
    | _ + 4 => cases h
  index := ⟨2, rfl⟩
  member o c m t h := h.elim
  length o t h := h.elim
  element o t n i h := h.elim
  result o t h := h.elim

theorem describe {n : Int} (hn : 0 ≤ n ∧ n ≤ 255) : names.Describe (world n) noObjects where
  symbol id v h := by
    simp only [world] at h
    split at h
    · cases h; exact ExprBounds.describes_known fun z hz => by cases hz; exact Known.has_range.2 hn
    · cases h; exact ExprBounds.describes_known fun z hz => by cases hz; exact Known.has_exact rfl
    · cases h; exact ExprBounds.describes_known fun z hz => by cases hz; exact Known.has_exact rfl
    · cases h; exact ExprBounds.describes_known fun z hz => by cases hz; exact Known.has_exact rfl
    · cases h
  member o c m v h := h.elim

/-- `C * 2` -/
def eight : Expression.Expr := .binary .mul (.symbol 1) (lit 2)

/-- `align(C * 2): uint8 x = C + 3 if n > 2 : n < 9` -/
def aligned : Field where
  type := .int (.bitField 8)
  isArray := false
  length := none
  alignment := some eight
  initializer := some (.binary .add (.symbol 1) (lit 3))
  clause := some (.binary .gt (.symbol 0) (lit 2))
  constraint := some (.binary .lt (.symbol 0) (lit 9))

/-- a field with a type and a default value only -/
def plainField (t : FieldType) (e : Option Expression.Expr) : Field where
  type := t
  isArray := false
  length := none
  alignment := none
  initializer := e
  clause := none
  constraint := none

/-- `bit<C> y = 9` -/
def bitField : Field := plainField (.bits false (.symbol 1)) (some (lit 9))

/-- `Item(n + @index, 3) items[n]` -/
def items : Field :=
  { plainField (.compound 0 [.binary .add (.symbol 0) .index, lit 3]) none with isArray := true, length := some (.symbol 0) }

/-- `Mask mask = Mask.A` -/
def mask : Field := plainField (.bitmask 0) (some (.symbol 3))

theorem stricts {D : Decls} {f : Field} (h : ∀ e ∈ f.expressions, (e.type D.signature).isSome) :
    ∀ e ∈ f.expressions, Strict D.signature e := by
  intro e he
  obtain ⟨t, ht⟩ := Option.isSome_iff_exists.mp (h e he)
  exact strict_of_type e ht

/-- all are accepted, and their expressions keep to the rules -/
example : ∀ f ∈ [aligned, bitField, items, mask], check FieldDemo.decls names parameters f = .ok () := by decide +kernel

example : ∀ f ∈ [aligned, bitField, items, mask], ∀ e ∈ f.expressions, Strict decls.signature e := by
  intro f hf
  refine stricts ?_
  revert f
  decide +kernel

/-- and use only what the compiler supports -/
example : ∀ f ∈ [aligned, bitField, items, mask], f.Rules decls names parameters ∧ ∀ e ∈ f.expressions, Supported decls e := by
  intro f hf
  constructor
  · have h : ∀ f ∈ [aligned, bitField, items, mask], check FieldDemo.decls names parameters f = .ok () := by decide +kernel
    refine C99_rules_partial (h f hf) (stricts ?_)
    revert f
    decide +kernel
  · simp only [List.mem_cons, List.not_mem_nil, or_false] at hf
    rcases hf with rfl | rfl | rfl | rfl <;>
    simp [Supported, Field.expressions, Field.others, aligned, bitField, items, mask, plainField, eight, lit, FieldType.arguments,
      FieldType.length, Expr.type, Decls.signature, decls, Decl.ty, Plain.ty, UnOp.type, BinOp.type, Ty.numeric]

/-- the expressions of these fields are computed as Python does, for every value of `n` -/
example (n : Int) : Calculable decls names (world n) eight ∧ ¬ Faults (world n) .floor eight ∧
    Calculable decls names (world n) (.binary .add (.symbol 1) (lit 3)) ∧ Computed names (.binary .add (.symbol 1) (lit 3)) ∧
    ¬ Faults (world n) .floor (.binary .add (.symbol 1) (lit 3)) := by
  refine ⟨⟨⟨trivial, trivial, fun _ _ _ _ => ⟨by simp, by simp⟩⟩, ⟨trivial, trivial⟩, ⟨trivial, trivial⟩, trivial, trivial, by simp⟩, ?_,
    ⟨⟨trivial, trivial, fun _ _ _ _ => ⟨by simp, by simp⟩⟩, ⟨trivial, trivial⟩, ⟨trivial, trivial⟩, trivial, trivial, by simp⟩,
    ⟨by simp, rfl, trivial⟩, ?_⟩
  all_goals
    rintro (h | h | ⟨x, y, hx, hy, h⟩)
    · exact h
    · exact h
    · cases hx; cases hy; simp [OperatorFault] at h

example : Calculable decls names (world 3) (.symbol 1) ∧ Computed names (.symbol 1) ∧
    (Expression.Expr.symbol 1).eval (world 3) .floor = some (.int (4 : Nat)) :=
  ⟨⟨trivial, trivial, trivial, trivial⟩, rfl, rfl⟩

example : SameConstants decls (world 3) (world 200) where
  symbol id d h hm := by
    match id with
    | 0 => cases h; cases hm
    | 1 | 2 | 3 => rfl
    | _ + 4 => cases h
  equal := rfl
  width := rfl
  floatText := rfl
  stringText := rfl
  floatMinus := rfl
  floatArith := rfl
  floatLess := rfl

/-! ### Deviations -/

/-- a byte with an alignment -/
def alignedTo (e : Expression.Expr) : Field := { plainField (.int (.bitField 8)) none with alignment := some e }

/-- `-7 / 2` -/
def half : Expression.Expr := .binary .div (.unary .minus (lit 7)) (lit 2)

end FieldDemo

open FieldDemo
open Zserio.ExprBounds.ExprBoundsDemo (lit)

/-- **Deviation.** `align(0)` is accepted.  The size of an object is computed as if there were no alignment, but the object can neither be
written nor read: both raise ZeroDivisionError. -/
theorem C99_alignment_zero_deviates : check FieldDemo.decls names parameters (alignedTo (lit 0)) = .ok () ∧
    (∀ n, (lit 0).eval (FieldDemo.world n) .floor = some (.int (0 : Nat))) ∧ (∀ p, alignTo 0 p = p) ∧
    (∀ w, Writer.alignto 0 w = (.error .zeroDivision, w)) ∧ ∀ r, Reader.alignto 0 r = (.error .zeroDivision, r) :=
  ⟨by decide +kernel, fun _ => rfl, fun p => by simp [alignTo], fun _ => rfl, fun _ => rfl⟩

/-- **Deviation.** `align(Color.RED)` is accepted, because the compiler knows the number 7 of the item; the value in the generated code
is the item, which is no number. -/
theorem C99_alignment_item_deviates : check FieldDemo.decls names parameters (alignedTo (.symbol 2)) = .ok () ∧
    ∀ n, ∃ v, (Expression.Expr.symbol 2).eval (FieldDemo.world n) .floor = some v ∧ ∀ x, v ≠ .int x :=
  ⟨by decide +kernel, fun n => ⟨_, rfl, by simp⟩⟩

/-- **Deviation.** For `align(4 + -7 / 2)` the compiler checks the number 1, but Python computes 0. -/
theorem C99_alignment_division_deviates : check FieldDemo.decls names parameters (alignedTo (.binary .add (lit 4) half)) = .ok () ∧
    Knows FieldDemo.decls names (.binary .add (lit 4) half) (.exact 1) ∧
    ∀ n, (Expression.Expr.binary .add (lit 4) half).eval (FieldDemo.world n) .floor = some (.int 0) :=
  ⟨by decide +kernel, ⟨_, rfl, rfl⟩, fun _ => rfl⟩

/-- **Deviation.** `uint8 x = true ? 256 : 1` is accepted: the compiler does not compute choices.  A new object cannot be written. -/
theorem C99_default_choice_deviates :
    let e : Expression.Expr := .cond (.boolLit true) (.intLit .dec (py! "256")) (lit 1)
    check FieldDemo.decls names parameters (plainField (.int (.bitField 8)) (some e)) = .ok () ∧
    ∀ n, ∃ v, e.eval (FieldDemo.world n) .floor = some v ∧ ¬ (FieldType.int (.bitField 8)).Holds noObjects (FieldDemo.world n) v :=
  ⟨by decide +kernel, fun n => ⟨.int 256, rfl, by simp [FieldType.Holds, IntKind.InRange]⟩⟩

/-- **Deviation.** `uint8 x = 3 + -7 / 2` is accepted, because the compiler computes 0, but Python computes -1. -/
theorem C99_default_division_deviates :
    check FieldDemo.decls names parameters (plainField (.int (.bitField 8)) (some (.binary .add (lit 3) half))) = .ok () ∧
    ∀ n, ∃ v, (Expression.Expr.binary .add (lit 3) half).eval (FieldDemo.world n) .floor = some v ∧
      ¬ (FieldType.int (.bitField 8)).Holds noObjects (FieldDemo.world n) v :=
  ⟨by decide +kernel, fun n => ⟨.int (-1), rfl, by simp [FieldType.Holds, IntKind.InRange]⟩⟩

/-- **Deviation.** `bit<n> x = 200` is accepted, and cannot be written if `n` is 3. -/
theorem C99_default_bits_deviates :
    check FieldDemo.decls names parameters (plainField (.bits false (.symbol 0)) (some (.intLit .dec (py! "200")))) = .ok () ∧
    (Expression.Expr.intLit .dec (py! "200")).eval (FieldDemo.world 3) .floor = some (.int 200) ∧
    ¬ (FieldType.bits false (.symbol 0)).Holds noObjects (FieldDemo.world 3) (.int 200) := by
  refine ⟨by decide +kernel, rfl, ?_⟩
  rintro ⟨n, hn, _, _, h⟩
  have : (Expression.Expr.symbol 0).eval (FieldDemo.world 3) .floor = some (.int 3) := rfl
  rw [this] at hn
  simp only [Option.some.injEq, Value.int.injEq] at hn
  have : n = 3 := by omega
  subst this
  revert h
  decide

/-- **Deviation.** `uint8 x[-1]` is accepted, although no array has -1 elements. -/
theorem C99_length_deviates :
    let e : Expression.Expr := .unary .minus (lit 1)
    check FieldDemo.decls names parameters { plainField (.int (.bitField 8)) none with isArray := true, length := some e } = .ok () ∧
    ∀ n, e.eval (FieldDemo.world n) .floor = some (.int (-1)) :=
  ⟨by decide +kernel, fun _ => rfl⟩

/-- **Deviation.** The range of an integer parameter is not looked at: whatever the integer type of the parameter, every integer literal
is accepted as its argument. -/
theorem C99_argument_deviates (params : Nat → List Plain) (digits : PyStr) (v : Int) (hp : params 0 = [.int])
    (hk : Knows FieldDemo.decls names (.intLit .dec digits) (.exact v)) :
    check FieldDemo.decls names params (plainField (.compound 0 [.intLit .dec digits]) none) = .ok () := by
  refine check_ok.mpr ⟨rfl, resolve_ok.mpr ?_, ?_, by simp [plainField], by simp [plainField], by simp [plainField], by simp [plainField],
    by simp [plainField]⟩
  · rintro c args h
    cases h
    simp [hp]
  · refine (checkArguments_ok (by simp [hp])).mpr fun i e p he hpp => ?_
    rw [hp] at hpp
    match i with
    | 0 =>
      cases he; cases hpp
      exact ⟨_, _, evaluate_ok.mpr ⟨rfl, hk⟩, rfl⟩
    | _ + 1 => simp at he

end Zserio.FieldCheck
