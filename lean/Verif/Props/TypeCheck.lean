import Verif.Lemmas.TypeCheck
import Verif.Props.Expression
/-
Property C97: what the compiler accepts as an expression is well-typed, and generated code can compute its value.

`check` (Model/TypeCheck.lean) is what the compiler does, `Expr.type` and `Expr.eval` (Spec/Expression.lean) are the types and values
of the language guide, `Strict`, `Supported`, `Complete` and `Faults` (Spec/TypeCheck.lean) say where the two differ and what a value
needs, `Expr.format`, `Derives` and `PyExpr.eval` (property C67) are the generated Python text and its value.
-/
set_option linter.unusedSimpArgs false
set_option linter.unusedVariables false

namespace Zserio.TypeCheck

open Zserio.Expression

variable {O : Type} {T : O → Ty → Prop}

/-- **C97.** An accepted expression has the type which the compiler keeps for it, by the rules of the guide.  Missing, and false of
the code (see below): expressions which order values that are not numbers, use `%` with floats, mix different enumerations, bitmasks
or compounds, or have a dot behind something which is not a compound. -/
theorem C97_sound_partial (D : Decls) (e : Expression.Expr) (a : Attr) (h : check D e = .ok a) (hs : Strict D.signature e) :
    ∃ t, e.type D.signature = some t ∧ a.Says t := by
  obtain ⟨t, ht, hx⟩ := check_exact e h hs
  exact ⟨t, ht, hx.1⟩

/-- **C97.** Every well-typed expression is accepted, with its type, if it joins only constant strings and does not choose between
arrays or functions. -/
theorem C97_accepts (D : Decls) (e : Expression.Expr) (t : Ty) (h : e.type D.signature = some t) (hs : Supported D e) :
    ∃ a, check D e = .ok a ∧ a.Says t := by
  obtain ⟨a, ha, hx, _⟩ := check_complete e h hs
  exact ⟨a, ha, hx⟩

theorem says_unique {a : Attr} {t u : Ty} (h : Exact a t) (hu : a.Says u) : t = u := by
  obtain ⟨h1, h2, h3⟩ := h
  cases u with
  | array u => obtain ⟨_, p, hp, rfl⟩ := hu; exact h3 p hp
  | func u => obtain ⟨_, p, k, hp, rfl⟩ := hu; exact h2 (p, k) hp
  | _ => cases t <;> simp_all [Attr.Says]

/-- Well-typed expressions keep to the rules. -/
theorem strict_of_type {Γ : Signature} (e : Expression.Expr) : ∀ {t : Ty}, e.type Γ = some t → Strict Γ e := by
  induction e with
  | paren e ih => intro t h; exact ih h
  | call e ih =>
    intro t h; simp only [Expr.type] at h; split at h
    · rename_i hu; exact ih hu
    · cases h
  | element a b iha ihb =>
    intro t h; simp only [Expr.type] at h; split at h
    · rename_i h1 h2; exact ⟨iha h1, ihb h2⟩
    · cases h
  | member e id ih =>
    intro t h; simp only [Expr.type] at h; split at h
    · rename_i c hu; exact ⟨ih hu, c, hu⟩
    · cases h
  | isset a b iha ihb =>
    intro t h; simp only [Expr.type] at h; split at h
    · rename_i h1 h2; exact ⟨iha h1, ihb h2⟩
    · cases h
  | lengthof e ih =>
    intro t h; simp only [Expr.type] at h; split at h
    · rename_i hu; exact ih hu
    · rename_i hu; exact ih hu
    · rename_i hu; exact ih hu
    · cases h
  | valueof e ih =>
    intro t h; simp only [Expr.type] at h; split at h
    · rename_i hu; exact ih hu
    · rename_i hu; exact ih hu
    · cases h
  | numbits e ih =>
    intro t h; simp only [Expr.type] at h; split at h
    · rename_i hu; exact ih hu
    · cases h
  | unary op e ih =>
    intro t h
    simp only [Expr.type, Option.bind_eq_bind, Option.bind_eq_some_iff] at h
    obtain ⟨u, hu, _⟩ := h
    exact ih hu
  | binary op a b iha ihb =>
    intro t h
    simp only [Expr.type, Option.bind_eq_bind, Option.bind_eq_some_iff] at h
    obtain ⟨u, hu, v, hv, h⟩ := h
    refine ⟨iha hu, ihb hv, ?_⟩
    rw [hu, hv]
    clear iha ihb hu hv
    cases op <;> cases u <;> first
      | (simp [BinOp.type, Ty.numeric] at h; done)
      | (simp; done)
      | (cases v <;> simp_all [BinOp.type, Ty.numeric]; done)
      | (cases v <;> simp [BinOp.type, Ty.numeric] at h ⊢)
  | cond c a b ihc iha ihb =>
    intro t h; simp only [Expr.type] at h; split at h
    · rename_i hc; exact ⟨ihc hc.1, iha h, ihb (hc.2 ▸ h)⟩
    · cases h
  | _ => intros; trivial

/-- **C97.** For expressions which the compiler supports: well-typed by the guide means accepted by the compiler, with the same type,
and within the rules which the compiler does not check.  So the four rules of `Strict` are all that it misses. -/
theorem C97_exact (D : Decls) (e : Expression.Expr) (t : Ty) (hs : Supported D e) :
    e.type D.signature = some t ↔ (∃ a, check D e = .ok a ∧ a.Says t) ∧ Strict D.signature e := by
  constructor
  · exact fun h => ⟨C97_accepts D e t h hs, strict_of_type e h⟩
  · rintro ⟨⟨a, h, ha⟩, hst⟩
    obtain ⟨u, hu, hx⟩ := check_exact e h hst
    rw [hu, says_unique hx ha]

/-- **C97.** Well-typed expressions do not go wrong: in a complete object, an accepted expression within the rules has a value of its
type, unless its evaluation meets a fault which depends on the values. -/
theorem C97_progress_partial (D : Decls) (W : World O) (d : Division) (hW : W.Typed D.signature T) (hC : Complete W D.signature T)
    (e : Expression.Expr) (a : Attr) (h : check D e = .ok a) (hs : Strict D.signature e) (hf : ¬ Faults W d e) :
    ∃ t v, a.Says t ∧ e.eval W d = some v ∧ v.HasType T t := by
  obtain ⟨t, ht, ha⟩ := C97_sound_partial D e a h hs
  obtain ⟨v, hv, hx, _⟩ := eval_progress hW hC d e ht hf
  exact ⟨t, v, ha, hv, hx⟩

/-- **C97.** The same for the generated Python code: when Python evaluates the text of an accepted expression, it raises no exception,
and the value has the type which the compiler keeps, unless the evaluation meets a fault which depends on the values. -/
theorem C97_python_partial (D : Decls) (W : PyWorld O) (names : Names) (hA : Agrees W names) (hW : W.toWorld.Typed D.signature T)
    (hC : Complete W.toWorld D.signature T) (e : Expression.Expr) (a : Attr) (h : check D e = .ok a) (hs : Strict D.signature e)
    (hp : e.Parsed) (hpp : e.Parenthesised D.signature) (hl : e.Literals) (hf : ¬ Faults W.toWorld .floor e)
    (t : PyExpr) (hd : Derives 0 (e.format D.signature names) t) :
    ∃ ty v, a.Says ty ∧ t.eval W = .ok v ∧ v.HasType T ty := by
  obtain ⟨ty, ht, ha⟩ := C97_sound_partial D e a h hs
  obtain ⟨v, hv, hx, _⟩ := eval_progress hW hC .floor e ht hf
  exact ⟨ty, v, ha, C67_floor_partial hW hA e ty ht hp hpp hl t hd v hv, hx⟩

/-! ### strings -/

theorem func_of_check {D : Decls} (e : Expression.Expr) : ∀ {a : Attr} {t : Plain} {k : Bool}, check D e = .ok a → a.func = some (t, k) →
    (∃ id, D.symbol id = some (.function t k)) ∨ ∃ c id, D.member c id = some (.function t k) := by
  induction e with
  | symbol id =>
    intro a t k h hf
    simp only [check] at h
    split at h
    · cases h
    · next d hd =>
      cases h
      cases d <;> simp [Decl.attr, Plain.attr] at hf
      obtain ⟨rfl, rfl⟩ := hf
      exact .inl ⟨id, hd⟩
  | paren e ih => intro a t k h hf; exact ih h hf
  | member e id ih =>
    intro a t k h hf
    obtain ⟨x, hx, h⟩ := bind_ok h
    unfold checkDot at h
    split at h
    · split at h
      · cases h
      · cases h; simp [Plain.attr] at hf
    · split at h
      · cases h; simp [Plain.attr] at hf
      · cases h
    · split at h
      · cases h; simp [Plain.attr] at hf
      · cases h
    · next c _ =>
      split at h
      · cases h; simp [Decl.attr, Plain.attr] at hf
      · cases h; simp [Decl.attr, Plain.attr] at hf
      · cases h; simp [Decl.attr, Plain.attr] at hf
      · next t' k' hd =>
        cases h
        simp only [Decl.attr, Option.some.injEq, Prod.mk.injEq] at hf
        obtain ⟨rfl, rfl⟩ := hf
        exact .inr ⟨c, id, hd⟩
      · cases h
    · cases h
  | call e ih =>
    intro a t k h hf
    obtain ⟨x, hx, h⟩ := bind_ok h
    unfold checkCall at h
    split at h <;> cases h
    simp [Plain.attr] at hf
  | element e i =>
    intro a t k h hf
    obtain ⟨x, hx, h⟩ := bind_ok h
    obtain ⟨y, hy, h⟩ := bind_ok h
    unfold checkElement at h
    (repeat' split at h) <;> cases h
    simp [Plain.attr] at hf
  | isset e i =>
    intro a t k h hf
    obtain ⟨x, hx, h⟩ := bind_ok h
    obtain ⟨y, hy, h⟩ := bind_ok h
    unfold checkIsset at h
    (repeat' split at h) <;> cases h
    simp at hf
  | lengthof e =>
    intro a t k h hf
    obtain ⟨x, hx, h⟩ := bind_ok h
    unfold checkLengthof at h
    (repeat' split at h) <;> cases h <;> simp at hf
  | valueof e =>
    intro a t k h hf
    obtain ⟨x, hx, h⟩ := bind_ok h
    unfold checkValueof at h
    (repeat' split at h) <;> cases h <;> simp at hf
  | numbits e =>
    intro a t k h hf
    obtain ⟨x, hx, h⟩ := bind_ok h
    unfold checkNumbits at h
    (repeat' split at h) <;> cases h <;> simp at hf
  | unary op e =>
    intro a t k h hf
    obtain ⟨x, hx, h⟩ := bind_ok h
    cases op <;> unfold checkUnary at h <;> (repeat' split at h) <;> cases h <;> simp at hf
  | binary op e f =>
    intro a t k h hf
    obtain ⟨x, hx, h⟩ := bind_ok h
    obtain ⟨y, hy, h⟩ := bind_ok h
    cases op <;> simp only [checkBinary, checkArithmetic, checkBits, checkRelation, checkLogical] at h <;> (repeat' split at h) <;> cases h <;>
      simp at hf
  | cond c e f =>
    intro a t k h hf
    obtain ⟨x, hx, h⟩ := bind_ok h
    obtain ⟨y, hy, h⟩ := bind_ok h
    obtain ⟨z, hz, h⟩ := bind_ok h
    unfold checkConditional at h
    (repeat' split at h) <;> cases h <;> simp at hf
  | _ => intro a t k h hf; cases h; simp at hf

theorem known_of_check {D : Decls} (e : Expression.Expr) : ∀ {a : Attr}, check D e = .ok a → a.known = true → Known D e := by
  induction e with
  | strLit => intros; trivial
  | symbol id =>
    intro a h hf
    simp only [check] at h
    split at h
    · cases h
    · next d hd =>
      cases h
      cases d <;> simp [Decl.attr, Plain.attr] at hf
      subst hf
      exact ⟨_, hd⟩
  | paren e ih => intro a h hf; exact ih h hf
  | member e id ih =>
    intro a h hf
    obtain ⟨x, hx, h⟩ := bind_ok h
    unfold checkDot at h
    split at h
    · split at h
      · cases h
      · next t k hp =>
        cases h
        simp only at hf
        subst hf
        exact ⟨t, hp⟩
    all_goals (repeat' split at h) <;> cases h <;> simp [Decl.attr, Plain.attr] at hf
  | call e ih =>
    intro a h hf
    obtain ⟨x, hx, h⟩ := bind_ok h
    unfold checkCall at h
    split at h
    · cases h
    · next t k hp =>
      cases h
      simp only at hf
      subst hf
      exact ⟨t, func_of_check e hx hp⟩
  | element e i =>
    intro a h hf
    obtain ⟨x, hx, h⟩ := bind_ok h
    obtain ⟨y, hy, h⟩ := bind_ok h
    unfold checkElement at h
    (repeat' split at h) <;> cases h
    simp [Plain.attr] at hf
  | isset e i =>
    intro a h hf
    obtain ⟨x, hx, h⟩ := bind_ok h
    obtain ⟨y, hy, h⟩ := bind_ok h
    unfold checkIsset at h
    (repeat' split at h) <;> cases h
    simp at hf
  | lengthof e =>
    intro a h hf
    obtain ⟨x, hx, h⟩ := bind_ok h
    unfold checkLengthof at h
    (repeat' split at h) <;> cases h <;> simp at hf
  | valueof e =>
    intro a h hf
    obtain ⟨x, hx, h⟩ := bind_ok h
    unfold checkValueof at h
    (repeat' split at h) <;> cases h <;> simp at hf
  | numbits e =>
    intro a h hf
    obtain ⟨x, hx, h⟩ := bind_ok h
    unfold checkNumbits at h
    (repeat' split at h) <;> cases h <;> simp at hf
  | unary op e =>
    intro a h hf
    obtain ⟨x, hx, h⟩ := bind_ok h
    cases op <;> unfold checkUnary at h <;> (repeat' split at h) <;> cases h <;> simp at hf
  | binary op e f ihe ihf =>
    intro a h hf
    obtain ⟨x, hx, h⟩ := bind_ok h
    obtain ⟨y, hy, h⟩ := bind_ok h
    cases op <;> simp only [checkBinary, checkArithmetic, checkBits, checkRelation, checkLogical] at h <;> (repeat' split at h) <;> cases h
    all_goals first
      | (simp at hf; done)
      | (rename_i hop _ _ _; cases hop.1; done)
      | (rename_i hop _ _; cases hop.1; done)
      | (rename_i hk _; simp only [Bool.and_eq_true] at hk; exact ⟨ihe hx hk.1, ihf hy hk.2⟩)
  | cond c e f =>
    intro a h hf
    obtain ⟨x, hx, h⟩ := bind_ok h
    obtain ⟨y, hy, h⟩ := bind_ok h
    obtain ⟨z, hz, h⟩ := bind_ok h
    unfold checkConditional at h
    (repeat' split at h) <;> cases h <;> simp at hf
  | _ => intro a h hf; cases h; simp at hf

/-- **C97.** In an accepted expression, strings are joined only if the compiler knows both of them. -/
theorem C97_joined (D : Decls) (e : Expression.Expr) : ∀ a : Attr, check D e = .ok a → JoinsKnown D e := by
  induction e with
  | paren e ih => exact ih
  | call e ih | lengthof e ih | valueof e ih | numbits e ih | member e _ ih | unary _ e ih =>
    intro a h
    obtain ⟨x, hx, h⟩ := bind_ok h
    exact ih x hx
  | element e f ihe ihf | isset e f ihe ihf =>
    intro a h
    obtain ⟨x, hx, h⟩ := bind_ok h
    obtain ⟨y, hy, h⟩ := bind_ok h
    exact ⟨ihe x hx, ihf y hy⟩
  | cond c e f ihc ihe ihf =>
    intro a h
    obtain ⟨x, hx, h⟩ := bind_ok h
    obtain ⟨y, hy, h⟩ := bind_ok h
    obtain ⟨z, hz, h⟩ := bind_ok h
    exact ⟨ihc x hx, ihe y hy, ihf z hz⟩
  | binary op e f ihe ihf =>
    intro a h
    obtain ⟨x, hx, h⟩ := bind_ok h
    obtain ⟨y, hy, h⟩ := bind_ok h
    refine ⟨ihe x hx, ihf y hy, ?_⟩
    rintro rfl ht
    obtain ⟨t, ht', hsays⟩ := C97_sound_partial D e x hx (strict_of_type e ht)
    rw [ht] at ht'
    cases ht'
    have hk : x.kind = .string := hsays
    simp only [checkBinary, checkArithmetic] at h
    split at h
    · split at h
      · next hkn =>
        simp only [Bool.and_eq_true] at hkn
        exact ⟨known_of_check e hx hkn.1, known_of_check f hy hkn.2⟩
      · cases h
    · rw [if_pos (.inl (by rw [hk]; decide))] at h
      cases h
  | _ => intros; trivial

/-! ### a schema, and where the compiler does not look -/

namespace Demo

open Zserio.Expression.Demo (Obj world names objType derives_symbol)

/-- The compound of property C67's example as declarations, and one constant of a package. -/
def decls : Decls where
  symbol
    | 0 => some (.param (.compound 0))
    | 1 => some (.field .str)
    | 2 => some (.field .bool)
    | 3 => some (.field .bool)
    | 4 => some (.field .int)
    | 5 => some (.field (.bitmask 0))
    | 6 => some (.value 0)
    | 7 => some (.item 0)
    | 8 => some (.item 0)
    | _ => none
  member
    | 0, 0 => some (.arrayField .int)
    | _, _ => none
  isItem _ _ := false
  isValue _ _ := false
  package
    | 0 => some (.int, false)
    | _ => none

theorem signature_eq : decls.signature = Expression.Demo.signature := by
  unfold Decls.signature Expression.Demo.signature
  congr 1
  · funext id
    match id with
    | 0 | 1 | 2 | 3 | 4 | 5 | 6 | 7 | 8 => rfl
    | _ + 9 => rfl
  · funext c id
    match c, id with
    | 0, 0 => rfl
    | 0, _ + 1 => rfl
    | _ + 1, _ => rfl

theorem complete : Complete world.toWorld decls.signature objType where
  symbol id t h := by
    rw [signature_eq] at h
    match id with
    | 0 | 1 | 2 | 3 | 4 | 7 | 8 => exact ⟨_, rfl, trivial⟩
    | 5 => exact ⟨_, rfl, (by decide : world.toWorld.inMask 0 3 = true)⟩
    | 6 => exact ⟨_, rfl, (by decide : world.toWorld.inMask 0 4 = true)⟩
    | _ + 9 => cases h
  index := ⟨1, rfl⟩
  member o c m t ho h := by
    rw [signature_eq] at h
    match o, c, m with
    | .p, 0, 0 => exact ⟨_, rfl, trivial⟩
    | .p, 0, _ + 1 => cases h
    | .p, _ + 1, _ => cases h
    | .self, _, _ | .data, _, _ | .maskClass, _, _ | .enumClass, _, _ => exact ho.elim
  length o t ho := by
    match o with
    | .data => exact ⟨2, rfl⟩
    | .p => cases t <;> exact ho.elim
    | .self | .maskClass | .enumClass => exact ho.elim
  element o t n i ho hn hi := by
    match o with
    | .data =>
      cases hn
      match i with
      | 0 | 1 => exact ⟨_, rfl, trivial⟩
      | _ + 2 => omega
    | .p => cases t <;> exact ho.elim
    | .self | .maskClass | .enumClass => exact ho.elim
  result o t ho := by
    match o with
    | .data => cases t <;> exact ho.elim
    | .p => cases t <;> exact ho.elim
    | .self | .maskClass | .enumClass => exact ho.elim

/-- the expression of property C67's example -/
example : check decls Expression.Demo.expression = .ok { kind := .integer } := by decide +kernel

example : Strict decls.signature Expression.Demo.expression :=
  strict_of_type (t := .int) _ (signature_eq ▸ Expression.Demo.hypotheses.1)

example : Supported decls Expression.Demo.expression := by
  simp [Supported, Expression.Demo.expression, Expr.type, Decls.signature, decls, Decl.ty, Plain.ty, UnOp.type, BinOp.type, Ty.numeric,
    Option.filter, Decl.isMember]

/-- `numbits(p.data[@index]) / lengthof(p.data) < 3 && isset(m, Mask.X)` -/
def quiet : Expression.Expr :=
  .binary .land
    (.binary .lt (.binary .div (.numbits (.element (.member (.symbol 0) 0) .index)) (.lengthof (.member (.symbol 0) 0))) (.intLit .dec (py! "3")))
    (.isset (.symbol 5) (.symbol 6))

example : check decls quiet = .ok { kind := .boolean } ∧ ¬ Faults world.toWorld .floor quiet := by
  refine ⟨by decide +kernel, ?_⟩
  have h1 : (Expr.member (.symbol 0) 0).eval world.toWorld .floor = some (.other .data) := rfl
  have h2 : (Expr.element (.member (.symbol 0) 0) .index).eval world.toWorld .floor = some (.int 20) := rfl
  have h3 : Expr.index.eval world.toWorld .floor = some (.int 1) := rfl
  have h4 : (Expr.lengthof (.member (.symbol 0) 0)).eval world.toWorld .floor = some (.int 2) := rfl
  have h5 : (Expr.numbits (.element (.member (.symbol 0) 0) .index)).eval world.toWorld .floor = some (.int (numBits 20)) := rfl
  have h6 : (Expr.binary .div (.numbits (.element (.member (.symbol 0) 0) .index)) (.lengthof (.member (.symbol 0) 0))).eval world.toWorld
      .floor = some (.int (Int.fdiv (numBits 20) 2)) := rfl
  have h7 : (Expr.intLit .dec (py! "3")).eval world.toWorld .floor = some (.int 3) := rfl
  have h8 : world.length .data = some 2 := rfl
  simp [Faults, quiet, h1, h2, h3, h4, h5, h6, h7, h8, OperatorFault]

/-- `Color.RED < Color.BLUE` -/
def order : Expression.Expr := .binary .lt (.symbol 7) (.symbol 8)

/-- **C97.** Items of enumerations can be compared with `<`: the compiler accepts it, the guide gives it no type, and the generated
code raises TypeError. -/
theorem C97_order_deviates : check decls order = .ok { kind := .boolean } ∧ order.type decls.signature = none ∧
    (∃ t, Derives 0 (order.format decls.signature names) t) ∧
    ∀ t, Derives 0 (order.format decls.signature names) t → t.eval world = .error .type := by
  rw [signature_eq]
  have hd : Derives 4 (order.format Expression.Demo.signature names)
      (.compare (dottedTree (names.head 7) (names.attributes 7)) (.last .lt (dottedTree (names.head 8) (names.attributes 8)))) :=
    .compare (ts := (Expr.symbol 7).format Expression.Demo.signature names) ((derives_symbol 7).weaken (by omega) (by omega))
      (.last (k := .lt) rfl ((derives_symbol 8).weaken (by omega) (by omega)))
  refine ⟨by decide +kernel, by decide +kernel, ⟨_, hd.weaken (by omega) (by omega)⟩, fun t ht => ?_⟩
  rw [ht.tree_unique (hd.weaken (by omega) (by omega))]
  rfl

/-- the schema with one more field, of another bitmask -/
def decls2 : Decls := { decls with symbol := fun id => if id = 9 then some (.field (.bitmask 1)) else decls.symbol id }

/-- its Python name -/
def names2 : Names := { names with attributes := fun id => if id = 9 then [py! "other"] else names.attributes id }

/-- an object with a value of the field -/
def world2 : PyWorld Obj :=
  { world with property := fun o s => if o = .self ∧ s = py! "other" then some (.bitmask 1 1) else world.property o s }

/-- `m & other` -/
def mixed : Expression.Expr := .binary .band (.symbol 5) (.symbol 9)

/-- **C97.** Values of different bitmasks can be combined: the compiler accepts it (as a value of the first bitmask), the guide gives it
no type, and the generated code raises TypeError. -/
theorem C97_mixed_deviates : check decls2 mixed = .ok (Plain.bitmask 0).attr ∧ mixed.type decls2.signature = none ∧
    (∃ t, Derives 0 (mixed.format decls2.signature names2) t) ∧
    ∀ t, Derives 0 (mixed.format decls2.signature names2) t → t.eval world2 = .error .type := by
  have hd : Derives 7 (mixed.format decls2.signature names2)
      (.arith .band (dottedTree (names2.head 5) (names2.attributes 5)) (dottedTree (names2.head 9) (names2.attributes 9))) := by
    have h := Derives.ops (n := 7) (by simp) ((dotted_derives (names2.head 5) (names2.attributes 5)).weaken (n := 8) (by omega) (by omega))
      (.cons (k := .amp) rfl ((dotted_derives (names2.head 9) (names2.attributes 9)).weaken (n := 8) (by omega) (by omega)) .nil)
    rw [List.append_nil] at h
    exact h
  refine ⟨by decide +kernel, by decide +kernel, ⟨_, hd.weaken (by omega) (by omega)⟩, fun t ht => ?_⟩
  rw [ht.tree_unique (hd.weaken (by omega) (by omega))]
  rfl

/-- `(1).LIMIT`, where `LIMIT` is a constant of the package -/
def dotted : Expression.Expr := .member (.paren (.intLit .dec (py! "1"))) 0

/-- The generated text: ExpressionFormatter.java writes the operands of a dot with the text of `getDot` between them, which is empty
if the left operand has no type (PythonExpressionFormattingPolicy.java:341-349), and the full name of the constant on the right. -/
def dottedText : List Tok :=
  (Expr.paren (.intLit .dec (py! "1"))).format decls.signature names ++ Expression.dotted (py! "api") [py! "LIMIT"]

/-- **C97.** A dot behind a number is accepted if a constant of the package has the name: the compiler takes the constant, the guide
gives it no type, and the generated text is not a Python expression. -/
theorem C97_dot_deviates : check decls dotted = .ok Plain.int.attr ∧ dotted.type decls.signature = none ∧
    ¬ ∃ t, Derives 0 dottedText t := by
  refine ⟨by decide +kernel, by decide +kernel, ?_⟩
  rintro ⟨t, ht⟩
  have hp : Derives 12 [Tok.lpar, .number (py! "1"), .rpar] _ := Derives.paren (n := 12) (Derives.atom (.number (text := py! "1"))) (by omega)
  have := (Derives.unique (r := Expression.dotted (py! "api") [py! "LIMIT"]) (r' := []) (hp.weaken (n := 0) (by omega) (by omega)) ht
    (by rw [List.append_nil]; rfl) (Stop.cons fun m hm => by cases hm) Stop.nil).1
  exact absurd this (by decide +kernel)

/-- `1.5 % 2.0` -/
def remainder : Expression.Expr := .binary .mod (.floatLit (py! "1.5")) (.floatLit (py! "2.0"))

/-- **C97.** `%` with floats is accepted although the guide has it for integers only. -/
theorem C97_remainder_deviates : check decls remainder = .ok { kind := .float } ∧ remainder.type decls.signature = none := by
  decide +kernel

/-- accepted, with joined strings; and not accepted: `field + "a"` -/
example : check decls (.binary .add (.strLit (py! "\"a\"")) (.strLit (py! "\"b\""))) = .ok { kind := .string, known := true } ∧
    check decls (.binary .add (.symbol 1) (.strLit (py! "\"b\""))) = .error .constantStringExpected := by decide +kernel

end Demo

end Zserio.TypeCheck
