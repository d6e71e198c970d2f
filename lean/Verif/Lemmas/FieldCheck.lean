import Verif.Spec.FieldCheck
import Verif.Lemmas.TypeCheck
import Verif.Props.TypeCheck
import Verif.Props.ExprBounds
set_option linter.unusedSimpArgs false
set_option linter.unusedVariables false

namespace Zserio.FieldCheck

open Zserio.Expression Zserio.TypeCheck
open Zserio.ExprBounds (Known info dynamicKnown)
open Zserio.ConstEval (lowerBound upperBound)

variable {O : Type}

/-! ### sequences of checks -/

theorem bind_ok {α β : Type} {x : Except Problem α} {f : α → Except Problem β} {b : β} :
    (x >>= f) = .ok b ↔ ∃ a, x = .ok a ∧ f a = .ok b := by
  cases x with
  | error e => simp [Bind.bind, Except.bind]
  | ok a => simp [Bind.bind, Except.bind]

theorem bind_unit {x : Except Problem Unit} {f : Unit → Except Problem Unit} :
    (x >>= f) = .ok () ↔ x = .ok () ∧ f () = .ok () := by
  rw [bind_ok]
  exact ⟨fun ⟨_, h⟩ => h, fun h => ⟨(), h⟩⟩

theorem require_ok {p : Problem} {b : Bool} {u : Unit} : require p b = .ok u ↔ b = true := by
  unfold require; cases b <;> simp

theorem ifPresent_ok {α : Type} {f : α → Except Problem Unit} {o : Option α} :
    ifPresent f o = .ok () ↔ ∀ x, o = some x → f x = .ok () := by
  cases o <;> simp [ifPresent]

theorem evaluate_ok {D : Decls} {N : ExprBounds.Names} {e : Expression.Expr} {a : Attr} {k : Known} :
    evaluate D N e = .ok (a, k) ↔ TypeCheck.check D e = .ok a ∧ Knows D N e k := by
  unfold evaluate Knows
  cases TypeCheck.check D e <;> cases info D.signature N e <;> simp

theorem knows_unique {D : Decls} {N : ExprBounds.Names} {e : Expression.Expr} {k k' : Known} (h : Knows D N e k) (h' : Knows D N e k') : k = k' := by
  obtain ⟨i, hi, rfl⟩ := h
  obtain ⟨j, hj, rfl⟩ := h'
  rw [hi] at hj
  cases hj
  rfl

/-! ### types -/

theorem checkExpressionType_iff {a : Attr} {t : Ty} (h : a.Says t) (p : Plain) :
    checkExpressionType a (some p) = true ↔ TypeFits t p := by
  cases p with
  | int => simp [checkExpressionType, TypeFits, Plain.ty, Says_int h]
  | float => simp [checkExpressionType, TypeFits, Plain.ty, Says_int h, Says_float h]
  | bool => simp [checkExpressionType, TypeFits, Plain.ty, Says_bool h]
  | str => simp [checkExpressionType, TypeFits, Plain.ty, Says_str h]
  | bytes => simp [checkExpressionType, TypeFits, Plain.ty, Says_bytes h]
  | enum c => cases t <;> simp_all [checkExpressionType, TypeFits, Plain.ty, Attr.Says]
  | bitmask c => cases t <;> simp_all [checkExpressionType, TypeFits, Plain.ty, Attr.Says]
  | compound c => cases t <;> simp_all [checkExpressionType, TypeFits, Plain.ty, Attr.Says]

theorem fits_of_type {T : O → Ty → Prop} {v : Value O} {t : Ty} {p : Plain} (hv : v.HasType T t) (h : TypeFits t p) : Fits T v p := by
  rcases h with rfl | ⟨rfl, rfl⟩
  · exact .inl hv
  · exact .inr ⟨rfl, hv⟩

/-! ### what depends on the object -/

theorem isOwned_eq (d : Decl) : isOwned d = d.isMember := by cases d <;> rfl

theorem depends_iff {D : Decls} (e : Expression.Expr) : ∀ {a : Attr}, TypeCheck.check D e = .ok a → Strict D.signature e →
    (Depends D e ↔ requiresOwnerContext D e = true ∨ containsIndex e = true) := by
  induction e with
  | symbol id => intro a h hs; simp [Depends, requiresOwnerContext, containsIndex, Option.any_eq_true, isOwned_eq]
  | index => intro a h hs; simp [Depends, requiresOwnerContext, containsIndex]
  | member e id ih =>
    intro a h hs
    obtain ⟨t, ht, hx⟩ := check_exact (.member e id) h hs
    simp only [Depends, true_iff]
    left
    simp only [TypeCheck.check] at h
    cases he : TypeCheck.check D e with
    | error p => rw [he] at h; cases h
    | ok b =>
      obtain ⟨hs, c, hc⟩ := hs
      obtain ⟨u, hu, hy⟩ := check_exact e he hs
      rw [hc] at hu
      cases hu
      have hz : b.ztype = some (.plain (.compound c)) := hy.1.2
      simp only [Expr.type, hc] at ht
      simp only [Decls.signature, Option.map_eq_some_iff, Option.filter_eq_some_iff] at ht
      obtain ⟨d, ⟨hd, hm⟩, _⟩ := ht
      simp [requiresOwnerContext, he, hz, hd, isOwned_eq, hm]
  | paren e ih => intro a h hs; simp only [Depends, requiresOwnerContext, containsIndex]; exact ih h hs
  | call e ih =>
    intro a h hs
    simp only [TypeCheck.check] at h
    cases he : TypeCheck.check D e with
    | error p => rw [he] at h; cases h
    | ok b => simp only [Depends, requiresOwnerContext, containsIndex]; exact ih he hs
  | lengthof e ih =>
    intro a h hs
    simp only [TypeCheck.check] at h
    cases he : TypeCheck.check D e with
    | error p => rw [he] at h; cases h
    | ok b => simp only [Depends, requiresOwnerContext, containsIndex]; exact ih he hs
  | valueof e ih =>
    intro a h hs
    simp only [TypeCheck.check] at h
    cases he : TypeCheck.check D e with
    | error p => rw [he] at h; cases h
    | ok b => simp only [Depends, requiresOwnerContext, containsIndex]; exact ih he hs
  | numbits e ih =>
    intro a h hs
    simp only [TypeCheck.check] at h
    cases he : TypeCheck.check D e with
    | error p => rw [he] at h; cases h
    | ok b => simp only [Depends, requiresOwnerContext, containsIndex]; exact ih he hs
  | unary op e ih =>
    intro a h hs
    simp only [TypeCheck.check] at h
    cases he : TypeCheck.check D e with
    | error p => rw [he] at h; cases h
    | ok b => simp only [Depends, requiresOwnerContext, containsIndex]; exact ih he hs
  | element x y ihx ihy =>
    intro a h hs
    simp only [TypeCheck.check] at h
    cases hx : TypeCheck.check D x with
    | error p => rw [hx] at h; cases h
    | ok b =>
      cases hy : TypeCheck.check D y with
      | error p => rw [hx, hy] at h; cases h
      | ok c =>
        simp only [Depends, requiresOwnerContext, containsIndex, ihx hx hs.1, ihy hy hs.2, Bool.or_eq_true]
        tauto
  | isset x y ihx ihy =>
    intro a h hs
    simp only [TypeCheck.check] at h
    cases hx : TypeCheck.check D x with
    | error p => rw [hx] at h; cases h
    | ok b =>
      cases hy : TypeCheck.check D y with
      | error p => rw [hx, hy] at h; cases h
      | ok c =>
        simp only [Depends, requiresOwnerContext, containsIndex, ihx hx hs.1, ihy hy hs.2, Bool.or_eq_true]
        tauto
  | binary op x y ihx ihy =>
    intro a h hs
    simp only [TypeCheck.check] at h
    cases hx : TypeCheck.check D x with
    | error p => rw [hx] at h; cases h
    | ok b =>
      cases hy : TypeCheck.check D y with
      | error p => rw [hx, hy] at h; cases h
      | ok c =>
        simp only [Depends, requiresOwnerContext, containsIndex, ihx hx hs.1, ihy hy hs.2.1, Bool.or_eq_true]
        tauto
  | cond x y z ihx ihy ihz =>
    intro a h hs
    simp only [TypeCheck.check] at h
    cases hx : TypeCheck.check D x with
    | error p => rw [hx] at h; cases h
    | ok b =>
      cases hy : TypeCheck.check D y with
      | error p => rw [hx, hy] at h; cases h
      | ok c =>
        cases hz : TypeCheck.check D z with
        | error p => rw [hx, hy, hz] at h; cases h
        | ok d =>
          simp only [Depends, requiresOwnerContext, containsIndex, ihx hx hs.1, ihy hy hs.2.1, ihz hz hs.2.2, Bool.or_eq_true]
          tauto
  | _ => intro a h hs; simp [Depends, requiresOwnerContext, containsIndex]

theorem binType {op : BinOp} {u w t : Ty} (h : op.type u w = some t) :
    t = .int ∨ t = .float ∨ t = .bool ∨ t = .str ∨ ∃ c, t = .bitmask c := by
  unfold BinOp.type at h
  split at h <;> (try split at h) <;> (try split at h) <;> first
    | (cases h; done)
    | (simp only [Option.some.injEq] at h; subst h; simp; done)
    | (simp only [Option.some.injEq] at h; subst h; split <;> simp)

/-- An expression of constants has no array or function in it. -/
theorem independent_type {D : Decls} (e : Expression.Expr) : ∀ {t : Ty}, e.type D.signature = some t → ¬ Depends D e →
    (∀ u, t ≠ .array u) ∧ ∀ u, t ≠ .func u := by
  induction e with
  | symbol id =>
    intro t h hd
    simp only [Expr.type, Decls.signature, Option.map_eq_some_iff] at h
    obtain ⟨d, hd', rfl⟩ := h
    simp only [Depends, not_exists, not_and] at hd
    have := hd d hd'
    cases d with
    | const p k => cases p <;> simp [Decl.ty, Plain.ty]
    | _ => simp_all [Decl.isMember, Decl.ty]
  | paren e ih => intro t h hd; exact ih h hd
  | call e ih =>
    intro t h hd
    simp only [Expr.type] at h
    split at h
    · rename_i u hu; exact absurd rfl ((ih hu hd).2 u)
    · cases h
  | element a b iha ihb =>
    intro t h hd
    simp only [Expr.type] at h
    simp only [Depends, not_or] at hd
    split at h
    · rename_i u hu _; exact absurd rfl ((iha hu hd.1).1 u)
    · cases h
  | member e id => intro t h hd; exact absurd trivial hd
  | isset a b =>
    intro t h hd
    simp only [Expr.type] at h
    split at h
    · split at h
      · cases h; simp
      · cases h
    · cases h
  | lengthof e =>
    intro t h hd
    simp only [Expr.type] at h
    split at h <;> first | (cases h; simp; done) | cases h
  | valueof e =>
    intro t h hd
    simp only [Expr.type] at h
    split at h <;> first | (cases h; simp; done) | cases h
  | numbits e =>
    intro t h hd
    simp only [Expr.type] at h
    split at h <;> first | (cases h; simp; done) | cases h
  | unary op e =>
    intro t h hd
    simp only [Expr.type, Option.bind_eq_bind, Option.bind_eq_some_iff] at h
    obtain ⟨u, _, h⟩ := h
    cases op <;> cases u <;> simp [UnOp.type] at h <;> subst h <;> simp
  | binary op a b =>
    intro t h hd
    simp only [Expr.type, Option.bind_eq_bind, Option.bind_eq_some_iff] at h
    obtain ⟨u, _, w, _, h⟩ := h
    rcases binType h with rfl | rfl | rfl | rfl | ⟨c, rfl⟩ <;> simp
  | cond c a b ihc iha ihb =>
    intro t h hd
    simp only [Expr.type] at h
    simp only [Depends, not_or] at hd
    split at h
    · exact iha h hd.2.1
    · cases h
  | _ => intro t h hd; simp [Expr.type] at h; subst h; simp

theorem apply_same {D : Decls} {W W' : World O} (hW : SameConstants D W W') (d : Division) (op : BinOp) (x y : Value O) :
    op.apply W d x y = op.apply W' d x y := by
  cases x <;> cases y <;> simp [BinOp.apply, World.inMask, hW.equal, hW.width, hW.floatArith, hW.floatLess]

/-- The value of an expression which does not depend on the object is the same in all objects. -/
theorem eval_same {D : Decls} {W W' : World O} {T : O → Ty → Prop} (hT : W.Typed D.signature T) (hW : SameConstants D W W') (d : Division)
    (e : Expression.Expr) : ∀ {t : Ty}, e.type D.signature = some t → ¬ Depends D e → e.eval W d = e.eval W' d := by
  induction e with
  | symbol id =>
    intro t h hd
    simp only [Expr.type, Decls.signature, Option.map_eq_some_iff] at h
    obtain ⟨dc, hd', rfl⟩ := h
    simp only [Depends, not_exists, not_and] at hd
    exact hW.symbol id dc hd' (by simpa using hd dc hd')
  | floatLit text => intro t h hd; simp [Expr.eval, hW.floatText]
  | strLit text => intro t h hd; simp [Expr.eval, hW.stringText]
  | index => intro t h hd; exact absurd trivial hd
  | paren e ih => intro t h hd; exact ih h hd
  | call e ih =>
    intro t h hd
    simp only [Expr.type] at h
    split at h
    · rename_i u hu; exact absurd rfl ((independent_type e hu hd).2 u)
    · cases h
  | element a b iha ihb =>
    intro t h hd
    simp only [Expr.type] at h
    simp only [Depends, not_or] at hd
    split at h
    · rename_i u hu _; exact absurd rfl ((independent_type a hu hd.1).1 u)
    · cases h
  | member e id => intro t h hd; exact absurd trivial hd
  | isset a b iha ihb =>
    intro t h hd
    simp only [Expr.type] at h
    simp only [Depends, not_or] at hd
    split at h
    · rename_i h1 h2
      simp only [Expr.eval, ← iha h1 hd.1, ← ihb h2 hd.2]
      cases Expr.eval W d a with
      | none => rfl
      | some v =>
        cases Expr.eval W d b with
        | none => cases v <;> rfl
        | some w => cases v <;> cases w <;> simp [World.inMask, hW.width]
    · cases h
  | lengthof e ih =>
    intro t h hd
    simp only [Expr.type] at h
    have key : ∀ u, e.type D.signature = some u → (∀ w, u ≠ .array w) → (u = .str ∨ u = .bytes) →
        (Expression.Expr.lengthof e).eval W d = (Expression.Expr.lengthof e).eval W' d := by
      intro u hu _ hsb
      simp only [Expr.eval, ← ih hu hd]
      cases hv : e.eval W d with
      | none => rfl
      | some v =>
        have := type_sound hT d e hu hv
        cases v <;> rcases hsb with rfl | rfl <;> first | rfl | exact this.elim
    split at h
    · rename_i u hu; exact absurd rfl ((independent_type e hu hd).1 u)
    · rename_i hu; exact key _ hu (by simp) (.inl rfl)
    · rename_i hu; exact key _ hu (by simp) (.inr rfl)
    · cases h
  | valueof e ih =>
    intro t h hd
    simp only [Expr.type] at h
    split at h
    · rename_i hu; simp only [Expr.eval, ← ih hu hd]
    · rename_i hu; simp only [Expr.eval, ← ih hu hd]
    · cases h
  | numbits e ih =>
    intro t h hd
    simp only [Expr.type] at h
    split at h
    · rename_i hu; simp only [Expr.eval, ← ih hu hd]
    · cases h
  | unary op e ih =>
    intro t h hd
    simp only [Expr.type, Option.bind_eq_bind, Option.bind_eq_some_iff] at h
    obtain ⟨u, hu, h⟩ := h
    simp only [Expr.eval, ← ih hu hd]
    cases e.eval W d with
    | none => rfl
    | some v => cases op <;> cases v <;> simp [UnOp.apply, World.inMask, hW.width, hW.floatMinus]
  | binary op a b iha ihb =>
    intro t h hd
    simp only [Expr.type, Option.bind_eq_bind, Option.bind_eq_some_iff] at h
    obtain ⟨u, hu, w, hw, h⟩ := h
    simp only [Depends, not_or] at hd
    have ha := iha hu hd.1
    have hb := ihb hw hd.2
    cases op <;> simp only [Expr.eval, ← ha, ← hb, apply_same hW]
  | cond c a b ihc iha ihb =>
    intro t h hd
    simp only [Expr.type] at h
    simp only [Depends, not_or] at hd
    split at h
    · rename_i hc
      simp only [Expr.eval, ← ihc hc.1 hd.1, ← iha h hd.2.1, ← ihb (hc.2 ▸ h) hd.2.2]
    · cases h
  | _ => intro t h hd; rfl

/-! ### known values -/

theorem known_of_exactly {k : Known} {v x : Int} (h : k.Has x) (hv : k.value = some v) : x = v := h.1 v hv

theorem arith_value {op : BinOp} {x y : Int} {r : Option Int} (h : ConstEval.arith op (some x) (some y) = .ok r)
    (hop : op ∈ [BinOp.mul, .div, .mod, .add, .sub, .shl, .shr, .band, .bxor, .bor]) : r.isSome := by
  cases op <;> simp [ConstEval.arith] at h hop
  all_goals first
    | (subst h; rfl)
    | (split at h
       · cases h
       · cases h; rfl)

/-- a type with numbers: integers, enumerations, bitmasks -/
def Number (t : Ty) : Prop := t = .int ∨ (∃ c, t = .enum c) ∨ ∃ c, t = .bitmask c

theorem number_binary {op : BinOp} {u w t : Ty} (h : op.type u w = some t) (ht : Number t)
    (hop : op ∈ [BinOp.mul, .div, .mod, .add, .sub, .shl, .shr, .band, .bxor, .bor]) :
    (u = .int ∧ w = .int) ∨ ∃ c c', u = .bitmask c ∧ w = .bitmask c' := by
  unfold BinOp.type at h
  split at h <;> simp at hop <;> first
    | (cases h; simp [Number] at ht; done)
    | (simp; done)
    | (split at h <;> simp_all [Number]; done)
    | skip
  all_goals
    cases u <;> cases w <;> simp [Ty.numeric] at h <;> subst h <;> simp [Number] at ht ⊢

/-- The compiler knows the number of a computed expression. -/
theorem computed_known {D : Decls} {N : ExprBounds.Names} (e : Expression.Expr) : ∀ {t : Ty} {i : ExprBounds.Info},
    e.type D.signature = some t → Number t → info D.signature N e = .ok i → Computed N e → i.known.value.isSome := by
  induction e with
  | intLit b digits => intro t i ht hn hi hc; cases hi; rfl
  | symbol id => intro t i ht hn hi hc; cases hi; exact hc
  | paren e ih => intro t i ht hn hi hc; exact ih ht hn hi hc
  | valueof e ih =>
    intro t i ht hn hi hc
    simp only [info] at hi
    obtain ⟨j, hj, hi⟩ := ConstEval.bind_ok_inv hi
    simp only [Except.ok.injEq] at hi
    subst hi
    simp only [Expr.type] at ht
    split at ht
    · rename_i c hu; exact ih (i := j) hu (.inr (.inl ⟨c, rfl⟩)) hj hc
    · rename_i c hu; exact ih (i := j) hu (.inr (.inr ⟨c, rfl⟩)) hj hc
    · cases ht
  | numbits e ih =>
    intro t i ht hn hi hc
    simp only [info] at hi
    obtain ⟨j, hj, hi⟩ := ConstEval.bind_ok_inv hi
    simp only [Except.ok.injEq] at hi
    subst hi
    simp only [Expr.type] at ht
    split at ht
    · rename_i hu
      obtain ⟨v, hv⟩ := Option.isSome_iff_exists.mp (ih hu (.inl rfl) hj hc)
      simp [Known.numbits, hv, Known.exact]
    · cases ht
  | unary op e ih =>
    intro t i ht hn hi hc
    simp only [info] at hi
    obtain ⟨j, hj, hi⟩ := ConstEval.bind_ok_inv hi
    simp only [Except.ok.injEq] at hi
    subst hi
    simp only [Expr.type, Option.bind_eq_bind, Option.bind_eq_some_iff] at ht
    obtain ⟨u, hu, ht⟩ := ht
    have hun : Number u ∧ (u = .int ∨ op = .tilde) := by
      cases op <;> cases u <;> simp [UnOp.type] at ht <;> subst ht <;> simp_all [Number]
    obtain ⟨v, hv⟩ := Option.isSome_iff_exists.mp (ih hu hun.1 hj hc.2)
    have hb := hc.1
    rw [hu]
    cases op with
    | bang => exact absurd rfl hb
    | tilde => simp [ExprBounds.unaryOf, Known.not, hv, Known.exact]
    | plus => rcases hun.2 with rfl | h <;> simp_all [ExprBounds.unaryOf]
    | minus => rcases hun.2 with rfl | h <;> simp_all [ExprBounds.unaryOf, Known.negate, Known.exact]
  | binary op a b iha ihb =>
    intro t i ht hn hi hc
    simp only [info] at hi
    obtain ⟨j, hj, hi⟩ := ConstEval.bind_ok_inv hi
    obtain ⟨k, hk, hi⟩ := ConstEval.bind_ok_inv hi
    simp only [Expr.type, Option.bind_eq_bind, Option.bind_eq_some_iff] at ht
    obtain ⟨u, hu, w, hw, ht⟩ := ht
    have hop := hc.1
    have hnum := number_binary ht hn hop
    have hun : Number u ∧ Number w := by
      rcases hnum with ⟨rfl, rfl⟩ | ⟨c, c', rfl, rfl⟩ <;> simp [Number]
    obtain ⟨x, hx⟩ := Option.isSome_iff_exists.mp (iha hu hun.1 hj hc.2.1)
    obtain ⟨y, hy⟩ := Option.isSome_iff_exists.mp (ihb hw hun.2 hk hc.2.2)
    have key : ∀ {r : Known}, Known.binary op j.known k.known = .ok r → r.value.isSome := by
      intro r hr
      unfold Known.binary at hr
      obtain ⟨v, hv, hr⟩ := ConstEval.bind_ok_inv hr
      rw [hx, hy] at hv
      obtain ⟨z, rfl⟩ := Option.isSome_iff_exists.mp (arith_value hv hop)
      cases hr
      rfl
    rw [hu, hw] at hi
    have hi' : (Known.binary op j.known k.known >>= fun r => .ok { known := r }) = .ok i := by
      rcases hnum with ⟨rfl, rfl⟩ | ⟨c, c', rfl, rfl⟩ <;> cases op <;> first | exact hi | simp at hop
    obtain ⟨r, hr, hi'⟩ := ConstEval.bind_ok_inv hi'
    simp only [Except.ok.injEq] at hi'
    subst hi'
    exact key hr
  | _ => intro t i ht hn hi hc; exact hc.elim

/-! ### the checks -/

theorem checkArguments_ok {D : Decls} {N : ExprBounds.Names} : ∀ {es : List Expression.Expr} {ps : List Plain},
    es.length = ps.length → (checkArguments D N es ps = .ok () ↔
      ∀ (i : Nat) e p, es[i]? = some e → ps[i]? = some p → ∃ a k, evaluate D N e = .ok (a, k) ∧ checkExpressionType a (some p) = true)
  | [], [], _ => by simp [checkArguments]
  | [], _ :: _, h => by simp at h
  | _ :: _, [], h => by simp at h
  | e :: es, p :: ps, h => by
    have ih := checkArguments_ok (D := D) (N := N) (es := es) (ps := ps) (by simpa using h)
    simp only [checkArguments, bind_ok, bind_unit, require_ok, ih]
    constructor
    · rintro ⟨⟨a, k⟩, h1, _, h2, h3⟩ i e' p' he hp
      cases i with
      | zero =>
        simp only [List.getElem?_cons_zero, Option.some.injEq] at he hp
        subst he hp
        exact ⟨a, k, h1, h2⟩
      | succ i => exact h3 i e' p' (by simpa using he) (by simpa using hp)
    · intro H
      obtain ⟨a, k, h1, h2⟩ := H 0 e p rfl rfl
      exact ⟨(a, k), h1, (), h2, fun i e' p' he hp => H (i + 1) e' p' (by simpa using he) (by simpa using hp)⟩

theorem resolve_ok {params : Nat → List Plain} {t : FieldType} :
    resolve params t = .ok () ↔ ∀ c args, t = .compound c args → args.length = (params c).length := by
  cases t with
  | compound c args =>
    cases args with
    | nil =>
      simp only [resolve, require_ok, List.isEmpty_iff]
      constructor
      · rintro h c' args' heq
        cases heq
        simp [h]
      · intro h
        have := h c [] rfl
        exact List.length_eq_zero_iff.mp this.symm
    | cons a as =>
      simp only [resolve, bind_unit, require_ok, decide_eq_true_eq]
      constructor
      · rintro ⟨_, h⟩ c' args' heq
        cases heq
        exact h
      · intro h
        have := h c _ rfl
        refine ⟨?_, this⟩
        cases hp : params c with
        | nil => rw [hp] at this; simp at this
        | cons _ _ => rfl
  | _ => simp [resolve]

theorem evaluateBits_ok {D : Decls} {N : ExprBounds.Names} {signed : Bool} {l : Expression.Expr} {b : Known} :
    evaluateBits D N signed l = .ok b ↔ ∃ a k, evaluate D N l = .ok (a, k) ∧ a.kind = .integer ∧ dynamicKnown signed k = .ok b := by
  simp only [evaluateBits, bind_ok, require_ok, decide_eq_true_eq]
  constructor
  · rintro ⟨⟨a, k⟩, h1, _, h2, h3⟩
    refine ⟨a, k, h1, h2, ?_⟩
    cases hd : dynamicKnown signed k with
    | error e => rw [hd] at h3; cases h3
    | ok b' => rw [hd] at h3; cases h3; rfl
  · rintro ⟨a, k, h1, h2, h3⟩
    exact ⟨(a, k), h1, (), h2, by rw [h3]⟩

theorem usesIndex_iff (e : Expression.Expr) : containsIndex e = true ↔ UsesIndex e := by
  induction e <;> simp_all [containsIndex, UsesIndex, or_assoc]

theorem checkIndex_ok {f : Field} :
    checkIndex f = .ok () ↔ (∀ e ∈ f.type.arguments, UsesIndex e → f.isArray) ∧ ∀ e ∈ f.others, ¬ UsesIndex e := by
  simp only [checkIndex, bind_unit, require_ok, Bool.or_eq_true, Bool.not_eq_true', List.any_eq_false, ← usesIndex_iff, Field.others]
  constructor
  · rintro ⟨h1, h2⟩
    refine ⟨fun e he hi => ?_, h2⟩
    rcases h1 with h1 | h1
    · exact h1
    · exact absurd hi (h1 e he)
  · rintro ⟨h1, h2⟩
    refine ⟨?_, h2⟩
    by_cases ha : f.isArray = true
    · exact .inl ha
    · exact .inr fun e he hi => ha (h1 e he hi)

end Zserio.FieldCheck
