import Verif.Spec.ConstEval
import Mathlib.Data.List.Sort
/-
The table of evaluated declarations is built bottom up: every entry is the value of its declaration with respect to the entries made
before it.
-/
set_option linter.unusedSimpArgs false
set_option linter.unusedVariables false
namespace Zserio.ConstEval
open Zserio.Expression

theorem K.bind_apply {α β : Type} (x : K α) (f : α → K β) (t : Table) :
    (x >>= f) t = match x t with
      | .ok (a, t') => f a t'
      | .error e => .error e := by
  show StateT.bind x f t = _
  unfold StateT.bind
  cases x t <;> rfl

theorem kbind_ok {α β : Type} {x : K α} {f : α → K β} {t t' : Table} {b : β} (h : (x >>= f) t = .ok (b, t')) :
    ∃ a u, x t = .ok (a, u) ∧ f a u = .ok (b, t') := by
  rw [K.bind_apply] at h
  cases hx : x t with
  | error e => rw [hx] at h; cases h
  | ok p => obtain ⟨a, u⟩ := p; rw [hx] at h; exact ⟨a, u, rfl, h⟩

theorem kbind_intro {α β : Type} {x : K α} {f : α → K β} {t u t' : Table} {a : α} {b : β} (hx : x t = .ok (a, u))
    (hf : f a u = .ok (b, t')) : (x >>= f) t = .ok (b, t') := by
  rw [K.bind_apply, hx]; exact hf

theorem liftK_ok {α : Type} {x : Except CompileError α} {a : α} {t t' : Table} (h : liftK x t = .ok (a, t')) : x = .ok a ∧ t' = t := by
  unfold liftK at h
  cases x with
  | error e => cases h
  | ok b => simp only [Except.ok.injEq, Prod.mk.injEq] at h; exact ⟨by rw [h.1], h.2.symm⟩

theorem liftK_intro {α : Type} {x : Except CompileError α} {a : α} (t : Table) (h : x = .ok a) : liftK x t = .ok (a, t) := by
  subst h; rfl

/-- a lookup in a fixed table -/
def lookupIn (S : Schema) (T : Table) (id : Nat) : K Result := fun t =>
  match S.symbol id with
  | none => .error .unresolved
  | some ref =>
    match operand S T ref with
    | .ok r => .ok (r, t)
    | .error e => .error e

theorem lookupIn_ok {S : Schema} {T : Table} {id : Nat} {r : Result} {t t' : Table} (h : lookupIn S T id t = .ok (r, t')) :
    t' = t ∧ ∃ ref, S.symbol id = some ref ∧ operand S T ref = .ok r := by
  unfold lookupIn at h
  cases hs : S.symbol id with
  | none => rw [hs] at h; cases h
  | some ref =>
    rw [hs] at h
    cases ho : operand S T ref with
    | error e => simp only [ho] at h; cases h
    | ok x =>
      simp only [ho, Except.ok.injEq, Prod.mk.injEq] at h
      exact ⟨h.2.symm, ref, rfl, by rw [← h.1, ho]⟩

theorem lookupIn_intro {S : Schema} {T : Table} {id : Nat} {r : Result} {ref : Ref} (t : Table) (hs : S.symbol id = some ref)
    (ho : operand S T ref = .ok r) : lookupIn S T id t = .ok (r, t) := by
  simp only [lookupIn, hs, ho]

/-- errors which do not come from the operators -/
def Special (err : CompileError) : Prop := err = .depth ∨ err = .cyclic

/-- the errors are those of operators -/
def Own {α : Type} (x : Except CompileError α) : Prop := ∀ err, Special err → x ≠ .error err

theorem own_ok {α : Type} (a : α) : Own (.ok a) := fun _ _ h => by cases h

theorem own_error {α : Type} {e : CompileError} (h : e ≠ .depth ∧ e ≠ .cyclic) : Own (.error e : Except CompileError α) := by
  rintro err (rfl | rfl) heq
  · cases heq; exact h.1 rfl
  · cases heq; exact h.2 rfl

theorem isSetOf_own (a b : Result) : Own (isSetOf a b) := by
  unfold isSetOf; repeat' split
  all_goals first | exact own_ok _ | exact own_error (by simp)

theorem lengthOf_own (a : Result) : Own (lengthOf a) := by
  unfold lengthOf; repeat' split
  all_goals first | exact own_ok _ | exact own_error (by simp)

theorem valueOf_own (a : Result) : Own (valueOf a) := by
  unfold valueOf; repeat' split
  all_goals first | exact own_ok _ | exact own_error (by simp)

theorem numBitsOf_own (a : Result) : Own (numBitsOf a) := by
  unfold numBitsOf; repeat' split
  all_goals first | exact own_ok _ | exact own_error (by simp)

theorem unary_own (op : UnOp) (a : Result) : Own (unary op a) := by
  unfold unary; repeat' split
  all_goals first | exact own_ok _ | exact own_error (by simp)

theorem arith_own (op : BinOp) (a b : Option Int) : Own (arith op a b) := by
  unfold arith; repeat' split
  all_goals first | exact own_ok _ | exact own_error (by simp)

theorem arith_bind_own {op : BinOp} {a b : Option Int} {f : Option Int → Result} : Own (arith op a b >>= fun v => .ok (f v)) := by
  intro err herr
  have := arith_own op a b err herr
  cases h : arith op a b with
  | error e => rw [h] at this; intro hc; exact this (by cases hc; rfl)
  | ok v => exact own_ok _ err herr

theorem binary_own (op : BinOp) (a b : Result) : Own (binary op a b) := by
  unfold binary arithmetic bitExpression relational
  repeat' split
  all_goals first
    | exact arith_bind_own
    | exact own_ok _
    | exact own_error (by simp)

theorem conditional_own (c a b : Result) : Own (conditional c a b) := by
  unfold conditional; repeat' split
  all_goals first | exact own_ok _ | exact own_error (by simp)

/-- Induction over expressions as far as their evaluation is concerned: an expression is a leaf, a symbol, or a node whose operands are
evaluated one after the other. -/
theorem expr_induct {P : Expression.Expr → Prop}
    (leaf : ∀ e r, (∀ l, evaluateExpr l e = liftK (.ok r)) → symbols e = [] → P e)
    (sym : ∀ id, P (.symbol id))
    (node1 : ∀ e a (f : Result → Except CompileError Result), (∀ l, evaluateExpr l e = (evaluateExpr l a >>= fun r => liftK (f r))) → symbols e = symbols a → (∀ x, Own (f x)) → P a → P e)
    (node2 : ∀ e a b (f : Result → Result → Except CompileError Result), (∀ l, evaluateExpr l e = (evaluateExpr l a >>= fun x => evaluateExpr l b >>= fun y => liftK (f x y))) →
      symbols e = symbols a ++ symbols b → (∀ x y, Own (f x y)) → P a → P b → P e)
    (node3 : ∀ e a b c (f : Result → Result → Result → Except CompileError Result), (∀ l, evaluateExpr l e = (evaluateExpr l a >>= fun x => evaluateExpr l b >>= fun y =>
      evaluateExpr l c >>= fun z => liftK (f x y z))) → symbols e = symbols a ++ symbols b ++ symbols c →
      (∀ x y z, Own (f x y z)) → P a → P b → P c → P e) :
    ∀ e, P e := by
  intro e
  induction e with
  | intLit b digits => exact leaf _ _ (fun l => rfl) rfl
  | floatLit text => exact leaf _ _ (fun l => rfl) rfl
  | strLit text => exact leaf _ _ (fun l => rfl) rfl
  | boolLit text => exact leaf _ _ (fun l => rfl) rfl
  | index => exact leaf _ _ (fun l => rfl) rfl
  | symbol id => exact sym id
  | paren e ih =>
    refine node1 _ e (fun r => .ok r) (fun l => ?_) rfl (fun _ => own_ok _) ih
    simp only [evaluateExpr]
    funext t
    rw [K.bind_apply]
    cases evaluateExpr l e t <;> rfl
  | call e ih => exact node1 _ e (fun _ => .error .type) (fun l => rfl) rfl (fun _ => own_error (by simp)) ih
  | element a b iha ihb => exact node2 _ a b (fun _ _ => .error .type) (fun l => rfl) rfl (fun _ _ => own_error (by simp)) iha ihb
  | member e id ih => exact node1 _ e (fun _ => .error .type) (fun l => rfl) rfl (fun _ => own_error (by simp)) ih
  | isset a b iha ihb => exact node2 _ a b isSetOf (fun l => rfl) rfl isSetOf_own iha ihb
  | lengthof e ih => exact node1 _ e lengthOf (fun l => rfl) rfl lengthOf_own ih
  | valueof e ih => exact node1 _ e valueOf (fun l => rfl) rfl valueOf_own ih
  | numbits e ih => exact node1 _ e numBitsOf (fun l => rfl) rfl numBitsOf_own ih
  | unary op e ih => exact node1 _ e (unary op) (fun l => rfl) rfl (unary_own op) ih
  | binary op a b iha ihb => exact node2 _ a b (binary op) (fun l => rfl) rfl (binary_own op) iha ihb
  | cond c a b ihc iha ihb => exact node3 _ c a b conditional (fun l => rfl) rfl conditional_own ihc iha ihb

/-- `x` and `y` correspond: from states related by `R`, where `x` succeeds, `y` succeeds with the same result -/
def Simulates {α : Type} (R : Table → Table → Prop) (x y : K α) : Prop :=
  ∀ s t r s', R s t → x s = .ok (r, s') → ∃ t', y t = .ok (r, t') ∧ R s' t'

theorem simulates_lift {α : Type} (R : Table → Table → Prop) (x : Except CompileError α) : Simulates R (liftK x) (liftK x) := by
  intro s t r s' h hx
  obtain ⟨h1, rfl⟩ := liftK_ok hx
  exact ⟨t, liftK_intro t h1, h⟩

theorem simulates_bind {α β : Type} {R : Table → Table → Prop} {x y : K α} {f g : α → K β} (hx : Simulates R x y)
    (hf : ∀ a, Simulates R (f a) (g a)) : Simulates R (x >>= f) (y >>= g) := by
  intro s t r s' h hr
  obtain ⟨a, u, h1, h2⟩ := kbind_ok hr
  obtain ⟨v, h3, h4⟩ := hx s t a u h h1
  obtain ⟨t', h5, h6⟩ := hf a u v r s' h4 h2
  exact ⟨t', kbind_intro h3 h5, h6⟩

theorem simulates_expr {R : Table → Table → Prop} {l l' : Nat → K Result} (h : ∀ id, Simulates R (l id) (l' id)) :
    ∀ e, Simulates R (evaluateExpr l e) (evaluateExpr l' e) := by
  refine expr_induct ?_ ?_ ?_ ?_ ?_
  · intro e r he _; rw [he, he]; exact simulates_lift _ _
  · intro id; exact h id
  · intro e a f he _ _ ia; rw [he, he]; exact simulates_bind ia fun _ => simulates_lift _ _
  · intro e a b f he _ _ ia ib; rw [he, he]; exact simulates_bind ia fun _ => simulates_bind ib fun _ => simulates_lift _ _
  · intro e a b c f he _ _ ia ib ic; rw [he, he]
    exact simulates_bind ia fun _ => simulates_bind ib fun _ => simulates_bind ic fun _ => simulates_lift _ _

theorem simulates_items {R : Table → Table → Prop} {l l' : Nat → K Result} (h : ∀ id, Simulates R (l id) (l' id)) (m : Bool) :
    ∀ items, Simulates R (visitItems l m items) (visitItems l' m items) := by
  intro items
  induction items with
  | nil => exact simulates_lift _ _
  | cons i is ih =>
    simp only [visitItems]
    refine simulates_bind ?_ fun _ => simulates_bind ih fun _ => simulates_lift _ _
    unfold visitItem
    cases i.expr with
    | none => exact simulates_lift _ _
    | some e => exact simulates_bind (simulates_expr h e) fun _ => simulates_bind (simulates_lift _ _) fun _ => simulates_lift _ _

theorem simulates_decl {R : Table → Table → Prop} {l l' : Nat → K Result} (h : ∀ id, Simulates R (l id) (l' id)) (d : Decl) :
    Simulates R (Decl.evaluate l d) (Decl.evaluate l' d) := by
  cases d with
  | const type kind e => exact simulates_bind (simulates_expr h e) fun _ => simulates_lift _ _
  | enum kind items => exact simulates_bind (simulates_items h _ items) fun _ => simulates_lift _ _
  | bitmask kind items =>
    refine simulates_bind (simulates_items h _ items) fun _ => ?_
    split
    · exact simulates_lift _ _
    · exact simulates_lift _ _

/-! ### Growing tables -/

/-- the later table contains the earlier one -/
def Table.Le (t u : Table) : Prop := ∀ d v, t.find d = some v → u.find d = some v

theorem Table.Le.refl (t : Table) : t.Le t := fun _ _ h => h

theorem Table.Le.trans {t u v : Table} (h : t.Le u) (h' : u.Le v) : t.Le v := fun d x hx => h' d x (h d x hx)

theorem find_cons (t : Table) (d d' : Nat) (v : Evaluated) :
    Table.find ((d, v) :: t) d' = if d' = d then some v else t.find d' := by
  simp only [Table.find, List.lookup_cons]
  by_cases h : d' = d
  · simp [h]
  · have : (d' == d) = false := by simpa using h
    rw [this, if_neg h]

theorem le_cons {t : Table} {d : Nat} {v : Evaluated} (h : t.find d = none) : t.Le ((d, v) :: t) := by
  intro d' v' h'
  rw [find_cons]
  split
  · next he => subst he; rw [h] at h'; cases h'
  · exact h'

theorem operand_mono {S : Schema} {t u : Table} (h : t.Le u) {ref : Ref} {r : Result} (ho : operand S t ref = .ok r) :
    operand S u ref = .ok r := by
  cases ref with
  | const d =>
    simp only [operand] at ho ⊢
    cases ht : t.find d with
    | none => simp only [ht] at ho; split at ho <;> simp_all
    | some v => rw [h d v ht]; rw [ht] at ho; exact ho
  | item d i =>
    simp only [operand] at ho ⊢
    cases ht : t.find d with
    | none => simp only [ht] at ho; split at ho <;> simp_all
    | some v => rw [h d v ht]; rw [ht] at ho; exact ho

theorem operand_found {S : Schema} {t : Table} {ref : Ref} {r : Result} (ho : operand S t ref = .ok r) :
    ∃ v, t.find ref.decl = some v := by
  cases ref with
  | const d =>
    simp only [operand] at ho
    cases ht : t.find d with
    | none => simp only [ht] at ho; split at ho <;> simp_all
    | some v => exact ⟨v, ht⟩
  | item d i =>
    simp only [operand] at ho
    cases ht : t.find d with
    | none => simp only [ht] at ho; split at ho <;> simp_all
    | some v => exact ⟨v, ht⟩

/-- fixed lookups in a bigger table -/
theorem lookupIn_simulates {S : Schema} {t u : Table} (h : t.Le u) (id : Nat) :
    Simulates (fun a b => a = b) (lookupIn S t id) (lookupIn S u id) := by
  rintro s _ r s' rfl hx
  obtain ⟨rfl, ref, h1, h2⟩ := lookupIn_ok hx
  exact ⟨s', lookupIn_intro s' h1 (operand_mono h h2), rfl⟩

/-- a computation with a fixed table leaves the state alone -/
def Frozen {α : Type} (x : K α) : Prop := ∀ t r t', x t = .ok (r, t') → t' = t

/-- What a computation with side effects on the table does is repeated by the computation with the resulting table, for each lookup. -/
def Reproduces {α : Type} (I : Table → Prop) (x : K α) (y : Table → K α) : Prop :=
  ∀ t r t', I t → x t = .ok (r, t') → I t' ∧ t.Le t' ∧ ∀ u, t'.Le u → ∀ s, y u s = .ok (r, s)

theorem reproduces_lift {α : Type} (I : Table → Prop) (x : Except CompileError α) : Reproduces I (liftK x) (fun _ => liftK x) := by
  intro t r t' hi hx
  obtain ⟨h1, rfl⟩ := liftK_ok hx
  exact ⟨hi, Table.Le.refl _, fun u _ s => liftK_intro s h1⟩

theorem reproduces_bind {α β : Type} {I : Table → Prop} {x : K α} {y : Table → K α} {f : α → K β} {g : Table → α → K β}
    (hx : Reproduces I x y) (hf : ∀ a, Reproduces I (f a) (fun u => g u a)) :
    Reproduces I (x >>= f) (fun u => y u >>= g u) := by
  intro t r t' hi hr
  obtain ⟨a, v, h1, h2⟩ := kbind_ok hr
  obtain ⟨i1, l1, s1⟩ := hx t a v hi h1
  obtain ⟨i2, l2, s2⟩ := hf a v r t' i1 h2
  exact ⟨i2, l1.trans l2, fun u hu s => kbind_intro (s1 u (l2.trans hu) s) (s2 u hu s)⟩

theorem reproduces_expr {I : Table → Prop} {l : Nat → K Result} {l' : Table → Nat → K Result}
    (h : ∀ id, Reproduces I (l id) (fun u => l' u id)) : ∀ e, Reproduces I (evaluateExpr l e) (fun u => evaluateExpr (l' u) e) := by
  refine expr_induct ?_ ?_ ?_ ?_ ?_
  · intro e r he _; simp only [he]; exact reproduces_lift _ _
  · intro id; exact h id
  · intro e a f he _ _ ia; simp only [he]; exact reproduces_bind ia fun _ => reproduces_lift _ _
  · intro e a b f he _ _ ia ib; simp only [he]
    exact reproduces_bind (g := fun u x => evaluateExpr (l' u) b >>= fun y => liftK (f x y)) ia
      fun _ => reproduces_bind ib fun _ => reproduces_lift _ _
  · intro e a b c f he _ _ ia ib ic; simp only [he]
    exact reproduces_bind (g := fun u x => evaluateExpr (l' u) b >>= fun y => evaluateExpr (l' u) c >>= fun z => liftK (f x y z)) ia
      fun x => reproduces_bind (g := fun u y => evaluateExpr (l' u) c >>= fun z => liftK (f x y z)) ib
        fun _ => reproduces_bind ic fun _ => reproduces_lift _ _

theorem reproduces_items {I : Table → Prop} {l : Nat → K Result} {l' : Table → Nat → K Result}
    (h : ∀ id, Reproduces I (l id) (fun u => l' u id)) (m : Bool) :
    ∀ items, Reproduces I (visitItems l m items) (fun u => visitItems (l' u) m items) := by
  intro items
  induction items with
  | nil => exact reproduces_lift _ _
  | cons i is ih =>
    simp only [visitItems]
    refine reproduces_bind (g := fun u v => visitItems (l' u) m is >>= fun vs => liftK (.ok (v :: vs))) ?_
      fun _ => reproduces_bind ih fun _ => reproduces_lift _ _
    unfold visitItem
    cases i.expr with
    | none => exact reproduces_lift _ _
    | some e =>
      exact reproduces_bind (g := fun u r => liftK (explicitValue m r) >>= fun v => liftK (.ok (some v))) (reproduces_expr h e)
        fun _ => reproduces_bind (reproduces_lift _ _) fun _ => reproduces_lift _ _

theorem reproduces_decl {I : Table → Prop} {l : Nat → K Result} {l' : Table → Nat → K Result}
    (h : ∀ id, Reproduces I (l id) (fun u => l' u id)) (d : Decl) :
    Reproduces I (Decl.evaluate l d) (fun u => Decl.evaluate (l' u) d) := by
  cases d with
  | const type kind e => exact reproduces_bind (reproduces_expr h e) fun _ => reproduces_lift _ _
  | enum kind items => exact reproduces_bind (reproduces_items h _ items) fun _ => reproduces_lift _ _
  | bitmask kind items =>
    simp only [Decl.evaluate]
    split
    · exact reproduces_bind (reproduces_items h _ items) fun _ => reproduces_lift _ _
    · exact reproduces_bind (reproduces_items h _ items) fun _ => reproduces_lift _ _

/-! ### The table is built bottom up -/

/-- every entry is the value of its declaration with respect to the entries made before -/
inductive Built (S : Schema) : Table → Prop
  | nil : Built S []
  | cons {t : Table} {d : Nat} {decl : Decl} {v : Evaluated} : Built S t → t.find d = none → S.decls[d]? = some decl →
      (∀ s, Decl.evaluate (lookupIn S t) decl s = .ok (v, s)) → Built S ((d, v) :: t)

/-- the lookup of `evaluateDecl` -/
def lookupWith (S : Schema) (n : Nat) (busy : List Nat) : Nat → K Result := fun id t => do
  match S.symbol id with
  | none => .error .unresolved
  | some ref => do
    let ((), t) ← evaluateDecl S n busy ref.decl t
    let r ← operand S t ref
    .ok (r, t)

theorem evaluateDecl_succ (S : Schema) (n : Nat) (busy : List Nat) (d : Nat) (t : Table) :
    evaluateDecl S (n + 1) busy d t =
      if (t.find d).isSome then .ok ((), t)
      else if d ∈ busy then .error .cyclic
      else
        match S.decls[d]? with
        | none => .error .unresolved
        | some decl =>
          match Decl.evaluate (lookupWith S n (d :: busy)) decl t with
          | .ok (v, t) => .ok ((), (d, v) :: t)
          | .error e => .error e := by
  simp only [evaluateDecl]
  split
  · rfl
  · split
    · rfl
    · cases hd : S.decls[d]? with
      | none => rfl
      | some decl =>
        show (Decl.evaluate (lookupWith S n (d :: busy)) decl t >>= fun p => Except.ok ((), (d, p.1) :: p.2)) = _
        simp only
        cases Decl.evaluate (lookupWith S n (d :: busy)) decl t <;> rfl

theorem lookupWith_ok {S : Schema} {n : Nat} {busy : List Nat} {id : Nat} {t t' : Table} {r : Result}
    (h : lookupWith S n busy id t = .ok (r, t')) :
    ∃ ref, S.symbol id = some ref ∧ evaluateDecl S n busy ref.decl t = .ok ((), t') ∧ operand S t' ref = .ok r := by
  unfold lookupWith at h
  cases hs : S.symbol id with
  | none => rw [hs] at h; cases h
  | some ref =>
    rw [hs] at h
    simp only at h
    cases he : evaluateDecl S n busy ref.decl t with
    | error e => rw [he] at h; cases h
    | ok p =>
      obtain ⟨⟨⟩, u⟩ := p
      rw [he] at h
      change (operand S u ref >>= fun r => Except.ok (r, u)) = _ at h
      cases ho : operand S u ref with
      | error e => rw [ho] at h; cases h
      | ok x =>
        rw [ho] at h
        change Except.ok (x, u) = _ at h
        simp only [Except.ok.injEq, Prod.mk.injEq] at h
        obtain ⟨rfl, rfl⟩ := h
        exact ⟨ref, rfl, he, ho⟩

theorem lookupWith_intro {S : Schema} {n : Nat} {busy : List Nat} {id : Nat} {t t' : Table} {r : Result} {ref : Ref}
    (hs : S.symbol id = some ref) (he : evaluateDecl S n busy ref.decl t = .ok ((), t')) (ho : operand S t' ref = .ok r) :
    lookupWith S n busy id t = .ok (r, t') := by
  unfold lookupWith
  rw [hs]
  simp only [he]
  show (operand S t' ref >>= fun r => Except.ok (r, t')) = _
  rw [ho]
  rfl

/-- soundness of one step -/
theorem evaluateDecl_built (S : Schema) : ∀ (n : Nat) (busy : List Nat) (d : Nat) (t t' : Table) (u : Unit), Built S t →
    (∀ b ∈ busy, t.find b = none) → evaluateDecl S n busy d t = .ok (u, t') →
    Built S t' ∧ t.Le t' ∧ (∃ v, t'.find d = some v) ∧ ∀ b ∈ busy, t'.find b = none := by
  intro n
  induction n with
  | zero => intro busy d t t' u _ _ h; cases h
  | succ n ih =>
    intro busy d t t' u hb hbusy h
    rw [evaluateDecl_succ] at h
    by_cases hf : (t.find d).isSome
    · rw [if_pos hf] at h
      simp only [Except.ok.injEq, Prod.mk.injEq] at h
      obtain ⟨_, rfl⟩ := h
      exact ⟨hb, Table.Le.refl _, Option.isSome_iff_exists.mp hf, hbusy⟩
    · rw [if_neg hf] at h
      by_cases hm : d ∈ busy
      · rw [if_pos hm] at h; cases h
      · rw [if_neg hm] at h
        cases hd : S.decls[d]? with
        | none => rw [hd] at h; cases h
        | some decl =>
          rw [hd] at h
          simp only at h
          cases he : Decl.evaluate (lookupWith S n (d :: busy)) decl t with
          | error e => rw [he] at h; cases h
          | ok p =>
            obtain ⟨v, w⟩ := p
            rw [he] at h
            simp only [Except.ok.injEq, Prod.mk.injEq] at h
            obtain ⟨_, rfl⟩ := h
            have hfn : t.find d = none := by simpa using hf
            have hbusy' : ∀ b ∈ d :: busy, t.find b = none := by
              intro b hb'; rcases List.mem_cons.mp hb' with rfl | hb'
              · exact hfn
              · exact hbusy b hb'
            have hrep := reproduces_decl (I := fun t => Built S t ∧ ∀ b ∈ d :: busy, t.find b = none)
              (l := lookupWith S n (d :: busy)) (l' := lookupIn S) (by
                intro id t r t' hi hl
                obtain ⟨ref, h1, h2, h3⟩ := lookupWith_ok hl
                obtain ⟨k1, k2, _, k3⟩ := ih (d :: busy) ref.decl t t' () hi.1 hi.2 h2
                exact ⟨⟨k1, k3⟩, k2, fun u hu s => lookupIn_intro s h1 (operand_mono hu h3)⟩) decl
            obtain ⟨⟨i1, i2⟩, l1, s1⟩ := hrep t v w ⟨hb, hbusy'⟩ he
            have hwd := i2 d List.mem_cons_self
            refine ⟨.cons i1 hwd hd (s1 w (Table.Le.refl _)), l1.trans (le_cons hwd), ⟨v, by rw [find_cons, if_pos rfl]⟩, ?_⟩
            intro b hb'
            rw [find_cons, if_neg (by rintro rfl; exact hm hb')]
            exact i2 b (List.mem_cons_of_mem _ hb')

theorem evaluateAll_built (S : Schema) : ∀ (order : List Nat) (t t' : Table), Built S t → evaluateAll S order t = .ok t' →
    Built S t' ∧ t.Le t' ∧ ∀ d ∈ order, ∃ v, t'.find d = some v := by
  intro order
  induction order with
  | nil =>
    intro t t' hb h
    simp only [evaluateAll, Except.ok.injEq] at h
    subst h
    exact ⟨hb, Table.Le.refl _, by simp⟩
  | cons d ds ih =>
    intro t t' hb h
    simp only [evaluateAll] at h
    cases he : evaluateDecl S (S.decls.length + 1) [] d t with
    | error e => rw [he] at h; cases h
    | ok p =>
      obtain ⟨u, w⟩ := p
      rw [he] at h
      obtain ⟨b1, l1, ⟨v, f1⟩, _⟩ := evaluateDecl_built S _ _ _ _ _ _ hb (by simp) he
      obtain ⟨b2, l2, f2⟩ := ih w t' b1 h
      refine ⟨b2, l1.trans l2, ?_⟩
      intro d' hd'
      rcases List.mem_cons.mp hd' with rfl | hd'
      · exact ⟨v, l2 _ _ f1⟩
      · exact f2 d' hd'

/-! ### Evaluation succeeds again in another order -/

theorem built_lt {S : Schema} {t : Table} (h : Built S t) : ∀ p ∈ t, p.1 < S.decls.length := by
  induction h with
  | nil => simp
  | cons _ _ hd _ ih =>
    intro p hp
    rcases List.mem_cons.mp hp with rfl | hp
    · exact (List.getElem?_eq_some_iff.mp hd).1
    · exact ih p hp

theorem find_none_iff (t : Table) (d : Nat) : t.find d = none ↔ d ∉ t.map (·.1) := by
  induction t with
  | nil => simp [Table.find]
  | cons p t ih =>
    obtain ⟨k, v⟩ := p
    rw [find_cons]
    split
    · next h => subst h; simp
    · next h => rw [ih]; simp [h]

theorem built_nodup {S : Schema} {t : Table} (h : Built S t) : (t.map (·.1)).Nodup := by
  induction h with
  | nil => simp
  | cons _ hf _ _ ih => exact List.nodup_cons.mpr ⟨(find_none_iff _ _).mp hf, ih⟩

theorem nodup_length_le {l : List Nat} (h : l.Nodup) (n : Nat) (hl : ∀ x ∈ l, x < n) : l.length ≤ n := by
  have : l ⊆ List.range n := fun x hx => List.mem_range.mpr (hl x hx)
  have := (List.subperm_of_subset h this).length_le
  simpa using this

theorem built_length {S : Schema} {t : Table} (h : Built S t) : t.length ≤ S.decls.length := by
  have := nodup_length_le (built_nodup h) S.decls.length (by
    intro x hx
    obtain ⟨p, hp, rfl⟩ := List.mem_map.mp hx
    exact built_lt h p hp)
  simpa using this

/-- the entries of `T` at and below an entry -/
theorem built_split {S : Schema} {T : Table} (h : Built S T) {d : Nat} {v : Evaluated} (hf : T.find d = some v) :
    ∃ t decl, Built S t ∧ t.Le T ∧ t.length < T.length ∧ t.find d = none ∧ S.decls[d]? = some decl ∧
      (∀ s, Decl.evaluate (lookupIn S t) decl s = .ok (v, s)) ∧ (∀ b, t.find b ≠ none → b ≠ d) ∧ t <:+ T := by
  induction h with
  | nil => simp [Table.find] at hf
  | @cons t d' decl v' hb hn hd he ih =>
    rw [find_cons] at hf
    by_cases hdd : d = d'
    · subst hdd
      rw [if_pos rfl, Option.some.injEq] at hf
      subst hf
      exact ⟨t, decl, hb, le_cons hn, by simp, hn, hd, he, fun b hb' h => hb' (h ▸ hn), List.suffix_cons _ _⟩
    · rw [if_neg hdd] at hf
      obtain ⟨u, decl', h1, h2, h3, h4, h5, h6, h7, h8⟩ := ih hf
      exact ⟨u, decl', h1, h2.trans (le_cons hn), by simp; omega, h4, h5, h6, h7, h8.trans (List.suffix_cons _ _)⟩

/-- declarations in evaluation get no entry -/
theorem evaluateDecl_keeps (S : Schema) : ∀ (n : Nat) (busy : List Nat) (d : Nat) (t t' : Table) (u : Unit),
    evaluateDecl S n busy d t = .ok (u, t') → ∀ b ∈ busy, t.find b = none → t'.find b = none := by
  intro n
  induction n with
  | zero => intro busy d t t' u h; cases h
  | succ n ih =>
    intro busy d t t' u h b hb htb
    rw [evaluateDecl_succ] at h
    by_cases hf : (t.find d).isSome
    · rw [if_pos hf] at h
      simp only [Except.ok.injEq, Prod.mk.injEq] at h
      obtain ⟨_, rfl⟩ := h
      exact htb
    · rw [if_neg hf] at h
      by_cases hm : d ∈ busy
      · rw [if_pos hm] at h; cases h
      · rw [if_neg hm] at h
        cases hd : S.decls[d]? with
        | none => rw [hd] at h; cases h
        | some decl =>
          rw [hd] at h
          simp only at h
          cases he : Decl.evaluate (lookupWith S n (d :: busy)) decl t with
          | error e => rw [he] at h; cases h
          | ok p =>
            obtain ⟨v, w⟩ := p
            rw [he] at h
            simp only [Except.ok.injEq, Prod.mk.injEq] at h
            obtain ⟨_, rfl⟩ := h
            have hsim := simulates_decl (R := fun s w => s = w ∧ s.find b = none)
              (l := lookupWith S n (d :: busy)) (l' := lookupWith S n (d :: busy)) (by
                rintro id s _ r s' ⟨rfl, h1⟩ hl
                obtain ⟨ref, _, h2, _⟩ := lookupWith_ok hl
                exact ⟨s', hl, rfl, ih _ _ _ _ _ h2 b (List.mem_cons_of_mem _ hb) h1⟩) decl
            obtain ⟨_, _, rfl, h2⟩ := hsim t t v w ⟨rfl, htb⟩ he
            rw [find_cons, if_neg (by rintro rfl; exact hm hb)]
            exact h2

/-- an operand found in a part of a table is that of the table -/
theorem operand_agree {S : Schema} {t T : Table} (h : t.Le T) {ref : Ref} {r : Result} {v : Evaluated} (ho : operand S T ref = .ok r)
    (hf : t.find ref.decl = some v) : operand S t ref = .ok r := by
  have hT := h _ _ hf
  cases ref with
  | const d => simp only [operand, Ref.decl] at *; rw [hT] at ho; rw [hf]; exact ho
  | item d i => simp only [operand, Ref.decl] at *; rw [hT] at ho; rw [hf]; exact ho

/-- completeness of one step: what is in the table of one successful evaluation is computed again from any part of the table -/
theorem evaluateDecl_complete (S : Schema) : ∀ (n : Nat) (T : Table), Built S T → T.length ≤ n →
    ∀ (T' : Table), T.Le T' → ∀ (busy : List Nat) (d : Nat) (v : Evaluated) (t : Table), T.find d = some v → t.Le T' →
    (∀ b ∈ busy, T.find b = none) →
    ∃ t', evaluateDecl S n busy d t = .ok ((), t') ∧ t.Le t' ∧ t'.Le T' ∧ t'.find d = some v := by
  intro n
  induction n with
  | zero =>
    intro T _ hl T' _ busy d v t hf
    have : T = [] := List.length_eq_zero_iff.mp (by omega)
    subst this
    simp [Table.find] at hf
  | succ n ih =>
    intro T hT hl T' hle busy d v t hf ht hbusy
    obtain ⟨u, decl, hu, hule, hlt, hun, hd, he, _, _⟩ := built_split hT hf
    rw [evaluateDecl_succ]
    cases htd : t.find d with
    | some w =>
      have := ht d w htd
      rw [hle d v hf] at this
      cases this
      exact ⟨t, by simp, Table.Le.refl _, ht, htd⟩
    | none =>
      have hm : d ∉ busy := fun h => by rw [hbusy d h] at hf; cases hf
      simp only [Option.isSome_none, Bool.false_eq_true, if_false, if_neg hm, hd]
      have hbusy' : ∀ b ∈ d :: busy, u.find b = none := by
        intro b hb
        rcases List.mem_cons.mp hb with rfl | hb
        · exact hun
        · cases hub : u.find b with
          | none => rfl
          | some w => have := hule b w hub; rw [hbusy b hb] at this; cases this
      have hsim := simulates_decl (R := fun s w => t.Le w ∧ w.Le T' ∧ w.find d = none) (l := lookupIn S u)
        (l' := lookupWith S n (d :: busy)) (by
          rintro id s w r s' ⟨h1, h2, h3⟩ hx
          · obtain ⟨rfl, ref, h4, h5⟩ := lookupIn_ok hx
            obtain ⟨x, h6⟩ := operand_found h5
            obtain ⟨w', h7, h8, h9, h10⟩ := ih u hu (by omega) T' (hule.trans hle) (d :: busy) ref.decl x w h6 h2 hbusy'
            have hw'd : w'.find d = none := by
              by_contra hne
              have hb := evaluateDecl_keeps S n (d :: busy) ref.decl w w' () h7 d List.mem_cons_self h3
              exact hne hb
            refine ⟨w', lookupWith_intro h4 h7 ?_, h1.trans h8, h9, hw'd⟩
            exact operand_agree (h9) (operand_mono (hule.trans hle) h5) h10) decl
      obtain ⟨w, h1, h2⟩ := hsim [] t v [] ⟨Table.Le.refl _, ht, htd⟩ (he [])
      · refine ⟨(d, v) :: w, by rw [h1], h2.1.trans (le_cons h2.2.2), ?_, by rw [find_cons, if_pos rfl]⟩
        intro d' v' h'
        rw [find_cons] at h'
        split at h'
        · next heq => subst heq; cases h'; exact hle _ _ hf
        · exact h2.2.1 d' v' h'

end Zserio.ConstEval
