import Verif.Lemmas.ConstEval
/-
The values computed by the compiler are those of the schema language.
-/
set_option linter.unusedSimpArgs false
set_option linter.unusedVariables false
namespace Zserio.ConstEval
open Zserio.Expression

variable {O : Type}

/-- what is known of an expression is right for its value -/
def Right (r : Result) (x : Option (Value O)) : Prop :=
  (∀ v, r.value = some v →
    match r.type with
    | .int => x = some (.int v)
    | .enum c => x = some (.enum c v)
    | .bitmask c => x = some (.bitmask c v)
    | _ => True) ∧
  ∀ s, r.text = some s → r.type = .str → x = some (.str s)

theorem right_unknown (t : Ty) (x : Option (Value O)) : Right { type := t } x := ⟨by simp, by simp⟩

theorem right_int {v : Option Int} {x : Option (Value O)} (h : ∀ w, v = some w → x = some (.int w)) :
    Right { type := .int, value := v } x :=
  ⟨h, by simp⟩

theorem Right.int {r : Result} {x : Option (Value O)} (h : Right r x) (ht : r.type = .int) {v : Int} (hv : r.value = some v) :
    x = some (.int v) := by
  have := h.1 v hv; rw [ht] at this; exact this

theorem Right.bitmask {r : Result} {x : Option (Value O)} (h : Right r x) {c : Nat} (ht : r.type = .bitmask c) {v : Int}
    (hv : r.value = some v) : x = some (.bitmask c v) := by
  have := h.1 v hv; rw [ht] at this; exact this

theorem Right.enum {r : Result} {x : Option (Value O)} (h : Right r x) {c : Nat} (ht : r.type = .enum c) {v : Int}
    (hv : r.value = some v) : x = some (.enum c v) := by
  have := h.1 v hv; rw [ht] at this; exact this

theorem unary_right {W : World O} {op : UnOp} {r r' : Result} {v : Option (Value O)} (hu : unary op r = .ok r') (hr : Right r v)
    (hreg : op = .tilde → ∀ c y, v ≠ some (.bitmask c y)) : Right r' (v.bind (op.apply W)) := by
  cases op with
  | plus =>
    simp only [unary] at hu
    split at hu
    · next ht =>
      cases hu
      refine right_int fun w hw => ?_
      have := hr.int ht hw; subst this
      rfl
    · split at hu
      · cases hu; exact right_unknown _ _
      · cases hu
  | minus =>
    simp only [unary] at hu
    split at hu
    · next ht =>
      cases hu
      refine right_int fun w hw => ?_
      obtain ⟨y, hy, rfl⟩ := Option.map_eq_some_iff.mp hw
      have := hr.int ht hy; subst this
      rfl
    · split at hu
      · cases hu; exact right_unknown _ _
      · cases hu
  | bang =>
    simp only [unary] at hu
    split at hu
    · cases hu; exact right_unknown _ _
    · cases hu
  | tilde =>
    simp only [unary] at hu
    cases ht : r.type <;> rw [ht] at hu <;> simp only [reduceCtorEq, Except.ok.injEq] at hu
    · subst hu
      refine right_int fun w hw => ?_
      obtain ⟨y, hy, rfl⟩ := Option.map_eq_some_iff.mp hw
      have := hr.int ht hy; subst this
      rfl
    · next c =>
      subst hu
      refine ⟨fun w hw => ?_, by simp⟩
      obtain ⟨y, hy, rfl⟩ := Option.map_eq_some_iff.mp hw
      exact absurd (hr.bitmask ht hy) (hreg rfl c y)

theorem intValue_small {y : Int} (h0 : 0 ≤ y) (h1 : y < 2 ^ 31) : intValue y = y := by
  unfold intValue
  rw [Int.bmod_def]
  have : y % ((2 ^ 32 : Nat) : Int) = y := Int.emod_eq_of_lt h0 (by omega)
  rw [this]
  split
  · rfl
  · omega

theorem arith_some {op : BinOp} {a b : Option Int} {w : Int} (h : arith op a b = .ok (some w)) :
    ∃ x y, a = some x ∧ b = some y := by
  cases a with
  | none => simp [arith] at h
  | some x =>
    cases b with
    | none => simp [arith] at h
    | some y => exact ⟨x, y, rfl, rfl⟩

theorem arith_right {op : BinOp} {x y w : Int} (h : arith op (some x) (some y) = .ok (some w))
    (hs : op = .shl ∨ op = .shr → 0 ≤ y ∧ y < 2 ^ 31) : op.arithInt .java x y = some w := by
  cases op <;> simp only [arith, BinOp.arithInt, Except.ok.injEq, Option.some.injEq, reduceCtorEq] at h ⊢
  · exact h
  · split at h
    · cases h
    · next hne => rw [if_neg hne]; simp only [Except.ok.injEq, Option.some.injEq] at h ⊢; rw [← h]; rfl
  · split at h
    · cases h
    · next hne => rw [if_neg hne]; simp only [Except.ok.injEq, Option.some.injEq] at h ⊢; rw [← h]; rfl
  · exact h
  · exact h
  · obtain ⟨h0, h1⟩ := hs (.inl rfl)
    have hn : ¬ y < 0 := by omega
    rw [intValue_small h0 h1, shiftLeft, if_neg hn] at h
    rw [if_neg hn, h]
  · obtain ⟨h0, h1⟩ := hs (.inr rfl)
    have hn : ¬ y < 0 := by omega
    rw [intValue_small h0 h1, shiftRight, if_neg hn] at h
    rw [if_neg hn, h]
  · exact h
  · exact h
  · exact h

theorem arith_compare {op : BinOp} {x y w : Int} (h : arith op (some x) (some y) = .ok (some w)) : op.compareInt x y = none := by
  cases op <;> simp [arith, BinOp.compareInt] at h ⊢

theorem bind_ok_inv {α β : Type} {x : Except CompileError α} {f : α → Except CompileError β} {b : β} (h : (x >>= f) = .ok b) :
    ∃ a, x = .ok a ∧ f a = .ok b := by
  cases x with
  | error e => cases h
  | ok a => exact ⟨a, rfl, h⟩

/-- a binary operator applied to values which may be missing -/
def both (W : World O) (op : BinOp) (x y : Option (Value O)) : Option (Value O) :=
  match x, y with
  | some x, some y => op.apply W .java x y
  | _, _ => none

/-- arithmetic of integers -/
theorem arithInt_right {W : World O} {op : BinOp} {a b : Result} {v : Option Int} {x y : Option (Value O)}
    (h : arith op a.value b.value = .ok v) (ha : Right a x) (hb : Right b y) (hat : a.type = .int) (hbt : b.type = .int)
    (hs : op = .shl ∨ op = .shr → ∀ n, y = some (.int n) → 0 ≤ n ∧ n < 2 ^ 31) :
    Right { type := .int, value := v } (both W op x y) := by
  refine right_int fun w hw => ?_
  subst hw
  obtain ⟨p, q, hp, hq⟩ := arith_some h
  have h1 := ha.int hat hp
  have h2 := hb.int hbt hq
  subst h1; subst h2
  rw [hp, hq] at h
  simp only [both, BinOp.apply, arith_compare h, arith_right h (fun ho => hs ho q rfl), Option.map_some]

theorem binary_right {W : World O} {op : BinOp} {a b r : Result} {x y : Option (Value O)} (h : binary op a b = .ok r) (ha : Right a x)
    (hb : Right b y) (hs : op = .shl ∨ op = .shr → ∀ n, y = some (.int n) → 0 ≤ n ∧ n < 2 ^ 31)
    (hm : ∀ c p c' q, x = some (.bitmask c p) → y = some (.bitmask c' q) → c = c' ∧ W.inMask c p ∧ W.inMask c q) :
    Right r (both W op x y) := by
  have harith : arithmetic op a b = .ok r → Right r (both W op x y) := by
    intro h
    unfold arithmetic at h
    split at h
    · next hc =>
      obtain ⟨ho, hat, hbt⟩ := hc
      split at h
      · next s t hs' ht' =>
        cases h
        refine ⟨by simp, ?_⟩
        intro u hu _
        have h1 := ha.2 s hs' hat
        have h2 := hb.2 t ht' hbt
        subst h1; subst h2; subst ho
        simp only [Option.some.injEq] at hu
        simp only [both, BinOp.apply, if_true, hu]
      · cases h
    · split at h
      · cases h
      · next hnum =>
        split at h
        · cases h; exact right_unknown _ _
        · next hfl =>
          obtain ⟨v, h1, h2⟩ := bind_ok_inv h
          cases h2
          simp only [Bool.or_eq_true, Bool.not_eq_true', not_or, Bool.not_eq_false] at hnum
          simp only [not_or] at hfl
          have hat : a.type = .int := by
            have := hnum.1
            cases hta : a.type <;> simp_all [Ty.numeric]
          have hbt : b.type = .int := by
            have := hnum.2
            cases htb : b.type <;> simp_all [Ty.numeric]
          exact arithInt_right h1 ha hb hat hbt hs
  have hbit : bitExpression op a b = .ok r → (op = .band ∨ op = .bor ∨ op = .bxor ∨ op = .shl ∨ op = .shr) →
      Right r (both W op x y) := by
    intro h hop
    unfold bitExpression at h
    cases hat : a.type <;> cases hbt : b.type <;> rw [hat, hbt] at h <;> simp only [reduceCtorEq] at h
    · obtain ⟨v, h1, h2⟩ := bind_ok_inv h
      cases h2
      exact arithInt_right h1 ha hb hat hbt hs
    · next c c' =>
      split at h
      · cases h
      · next hsh =>
        obtain ⟨v, h1, h2⟩ := bind_ok_inv h
        cases h2
        refine ⟨fun w hw => ?_, by simp⟩
        simp only at hw
        subst hw
        obtain ⟨p, q, hp, hq⟩ := arith_some h1
        have h2 := ha.bitmask hat hp
        have h3 := hb.bitmask hbt hq
        subst h2; subst h3
        rw [hp, hq] at h1
        simp only [not_or] at hsh
        have hc := hm c p c' q rfl rfl
        simp only [both, BinOp.apply]
        rw [if_pos hc]
        rcases hop with rfl | rfl | rfl | rfl | rfl
        · simp only [arith, Except.ok.injEq, Option.some.injEq] at h1 ⊢; rw [← h1]
        · simp only [arith, Except.ok.injEq, Option.some.injEq] at h1 ⊢; rw [← h1]
        · simp only [arith, Except.ok.injEq, Option.some.injEq] at h1 ⊢; rw [← h1]
        · exact absurd rfl hsh.1
        · exact absurd rfl hsh.2
  have hrel : relational op a b = .ok r → Right r (both W op x y) := by
    intro h
    unfold relational at h
    repeat' split at h
    all_goals first
      | cases h; exact right_unknown _ _
      | cases h
  have hlog : (if a.type = Ty.bool ∧ b.type = Ty.bool then Except.ok { type := Ty.bool } else Except.error CompileError.type) = Except.ok r →
      Right r (both W op x y) := by
    intro h
    split at h
    · cases h; exact right_unknown _ _
    · cases h
  cases op <;> simp only [binary] at h
  all_goals first
    | exact harith h
    | exact hbit h (by simp)
    | exact hrel h
    | exact hlog h

theorem numBits_size {x : Nat} (h : 2 ≤ x) : numBits x = Nat.size (x - 1) := by
  unfold numBits
  rw [if_neg (by omega)]
  apply le_antisymm
  · rw [Nat.clog_le_iff_le_pow (by omega)]
    have := Nat.lt_size_self (x - 1)
    omega
  · rw [Nat.size_le]
    have := Nat.le_pow_clog (b := 2) (by omega) x
    omega

theorem getNumBits_right {x : Int} (h : 0 < x) : getNumBits x = (numBits x.toNat : Int) := by
  unfold getNumBits
  split
  · have : x = 1 := by omega
    subst this
    rfl
  · rw [numBits_size (by omega)]
    congr 2
    omega

theorem strip_quoted (s : PyStr) : stripStringLiteral (ch! '"' :: s ++ [ch! '"']) = s := by
  unfold stripStringLiteral
  simp

/-- the evaluation of expressions -/
theorem evaluateExpr_right {W : World O} {l : Nat → K Result}
    (hl : ∀ id t r t', l id t = .ok (r, t') → Right r (W.symbol id)) :
    ∀ (e : Expression.Expr) (t : Table) (r : Result) (t' : Table), evaluateExpr l e t = .ok (r, t') → Regular W e →
      Right r (e.eval W .java) := by
  intro e
  induction e with
  | intLit b digits =>
    intro t r t' h _
    simp only [evaluateExpr] at h
    obtain ⟨h1, _⟩ := liftK_ok h
    cases h1
    refine right_int fun w hw => ?_
    simp only [Expr.eval, Option.some.injEq] at hw ⊢
    rw [← hw]
  | floatLit text => intro t r t' h _; obtain ⟨h1, _⟩ := liftK_ok h; cases h1; exact right_unknown _ _
  | strLit text =>
    intro t r t' h hreg
    obtain ⟨h1, _⟩ := liftK_ok h
    cases h1
    refine ⟨by simp, ?_⟩
    intro s hs _
    obtain ⟨w, rfl, hw⟩ := hreg
    simp only [Option.some.injEq] at hs
    simp only [Expr.eval, hw, ← hs, strip_quoted]
  | boolLit b => intro t r t' h _; obtain ⟨h1, _⟩ := liftK_ok h; cases h1; exact right_unknown _ _
  | index => intro t r t' h _; obtain ⟨h1, _⟩ := liftK_ok h; cases h1; exact right_unknown _ _
  | symbol id =>
    intro t r t' h _
    simp only [evaluateExpr] at h
    simp only [Expr.eval]
    exact hl id t r t' h
  | paren e ih =>
    intro t r t' h hreg
    simp only [evaluateExpr, Regular, Expr.eval] at h hreg ⊢
    exact ih t r t' h hreg
  | call e ih =>
    intro t r t' h; simp only [evaluateExpr] at h
    obtain ⟨_, _, _, h2⟩ := kbind_ok h
    cases (liftK_ok h2).1
  | element a b iha ihb =>
    intro t r t' h; simp only [evaluateExpr] at h
    obtain ⟨_, _, _, h2⟩ := kbind_ok h
    obtain ⟨_, _, _, h2⟩ := kbind_ok h2
    cases (liftK_ok h2).1
  | member e id ih =>
    intro t r t' h; simp only [evaluateExpr] at h
    obtain ⟨_, _, _, h2⟩ := kbind_ok h
    cases (liftK_ok h2).1
  | isset a b iha ihb =>
    intro t r t' h; simp only [evaluateExpr] at h
    obtain ⟨_, _, _, h2⟩ := kbind_ok h
    obtain ⟨_, _, _, h2⟩ := kbind_ok h2
    obtain ⟨h3, _⟩ := liftK_ok h2
    intro _
    unfold isSetOf at h3
    split at h3
    · split at h3
      · cases h3; exact right_unknown _ _
      · cases h3
    · cases h3
  | lengthof e ih =>
    intro t r t' h hreg
    simp only [evaluateExpr] at h
    obtain ⟨a, u, h1, h2⟩ := kbind_ok h
    obtain ⟨h3, _⟩ := liftK_ok h2
    simp only [Regular] at hreg
    unfold lengthOf at h3
    split at h3
    · next hty =>
      split at h3
      · next s hs =>
        have hy := (ih t a u h1 hreg).2 s hs hty
        cases henc : utf8Encode s with
        | error err => rw [henc] at h3; cases h3
        | ok bs =>
          rw [henc] at h3
          cases h3
          refine right_int fun w hw => ?_
          simp only [Option.some.injEq] at hw
          simp only [Expr.eval, hy, henc, hw]
      · cases h3; exact right_unknown _ _
    · cases h3; exact right_unknown _ _
    · cases h3
  | valueof e ih =>
    intro t r t' h hreg
    simp only [evaluateExpr] at h
    obtain ⟨a, u, h1, h2⟩ := kbind_ok h
    obtain ⟨h3, _⟩ := liftK_ok h2
    simp only [Regular] at hreg
    have hy := ih t a u h1 hreg
    unfold valueOf at h3
    split at h3
    · next c hty =>
      cases h3
      refine right_int fun w hw => ?_
      simp only [Expr.eval, hy.enum hty hw]
    · next c hty =>
      cases h3
      refine right_int fun w hw => ?_
      simp only [Expr.eval, hy.bitmask hty hw]
    · cases h3
  | numbits e ih =>
    intro t r t' h hreg
    simp only [evaluateExpr] at h
    obtain ⟨a, u, h1, h2⟩ := kbind_ok h
    obtain ⟨h3, _⟩ := liftK_ok h2
    simp only [Regular] at hreg
    have hy := ih t a u h1 hreg.1
    unfold numBitsOf at h3
    split at h3
    · next hty =>
      cases h3
      refine right_int fun w hw => ?_
      obtain ⟨z, hz, rfl⟩ := Option.map_eq_some_iff.mp hw
      have hz' := hy.int hty hz
      have h0 := hreg.2 z hz'
      simp only [Expr.eval, hz']
      rw [if_neg (by omega), getNumBits_right h0]
    · cases h3
  | unary op e ih =>
    intro t r t' h hreg
    simp only [evaluateExpr] at h
    obtain ⟨a, u, h1, h2⟩ := kbind_ok h
    obtain ⟨h3, _⟩ := liftK_ok h2
    simp only [Regular] at hreg
    have hy := ih t a u h1 hreg.1
    have := unary_right (W := W) h3 hy hreg.2
    cases he : e.eval W .java with
    | none => rw [he] at this; simpa only [Expr.eval, he, Option.bind_none] using this
    | some y => rw [he] at this; simpa only [Expr.eval, he, Option.bind_some] using this
  | binary op a b iha ihb =>
    intro t r t' h hreg
    simp only [evaluateExpr] at h
    obtain ⟨ra, u, h1, h2⟩ := kbind_ok h
    obtain ⟨rb, u', h3, h4⟩ := kbind_ok h2
    obtain ⟨h5, _⟩ := liftK_ok h4
    simp only [Regular] at hreg
    obtain ⟨hra, hrb, hsh, hm⟩ := hreg
    have key := binary_right (W := W) h5 (iha t ra u h1 hra) (ihb u rb u' h3 hrb) hsh hm
    have hland : ∀ z : Option (Value O), (op = .land ∨ op = .lor) → Right r z := by
      intro z hop
      rcases hop with rfl | rfl
      · simp only [binary] at h5
        split at h5
        · cases h5; exact right_unknown _ _
        · cases h5
      · simp only [binary] at h5
        split at h5
        · cases h5; exact right_unknown _ _
        · cases h5
    cases op
    all_goals first
      | exact hland _ (.inl rfl)
      | exact hland _ (.inr rfl)
      | (simp only [Expr.eval]
         cases hea : a.eval W .java with
         | none => rw [hea] at key; exact key
         | some x =>
           cases heb : b.eval W .java with
           | none => rw [hea, heb] at key; exact key
           | some y => rw [hea, heb] at key; exact key)
  | cond c a b ihc iha ihb =>
    intro t r t' h hreg
    simp only [evaluateExpr] at h
    obtain ⟨_, _, _, h⟩ := kbind_ok h
    obtain ⟨_, _, _, h⟩ := kbind_ok h
    obtain ⟨_, _, _, h⟩ := kbind_ok h
    obtain ⟨h5, _⟩ := liftK_ok h
    unfold conditional at h5
    repeat' split at h5
    all_goals first
      | cases h5; exact right_unknown _ _
      | cases h5

/-! ### Items -/

theorem visitItems_ok {l : Nat → K Result} {m : Bool} : ∀ (items : List ItemDecl) (t t' : Table) (vs : List (Option Int)),
    visitItems l m items t = .ok (vs, t') → vs.length = items.length ∧ ∀ (i : Nat) it, items[i]? = some it →
      (it.expr = none → vs[i]? = some none) ∧
      ∀ e, it.expr = some e → ∃ t1 t2 r v, evaluateExpr l e t1 = .ok (r, t2) ∧ explicitValue m r = .ok v ∧ vs[i]? = some (some v) := by
  intro items
  induction items with
  | nil =>
    intro t t' vs h
    obtain ⟨h1, _⟩ := liftK_ok h
    cases h1
    exact ⟨rfl, by simp⟩
  | cons it items ih =>
    intro t t' vs h
    simp only [visitItems] at h
    obtain ⟨w, u, h1, h2⟩ := kbind_ok h
    obtain ⟨ws, u', h3, h4⟩ := kbind_ok h2
    obtain ⟨h5, _⟩ := liftK_ok h4
    cases h5
    obtain ⟨k1, k2⟩ := ih u u' ws h3
    refine ⟨by simp [k1], ?_⟩
    intro i it' hi
    cases i with
    | succ i =>
      simp only [List.getElem?_cons_succ] at hi ⊢
      exact k2 i it' hi
    | zero =>
      simp only [List.getElem?_cons_zero, Option.some.injEq] at hi ⊢
      subst hi
      unfold visitItem at h1
      constructor
      · intro hn
        rw [hn] at h1
        obtain ⟨h6, _⟩ := liftK_ok h1
        cases h6
        rfl
      · intro e he
        rw [he] at h1
        obtain ⟨r, t2, h6, h7⟩ := kbind_ok h1
        obtain ⟨v, t3, h8, h9⟩ := kbind_ok h7
        obtain ⟨h10, _⟩ := liftK_ok h8
        obtain ⟨h11, _⟩ := liftK_ok h9
        cases h11
        exact ⟨_, _, r, v, h6, h10, rfl⟩

theorem enumValues_length : ∀ (vs : List (Option Int)) (k : Int), (enumValues k vs).length = vs.length := by
  intro vs
  induction vs with
  | nil => intro k; rfl
  | cons v vs ih => intro k; simp only [enumValues, List.length_cons, ih]

theorem bitmaskValues_length : ∀ (vs : List (Option Int)) (k : Int), (bitmaskValues k vs).length = vs.length := by
  intro vs
  induction vs with
  | nil => intro k; rfl
  | cons v vs ih => intro k; simp only [bitmaskValues, List.length_cons, ih]

theorem enumValues_explicit : ∀ (vs : List (Option Int)) (k : Int) (i : Nat) (v : Int), vs[i]? = some (some v) →
    (enumValues k vs)[i]? = some v := by
  intro vs
  induction vs with
  | nil => intro k i v h; simp at h
  | cons w vs ih =>
    intro k i v h
    cases i with
    | zero =>
      simp only [List.getElem?_cons_zero, Option.some.injEq] at h
      subst h; rfl
    | succ i => simp only [enumValues, List.getElem?_cons_succ] at h ⊢; exact ih _ i v h

theorem enumValues_first (vs : List (Option Int)) (k : Int) (h : vs[0]? = some none) : (enumValues k vs)[0]? = some k := by
  cases vs with
  | nil => simp at h
  | cons w vs => simp only [List.getElem?_cons_zero, Option.some.injEq] at h; subst h; rfl

theorem enumValues_next : ∀ (vs : List (Option Int)) (k : Int) (i : Nat), vs[i + 1]? = some none →
    (enumValues k vs)[i + 1]? = (enumValues k vs)[i]?.map (· + 1) := by
  intro vs
  induction vs with
  | nil => intro k i h; simp at h
  | cons w vs ih =>
    intro k i h
    simp only [List.getElem?_cons_succ] at h
    cases i with
    | zero => simp only [enumValues, List.getElem?_cons_succ, List.getElem?_cons_zero, Option.map_some]; exact enumValues_first vs _ h
    | succ i => simp only [enumValues, List.getElem?_cons_succ]; exact ih _ i h

theorem bitmaskValues_explicit : ∀ (vs : List (Option Int)) (k : Int) (i : Nat) (v : Int), vs[i]? = some (some v) →
    (bitmaskValues k vs)[i]? = some v := by
  intro vs
  induction vs with
  | nil => intro k i v h; simp at h
  | cons w vs ih =>
    intro k i v h
    cases i with
    | zero =>
      simp only [List.getElem?_cons_zero, Option.some.injEq] at h
      subst h; rfl
    | succ i => simp only [bitmaskValues, List.getElem?_cons_succ] at h ⊢; exact ih _ i v h

theorem bitmaskValues_first (vs : List (Option Int)) (k : Int) (h : vs[0]? = some none) : (bitmaskValues k vs)[0]? = some k := by
  cases vs with
  | nil => simp at h
  | cons w vs => simp only [List.getElem?_cons_zero, Option.some.injEq] at h; subst h; rfl

theorem bitmaskValues_next : ∀ (vs : List (Option Int)) (k : Int) (i : Nat), vs[i + 1]? = some none →
    (bitmaskValues k vs)[i + 1]? = (bitmaskValues k vs)[i]?.map getNextValue := by
  intro vs
  induction vs with
  | nil => intro k i h; simp at h
  | cons w vs ih =>
    intro k i h
    simp only [List.getElem?_cons_succ] at h
    cases i with
    | zero => simp only [bitmaskValues, List.getElem?_cons_succ, List.getElem?_cons_zero, Option.map_some]; exact bitmaskValues_first vs _ h
    | succ i => simp only [bitmaskValues, List.getElem?_cons_succ]; exact ih _ i h

theorem shifts_size : ∀ (x : Nat), 0 < x → shifts x + 1 = Nat.size x := by
  intro x
  induction x using Nat.strong_induction_on with
  | _ x ih =>
    intro h
    rw [shifts]
    split
    · next h0 =>
      have : x = 1 := by omega
      subst this; rfl
    · next h0 =>
      rw [ih (x / 2) (by omega) (by omega)]
      apply le_antisymm
      · rw [Nat.succ_le_iff, Nat.lt_size]
        have h1 : 2 ^ (Nat.size (x / 2) - 1) ≤ x / 2 := Nat.lt_size.mp (by
          have : 0 < Nat.size (x / 2) := Nat.size_pos.mpr (by omega)
          omega)
        have : 0 < Nat.size (x / 2) := Nat.size_pos.mpr (by omega)
        obtain ⟨n, hn⟩ : ∃ n, Nat.size (x / 2) = n + 1 := ⟨_, (Nat.succ_pred_eq_of_pos this).symm⟩
        rw [hn] at h1 ⊢
        simp only [Nat.add_sub_cancel] at h1
        rw [Nat.pow_succ]
        omega
      · rw [Nat.size_le, Nat.pow_succ]
        have := Nat.lt_size_self (x / 2)
        omega

theorem getNextValue_right {x : Int} (h : 0 < x) : getNextValue x = nextBit x := by
  unfold getNextValue nextBit
  rw [shifts_size _ (by omega)]

/-! ### The values of a table -/

/-- the entry says what the declaration means -/
def EntryRight (m : Meaning O) (d : Nat) : Decl → Evaluated → Prop
  | .const type _ _, .const r => Right { type := type, value := r.value, text := r.text } (m.const d)
  | _, .items vs => ∀ (i : Nat) v, vs[i]? = some v → m.item d i = some v
  | _, _ => False

/-- the types of constants agree with their expressions -/
def TypesChecked (S : Schema) (t : Table) : Prop :=
  ∀ (d : Nat) type kind e r, S.decls[d]? = some (.const type kind e) → t.find d = some (.const r) → checkType type r = true

theorem explicitValue_ok {b : Bool} {r : Result} {v : Int} (h : explicitValue b r = .ok v) :
    r.type = .int ∧ r.value = some v ∧ (b = true → 0 ≤ v) := by
  unfold explicitValue at h
  split at h
  · cases h
  · next ht =>
    split at h
    · cases h
    · next w hw =>
      split at h
      · cases h
      · next hn =>
        cases h
        refine ⟨by simpa using ht, hw, ?_⟩
        intro hb
        simp only [hb, true_and] at hn
        omega

theorem bitmaskValues_nonneg : ∀ (vs : List (Option Int)) (k : Int), 0 ≤ k → (∀ (i : Nat) v, vs[i]? = some (some v) → 0 ≤ v) →
    ∀ v ∈ bitmaskValues k vs, 0 ≤ v := by
  intro vs
  induction vs with
  | nil => intro k _ _ v hv; cases hv
  | cons w vs ih =>
    intro k hk h v hv
    simp only [bitmaskValues, List.mem_cons] at hv
    rcases hv with rfl | hv
    · cases w with
      | none => exact hk
      | some w => exact h 0 w rfl
    · refine ih _ ?_ (fun i v hi => h (i + 1) v hi) v hv
      unfold getNextValue
      positivity

theorem filterMap_mem {items : List ItemDecl} {i : Nat} {it : ItemDecl} {e : Expression.Expr} (h : items[i]? = some it)
    (he : it.expr = some e) : e ∈ items.filterMap (·.expr) :=
  List.mem_filterMap.mpr ⟨it, List.mem_of_getElem? h, he⟩

theorem built_right {S : Schema} {W : World O} {m : Meaning O} (hd : m.Describes S W) (hreg : m.Regular S W) {t : Table}
    (hb : Built S t) (hc : TypesChecked S t) :
    ∀ (d : Nat) decl v, S.decls[d]? = some decl → t.find d = some v → EntryRight m d decl v := by
  induction hb with
  | nil => intro d decl v _ h; simp [Table.find] at h
  | @cons t d0 decl0 v0 hb hn hd0 he ih =>
    have hle := le_cons (v := v0) hn
    have ih := ih (fun d type kind e r h1 h2 => hc d type kind e r h1 (hle _ _ h2))
    intro d decl v hdecl hf
    rw [find_cons] at hf
    by_cases hdd : d = d0
    · subst hdd
      rw [if_pos rfl, Option.some.injEq] at hf
      subst hf
      rw [hd0, Option.some.injEq] at hdecl
      subst hdecl
      -- what names mean
      have hl : ∀ id s r s', lookupIn S t id s = .ok (r, s') → Right r ((m.world S W).symbol id) := by
        intro id s r s' hx
        obtain ⟨rfl, ref, hs, ho⟩ := lookupIn_ok hx
        show Right r (m.symbol S id)
        unfold Meaning.symbol
        rw [hs]
        cases ref with
        | const d' =>
          simp only [operand] at ho ⊢
          split at ho
          · next type kind e r' h1 h2 =>
            cases ho
            exact ih d' _ _ h1 h2
          · cases ho
        | item d' i =>
          simp only [operand] at ho ⊢
          split at ho
          · next type vs h1 h2 =>
            split at ho
            · next v hv =>
              cases ho
              cases hd' : S.decls[d']? with
              | none => rw [hd'] at h1; cases h1
              | some decl' =>
                rw [hd'] at h1
                cases decl' with
                | const => cases h1
                | enum kind items =>
                  simp only [Option.bind_some, Decl.itemType, Option.some.injEq] at h1
                  subst h1
                  have := ih d' _ _ hd' h2 i v hv
                  refine ⟨?_, by simp⟩
                  rintro _ ⟨⟩
                  simp only [this, Option.map_some]
                | bitmask kind items =>
                  simp only [Option.bind_some, Decl.itemType, Option.some.injEq] at h1
                  subst h1
                  have := ih d' _ _ hd' h2 i v hv
                  refine ⟨?_, by simp⟩
                  rintro _ ⟨⟩
                  simp only [this, Option.map_some]
            · cases ho
          · cases ho
      have hev : ∀ e s r s', e ∈ decl0.exprs → evaluateExpr (lookupIn S t) e s = .ok (r, s') →
          Right r (e.eval (m.world S W) .java) := by
        intro e s r s' hmem hx
        exact evaluateExpr_right hl e s r s' hx (hreg.exprs d decl0 e hd0 hmem)
      have hexp : ∀ (i : Nat) it e b s1 s2 r v, decl0.items[i]? = some it → it.expr = some e → e ∈ decl0.exprs →
          evaluateExpr (lookupIn S t) e s1 = .ok (r, s2) → explicitValue b r = .ok v → m.item d i = some v := by
        intro i it e b s1 s2 r v hi hie hmem hx hv
        obtain ⟨k1, k2, _⟩ := explicitValue_ok hv
        rw [hd.explicit d decl0 i it e hd0 hi hie, (hev e s1 r s2 hmem hx).int k1 k2]
        rfl
      cases decl0 with
      | const type kind e =>
        have h1 := he []
        simp only [Decl.evaluate] at h1
        obtain ⟨r, s, h2, h3⟩ := kbind_ok h1
        obtain ⟨h4, _⟩ := liftK_ok h3
        cases h4
        have hr := hev e _ _ _ (by simp [Decl.exprs]) h2
        have hck := hc d type kind e r hd0 (by rw [find_cons, if_pos rfl])
        show Right _ _
        by_cases htf : type = .float
        · subst htf
          exact ⟨by simp, by simp⟩
        · rw [hd.const d type kind e hd0 htf]
          have : type = r.type := by
            unfold checkType at hck
            split at hck
            · exact absurd rfl htf
            · simpa using hck
          subst this
          exact hr
      | enum kind items =>
        have h1 := he []
        simp only [Decl.evaluate] at h1
        obtain ⟨vs, s, h2, h3⟩ := kbind_ok h1
        obtain ⟨h4, _⟩ := liftK_ok h3
        cases h4
        obtain ⟨k1, k2⟩ := visitItems_ok items _ _ _ h2
        show ∀ (i : Nat) v, (enumValues 0 vs)[i]? = some v → m.item d i = some v
        intro i
        induction i with
        | zero =>
          intro v hv
          obtain ⟨it, hit⟩ : ∃ it, items[0]? = some it := by
            have : 0 < (enumValues 0 vs).length := (List.getElem?_eq_some_iff.mp hv).1
            rw [enumValues_length, k1] at this
            exact ⟨items[0], List.getElem?_eq_getElem this⟩
          obtain ⟨k3, k4⟩ := k2 0 it hit
          cases hie : it.expr with
          | none =>
            rw [enumValues_first _ _ (k3 hie), Option.some.injEq] at hv
            rw [hd.enumFirst d kind items it hd0 hit hie, hv]
          | some e =>
            obtain ⟨t1, t2, r, w, k5, k6, k7⟩ := k4 e hie
            rw [enumValues_explicit _ _ _ _ k7, Option.some.injEq] at hv
            subst hv
            exact hexp 0 it e _ _ _ _ _ hit hie (filterMap_mem hit hie) k5 k6
        | succ i ihi =>
          intro v hv
          have hlt : i + 1 < (enumValues 0 vs).length := (List.getElem?_eq_some_iff.mp hv).1
          obtain ⟨it, hit⟩ : ∃ it, items[i + 1]? = some it := by
            rw [enumValues_length, k1] at hlt
            exact ⟨items[i + 1], List.getElem?_eq_getElem hlt⟩
          obtain ⟨k3, k4⟩ := k2 (i + 1) it hit
          cases hie : it.expr with
          | none =>
            rw [enumValues_next _ _ _ (k3 hie)] at hv
            obtain ⟨w, hw, rfl⟩ := Option.map_eq_some_iff.mp hv
            rw [hd.enumNext d kind items i it hd0 hit hie, ihi w hw]
            rfl
          | some e =>
            obtain ⟨t1, t2, r, w, k5, k6, k7⟩ := k4 e hie
            rw [enumValues_explicit _ _ _ _ k7, Option.some.injEq] at hv
            subst hv
            exact hexp (i + 1) it e _ _ _ _ _ hit hie (filterMap_mem hit hie) k5 k6
      | bitmask kind items =>
        have h1 := he []
        simp only [Decl.evaluate] at h1
        obtain ⟨vs, s, h2, h3⟩ := kbind_ok h1
        split at h3
        · cases (liftK_ok h3).1
        · obtain ⟨h4, _⟩ := liftK_ok h3
          cases h4
          obtain ⟨k1, k2⟩ := visitItems_ok items _ _ _ h2
          have hnonneg : ∀ v ∈ bitmaskValues 1 vs, 0 ≤ v := by
            refine bitmaskValues_nonneg vs 1 (by decide) ?_
            intro i v hi
            have hlt := (List.getElem?_eq_some_iff.mp hi).1
            rw [k1] at hlt
            obtain ⟨k3, k4⟩ := k2 i items[i] (List.getElem?_eq_getElem hlt)
            cases hie : items[i].expr with
            | none => rw [k3 hie] at hi; cases hi
            | some e =>
              obtain ⟨t1, t2, r, w, k5, k6, k7⟩ := k4 e hie
              rw [k7] at hi
              cases hi
              exact (explicitValue_ok k6).2.2 rfl
          show ∀ (i : Nat) v, (bitmaskValues 1 vs)[i]? = some v → m.item d i = some v
          intro i
          induction i with
          | zero =>
            intro v hv
            obtain ⟨it, hit⟩ : ∃ it, items[0]? = some it := by
              have : 0 < (bitmaskValues 1 vs).length := (List.getElem?_eq_some_iff.mp hv).1
              rw [bitmaskValues_length, k1] at this
              exact ⟨items[0], List.getElem?_eq_getElem this⟩
            obtain ⟨k3, k4⟩ := k2 0 it hit
            cases hie : it.expr with
            | none =>
              rw [bitmaskValues_first _ _ (k3 hie), Option.some.injEq] at hv
              rw [hd.bitmaskFirst d kind items it hd0 hit hie, hv]
            | some e =>
              obtain ⟨t1, t2, r, w, k5, k6, k7⟩ := k4 e hie
              rw [bitmaskValues_explicit _ _ _ _ k7, Option.some.injEq] at hv
              subst hv
              exact hexp 0 it e _ _ _ _ _ hit hie (filterMap_mem hit hie) k5 k6
          | succ i ihi =>
            intro v hv
            have hlt : i + 1 < (bitmaskValues 1 vs).length := (List.getElem?_eq_some_iff.mp hv).1
            obtain ⟨it, hit⟩ : ∃ it, items[i + 1]? = some it := by
              rw [bitmaskValues_length, k1] at hlt
              exact ⟨items[i + 1], List.getElem?_eq_getElem hlt⟩
            obtain ⟨k3, k4⟩ := k2 (i + 1) it hit
            cases hie : it.expr with
            | none =>
              rw [bitmaskValues_next _ _ _ (k3 hie)] at hv
              obtain ⟨w, hw, rfl⟩ := Option.map_eq_some_iff.mp hv
              have hw' := ihi w hw
              have h0 : w ≠ 0 := fun h0 => hreg.zero d kind items i it hd0 hit hie (by rw [hw', h0])
              have h1 := hnonneg w (List.mem_of_getElem? hw)
              rw [hd.bitmaskNext d kind items i it hd0 hit hie, hw', Option.map_some, getNextValue_right (by omega)]
            | some e =>
              obtain ⟨t1, t2, r, w, k5, k6, k7⟩ := k4 e hie
              rw [bitmaskValues_explicit _ _ _ _ k7, Option.some.injEq] at hv
              subst hv
              exact hexp (i + 1) it e _ _ _ _ _ hit hie (filterMap_mem hit hie) k5 k6
    · rw [if_neg hdd] at hf
      exact ih d decl v hdecl hf

/-! ### The check -/

theorem checkAll_ok {S : Schema} {t : Table} : ∀ {order : List Nat}, checkAll S t order = .ok () →
    ∀ d ∈ order, ∃ decl v, S.decls[d]? = some decl ∧ t.find d = some v ∧ checkDecl decl v = .ok () := by
  intro order
  induction order with
  | nil => intro _ d hd; cases hd
  | cons d0 ds ih =>
    intro h d hd
    simp only [checkAll] at h
    split at h
    · next decl v h1 h2 =>
      obtain ⟨_, h3, h4⟩ := bind_ok_inv h
      rcases List.mem_cons.mp hd with rfl | hd
      · exact ⟨decl, v, h1, h2, h3⟩
      · exact ih h4 d hd
    · cases h

theorem checkAll_intro {S : Schema} {t : Table} : ∀ {order : List Nat},
    (∀ d ∈ order, ∃ decl v, S.decls[d]? = some decl ∧ t.find d = some v ∧ checkDecl decl v = .ok ()) → checkAll S t order = .ok () := by
  intro order
  induction order with
  | nil => intro _; rfl
  | cons d0 ds ih =>
    intro h
    obtain ⟨decl, v, h1, h2, h3⟩ := h d0 List.mem_cons_self
    simp only [checkAll, h1, h2, h3]
    exact ih fun d hd => h d (List.mem_cons_of_mem _ hd)

theorem compile_ok {S : Schema} {order : List Nat} {t : Table} (h : compile S order = .ok t) :
    evaluateAll S order [] = .ok t ∧ checkAll S t order = .ok () := by
  unfold compile at h
  obtain ⟨t', h1, h2⟩ := bind_ok_inv h
  obtain ⟨⟨⟩, h3, h4⟩ := bind_ok_inv h2
  cases h4
  exact ⟨h1, h3⟩

theorem checkItems_ok {k : IntKind} : ∀ {vs seen : List Int}, checkItems k seen vs = .ok () →
    vs.Nodup ∧ (∀ v ∈ vs, v ∉ seen ∧ lowerBound k ≤ v ∧ v ≤ upperBound k) := by
  intro vs
  induction vs with
  | nil => intro seen _; simp
  | cons v vs ih =>
    intro seen h
    simp only [checkItems] at h
    split at h
    · cases h
    · next h1 =>
      split at h
      · cases h
      · next h2 =>
        obtain ⟨k1, k2⟩ := ih h
        refine ⟨List.nodup_cons.mpr ⟨fun hm => (k2 v hm).1 List.mem_cons_self, k1⟩, ?_⟩
        intro w hw
        rcases List.mem_cons.mp hw with rfl | hw
        · exact ⟨h1, by omega, by omega⟩
        · exact ⟨fun hs => (k2 w hw).1 (List.mem_cons_of_mem _ hs), (k2 w hw).2⟩

theorem bounds_inRange {k : IntKind} (hk : ValidKind k) {v : Int} (h1 : lowerBound k ≤ v) (h2 : v ≤ upperBound k) : k.InRange v := by
  cases k with
  | bitField n =>
    simp only [lowerBound, upperBound, BitmaskDef.lowerBound, BitmaskDef.upperBound] at h1 h2
    refine ⟨hk, ?_, ?_⟩ <;> omega
  | signedBitField n =>
    simp only [lowerBound, upperBound, BitmaskDef.lowerBound, BitmaskDef.upperBound] at h1 h2
    refine ⟨hk, ?_, ?_⟩ <;> omega
  | var t =>
    cases t <;> simp [lowerBound, upperBound, BitmaskDef.lowerBound, BitmaskDef.upperBound] at h1 h2 <;>
      simp only [IntKind.InRange, VarType.InRange, VarType.lo, VarType.hi] <;> omega

/-! ### Another order -/

theorem evaluateAll_complete {S : Schema} {T : Table} (hT : Built S T) : ∀ (order : List Nat) (t : Table), t.Le T →
    (∀ d ∈ order, ∃ v, T.find d = some v) → ∃ t', evaluateAll S order t = .ok t' ∧ t'.Le T := by
  intro order
  induction order with
  | nil => intro t ht _; exact ⟨t, rfl, ht⟩
  | cons d ds ih =>
    intro t ht h
    obtain ⟨v, hv⟩ := h d List.mem_cons_self
    obtain ⟨t1, h1, _, h3, _⟩ := evaluateDecl_complete S (S.decls.length + 1) T hT (by have := built_length hT; omega) T (Table.Le.refl _) []
      d v t hv ht (by simp)
    obtain ⟨t2, h4, h5⟩ := ih t1 h3 fun d hd => h d (List.mem_cons_of_mem _ hd)
    refine ⟨t2, ?_, h5⟩
    simp only [evaluateAll, h1]
    exact h4

/-! ### The evaluation ends -/

/-- the computation does not raise the error -/
def Avoids {α : Type} (err : CompileError) (x : K α) : Prop := ∀ t, x t ≠ .error err

theorem avoids_lift {α : Type} {err : CompileError} (hs : Special err) {x : Except CompileError α} (h : Own x) : Avoids err (liftK x) := by
  intro t ht
  cases x with
  | ok a => cases ht
  | error e => simp only [liftK, Except.error.injEq] at ht; exact h err hs (by rw [ht])

theorem avoids_bind {α β : Type} {err : CompileError} {x : K α} {f : α → K β} (hx : Avoids err x) (hf : ∀ a, Avoids err (f a)) :
    Avoids err (x >>= f) := by
  intro t ht
  rw [K.bind_apply] at ht
  cases h : x t with
  | error e => rw [h] at ht; simp only [Except.error.injEq] at ht; exact hx t (by rw [h, ht])
  | ok p => rw [h] at ht; exact hf _ _ ht

theorem avoids_expr {err : CompileError} (hs : Special err) {l : Nat → K Result} :
    ∀ e, (∀ id ∈ symbols e, Avoids err (l id)) → Avoids err (evaluateExpr l e) := by
  refine expr_induct ?_ ?_ ?_ ?_ ?_
  · intro e r he _ _; rw [he]; exact avoids_lift hs (own_ok _)
  · intro id h; exact h id (by simp [symbols])
  · intro e a f he hsym hf ia h
    rw [he]; rw [hsym] at h
    exact avoids_bind (ia h) fun _ => avoids_lift hs (hf _)
  · intro e a b f he hsym hf ia ib h
    rw [he]; rw [hsym] at h
    exact avoids_bind (ia fun id hid => h id (by simp [hid])) fun _ => avoids_bind (ib fun id hid => h id (by simp [hid]))
      fun _ => avoids_lift hs (hf _ _)
  · intro e a b c f he hsym hf ia ib ic h
    rw [he]; rw [hsym] at h
    exact avoids_bind (ia fun id hid => h id (by simp [hid])) fun _ => avoids_bind (ib fun id hid => h id (by simp [hid]))
      fun _ => avoids_bind (ic fun id hid => h id (by simp [hid])) fun _ => avoids_lift hs (hf _ _ _)

theorem explicitValue_own (b : Bool) (r : Result) : Own (explicitValue b r) := by
  unfold explicitValue; repeat' split
  all_goals first | exact own_ok _ | exact own_error (by simp)

theorem avoids_items {err : CompileError} (hs : Special err) {l : Nat → K Result} (m : Bool) : ∀ items : List ItemDecl,
    (∀ e ∈ items.filterMap (·.expr), ∀ id ∈ symbols e, Avoids err (l id)) → Avoids err (visitItems l m items) := by
  intro items
  induction items with
  | nil => intro _; exact avoids_lift hs (own_ok _)
  | cons i is ih =>
    intro h
    simp only [visitItems]
    refine avoids_bind ?_ fun _ => avoids_bind (ih fun e he => h e ?_) fun _ => avoids_lift hs (own_ok _)
    · unfold visitItem
      cases hi : i.expr with
      | none => exact avoids_lift hs (own_ok _)
      | some e =>
        exact avoids_bind (avoids_expr hs e (h e (by simp [List.filterMap_cons, hi]))) fun _ =>
          avoids_bind (avoids_lift hs (explicitValue_own _ _)) fun _ => avoids_lift hs (own_ok _)
    · simp only [List.filterMap_cons]
      split
      · exact he
      · exact List.mem_cons_of_mem _ he

theorem avoids_decl {err : CompileError} (hs : Special err) {l : Nat → K Result} (d : Decl)
    (h : ∀ e ∈ d.exprs, ∀ id ∈ symbols e, Avoids err (l id)) : Avoids err (Decl.evaluate l d) := by
  cases d with
  | const type kind e => exact avoids_bind (avoids_expr hs e (h e (by simp [Decl.exprs]))) fun _ => avoids_lift hs (own_ok _)
  | enum kind items => exact avoids_bind (avoids_items hs _ items h) fun _ => avoids_lift hs (own_ok _)
  | bitmask kind items =>
    simp only [Decl.evaluate]
    refine avoids_bind (avoids_items hs _ items h) fun _ => ?_
    split
    · exact avoids_lift hs (own_error (by simp))
    · exact avoids_lift hs (own_ok _)

theorem operand_own (S : Schema) (t : Table) (ref : Ref) : Own (operand S t ref) := by
  unfold operand; repeat' split
  all_goals first | exact own_ok _ | exact own_error (by simp)

theorem lookupWith_avoids {S : Schema} {err : CompileError} (hs : Special err) {n : Nat} {busy : List Nat} {id : Nat}
    (h : ∀ ref, S.symbol id = some ref → Avoids err (evaluateDecl S n busy ref.decl)) : Avoids err (lookupWith S n busy id) := by
  intro s hx
  unfold lookupWith at hx
  cases hsym : S.symbol id with
  | none =>
    rw [hsym] at hx
    exact own_error (α := Result × Table) (e := .unresolved) (by simp) err hs hx
  | some ref =>
    rw [hsym] at hx
    simp only at hx
    have hno := h ref hsym s
    cases he : evaluateDecl S n busy ref.decl s with
    | error e =>
      rw [he] at hx
      simp only [bind, Except.bind, Except.error.injEq] at hx
      exact hno (by rw [he, hx])
    | ok p =>
      obtain ⟨⟨⟩, u⟩ := p
      rw [he] at hx
      change (operand S u ref >>= fun r => Except.ok (r, u)) = _ at hx
      cases ho : operand S u ref with
      | error e =>
        rw [ho] at hx
        simp only [bind, Except.bind, Except.error.injEq] at hx
        exact operand_own S u ref err hs (by rw [ho, hx])
      | ok r => rw [ho] at hx; cases hx

theorem evaluateDecl_depth (S : Schema) : ∀ (n : Nat) (busy : List Nat) (d : Nat), busy.Nodup → (∀ b ∈ busy, b < S.decls.length) →
    S.decls.length + 1 ≤ n + busy.length → Avoids .depth (evaluateDecl S n busy d) := by
  intro n
  induction n with
  | zero =>
    intro busy d h1 h2 h3
    have := nodup_length_le h1 _ h2
    omega
  | succ n ih =>
    intro busy d h1 h2 h3 t
    rw [evaluateDecl_succ]
    split
    · simp
    · split
      · simp
      · next hm =>
        cases hd : S.decls[d]? with
        | none => simp
        | some decl =>
          have hlt := (List.getElem?_eq_some_iff.mp hd).1
          have := avoids_decl (.inl rfl) (l := lookupWith S n (d :: busy)) decl (fun e _ id _ => lookupWith_avoids (.inl rfl)
            fun ref _ => ih (d :: busy) ref.decl (List.nodup_cons.mpr ⟨hm, h1⟩) (by
              intro b hb; rcases List.mem_cons.mp hb with rfl | hb
              · exact hlt
              · exact h2 b hb) (by simp; omega)) t
          simp only
          cases he : Decl.evaluate (lookupWith S n (d :: busy)) decl t with
          | error e =>
            intro h
            simp only [Except.error.injEq] at h
            exact this (by rw [he, h])
          | ok p => simp

theorem evaluateAll_avoids (S : Schema) {err : CompileError} (h : ∀ d, Avoids err (evaluateDecl S (S.decls.length + 1) [] d)) :
    ∀ (order : List Nat) (t : Table), evaluateAll S order t ≠ .error err := by
  intro order
  induction order with
  | nil => intro t h; cases h
  | cons d ds ih =>
    intro t hx
    simp only [evaluateAll] at hx
    have := h d t
    cases he : evaluateDecl S (S.decls.length + 1) [] d t with
    | error e =>
      rw [he] at hx
      simp only [bind, Except.bind, Except.error.injEq] at hx
      exact this (by rw [he, hx])
    | ok p =>
      obtain ⟨⟨⟩, u⟩ := p
      rw [he] at hx
      exact ih u hx

theorem checkItems_own (k : IntKind) : ∀ (vs seen : List Int), Own (checkItems k seen vs) := by
  intro vs
  induction vs with
  | nil => intro seen; exact own_ok _
  | cons v vs ih =>
    intro seen
    simp only [checkItems]
    split
    · exact own_error (by simp)
    · split
      · exact own_error (by simp)
      · exact ih _

theorem checkDecl_own (d : Decl) (v : Evaluated) : Own (checkDecl d v) := by
  unfold checkDecl
  split
  · unfold checkConst
    repeat' split
    all_goals first | exact own_ok _ | exact own_error (by simp)
  · exact checkItems_own _ _ _
  · exact checkItems_own _ _ _
  · exact own_error (by simp)

theorem checkAll_own (S : Schema) (t : Table) : ∀ (order : List Nat), Own (checkAll S t order) := by
  intro order
  induction order with
  | nil => exact own_ok _
  | cons d ds ih =>
    simp only [checkAll]
    split
    · next decl v h1 h2 =>
      have := checkDecl_own decl v
      cases he : checkDecl decl v with
      | error e => rw [he] at this; exact fun err hs hx => this err hs (by cases hx; rfl)
      | ok u => exact ih
    · exact own_error (by simp)

theorem compile_avoids (S : Schema) {err : CompileError} (hs : Special err)
    (h : ∀ d, Avoids err (evaluateDecl S (S.decls.length + 1) [] d)) (order : List Nat) : compile S order ≠ .error err := by
  intro hx
  unfold compile at hx
  have h1 := evaluateAll_avoids S h order []
  cases he : evaluateAll S order [] with
  | error e =>
    rw [he] at hx
    simp only [bind, Except.bind, Except.error.injEq] at hx
    exact h1 (by rw [he, hx])
  | ok t =>
    rw [he] at hx
    change (checkAll S t order >>= fun _ => Except.ok t) = _ at hx
    have h2 := checkAll_own S t order err hs
    cases hc : checkAll S t order with
    | error e =>
      rw [hc] at hx
      simp only [bind, Except.bind, Except.error.injEq] at hx
      exact h2 (by rw [hc, hx])
    | ok u => rw [hc] at hx; cases hx

/-- a declaration which is needed for another one is not reported as circular unless it is -/
theorem evaluateDecl_cyclic {S : Schema} (hac : ∀ d, ¬ Relation.TransGen (Uses S) d d) : ∀ (n : Nat) (busy : List Nat) (d : Nat),
    (∀ b ∈ busy, Relation.TransGen (Uses S) b d) → Avoids .cyclic (evaluateDecl S n busy d) := by
  intro n
  induction n with
  | zero => intro busy d _ t h; cases h
  | succ n ih =>
    intro busy d hb t
    rw [evaluateDecl_succ]
    split
    · simp
    · split
      · next hm => exact absurd (hb d hm) (hac d)
      · next hm =>
        cases hd : S.decls[d]? with
        | none => simp
        | some decl =>
          have := avoids_decl (.inr rfl) (l := lookupWith S n (d :: busy)) decl (fun e he id hid => lookupWith_avoids (.inr rfl)
            fun ref href => ih (d :: busy) ref.decl (by
              have hu : Uses S d ref.decl := ⟨decl, e, id, ref, hd, he, hid, href, rfl⟩
              intro b hb'; rcases List.mem_cons.mp hb' with rfl | hb'
              · exact .single hu
              · exact (hb b hb').tail hu)) t
          simp only
          cases he : Decl.evaluate (lookupWith S n (d :: busy)) decl t with
          | error e =>
            intro h
            simp only [Except.error.injEq] at h
            exact this (by rw [he, h])
          | ok p => simp

/-! ### What an expression refers to -/

theorem symbols_found {S : Schema} {t : Table} : ∀ (e : Expression.Expr) (s s' : Table) (r : Result),
    evaluateExpr (lookupIn S t) e s = .ok (r, s') → ∀ id ∈ symbols e, ∃ ref, S.symbol id = some ref ∧ ∃ v, t.find ref.decl = some v := by
  refine expr_induct ?_ ?_ ?_ ?_ ?_
  · intro e r _ hs s s' r _ id hid; rw [hs] at hid; cases hid
  · intro id s s' r h id' hid'
    simp only [symbols, List.mem_singleton] at hid'
    subst hid'
    obtain ⟨_, ref, h1, h2⟩ := lookupIn_ok h
    exact ⟨ref, h1, operand_found h2⟩
  · intro e a f he hs _ ia s s' r h
    rw [he] at h
    obtain ⟨x, u, h1, _⟩ := kbind_ok h
    rw [hs]
    exact ia s u x h1
  · intro e a b f he hs _ ia ib s s' r h
    rw [he] at h
    obtain ⟨x, u, h1, h2⟩ := kbind_ok h
    obtain ⟨y, u', h3, _⟩ := kbind_ok h2
    rw [hs]
    intro id hid
    rcases List.mem_append.mp hid with hid | hid
    · exact ia s u x h1 id hid
    · exact ib u u' y h3 id hid
  · intro e a b c f he hs _ ia ib ic s s' r h
    rw [he] at h
    obtain ⟨x, u, h1, h2⟩ := kbind_ok h
    obtain ⟨y, u', h3, h4⟩ := kbind_ok h2
    obtain ⟨z, u'', h5, _⟩ := kbind_ok h4
    rw [hs]
    intro id hid
    rcases List.mem_append.mp hid with hid | hid
    · rcases List.mem_append.mp hid with hid | hid
      · exact ia s u x h1 id hid
      · exact ib u u' y h3 id hid
    · exact ic u' u'' z h5 id hid

theorem items_found {S : Schema} {t : Table} {m : Bool} {items : List ItemDecl} {s s' : Table} {vs : List (Option Int)}
    (h : visitItems (lookupIn S t) m items s = .ok (vs, s')) : ∀ e ∈ items.filterMap (·.expr), ∀ id ∈ symbols e,
      ∃ ref, S.symbol id = some ref ∧ ∃ v, t.find ref.decl = some v := by
  intro e he id hid
  obtain ⟨it, h1, h2⟩ := List.mem_filterMap.mp he
  obtain ⟨i, hi⟩ := List.getElem?_of_mem h1
  obtain ⟨t1, t2, r, v, h3, _⟩ := ((visitItems_ok items s s' vs h).2 i it hi).2 e h2
  exact symbols_found e t1 t2 r h3 id hid

theorem decl_found {S : Schema} {t : Table} {decl : Decl} {s s' : Table} {v : Evaluated}
    (h : Decl.evaluate (lookupIn S t) decl s = .ok (v, s')) : ∀ e ∈ decl.exprs, ∀ id ∈ symbols e,
      ∃ ref, S.symbol id = some ref ∧ ∃ v, t.find ref.decl = some v := by
  cases decl with
  | const type kind e =>
    intro e' he'
    simp only [Decl.exprs, List.mem_singleton] at he'
    subst he'
    obtain ⟨r, u, h1, _⟩ := kbind_ok h
    exact symbols_found _ _ _ _ h1
  | enum kind items => obtain ⟨vs, u, h1, _⟩ := kbind_ok h; exact items_found h1
  | bitmask kind items => obtain ⟨vs, u, h1, _⟩ := kbind_ok h; exact items_found h1

/-- the declarations can be ranked such that each refers only to declarations of lower rank -/
theorem built_rank {S : Schema} {t : Table} (h : Built S t) : ∃ rank : Nat → Nat,
    (∀ d v, t.find d = some v → rank d < t.length) ∧
    ∀ d decl, (∃ v, t.find d = some v) → S.decls[d]? = some decl → ∀ e ∈ decl.exprs, ∀ id ∈ symbols e,
      ∃ ref, S.symbol id = some ref ∧ (∃ v, t.find ref.decl = some v) ∧ rank ref.decl < rank d := by
  induction h with
  | nil => exact ⟨fun _ => 0, by simp [Table.find], by simp [Table.find]⟩
  | @cons t d0 decl0 v0 hb hn hd0 he ih =>
    obtain ⟨rank, h1, h2⟩ := ih
    have hrank : ∀ d v, t.find d = some v → (if d = d0 then t.length else rank d) = rank d := by
      intro d v hv
      rw [if_neg]
      rintro rfl
      rw [hn] at hv; cases hv
    refine ⟨fun d => if d = d0 then t.length else rank d, ?_, ?_⟩
    · intro d v hv
      rw [find_cons] at hv
      simp only [List.length_cons]
      split at hv
      · next hdd => rw [if_pos hdd]; omega
      · next hdd => rw [if_neg hdd]; have := h1 d v hv; omega
    · rintro d decl ⟨v, hv⟩ hdecl e hmem id hid
      rw [find_cons] at hv
      split at hv
      · next hdd =>
        subst hdd
        rw [hd0, Option.some.injEq] at hdecl
        subst hdecl
        obtain ⟨ref, k1, w, k2⟩ := decl_found (he []) e hmem id hid
        refine ⟨ref, k1, ⟨w, le_cons hn _ _ k2⟩, ?_⟩
        simp only [if_true]
        rw [hrank _ _ k2]
        exact h1 _ _ k2
      · next hdd =>
        obtain ⟨ref, k1, ⟨w, k2⟩, k3⟩ := h2 d decl ⟨v, hv⟩ hdecl e hmem id hid
        refine ⟨ref, k1, ⟨w, le_cons hn _ _ k2⟩, ?_⟩
        simp only [if_neg hdd]
        rw [hrank _ _ k2]
        exact k3

/-- as many values as items -/
theorem built_lengths {S : Schema} {t : Table} (h : Built S t) {d : Nat} {decl : Decl} {vs : List Int} (hd : S.decls[d]? = some decl)
    (hf : t.find d = some (.items vs)) : vs.length = decl.items.length := by
  obtain ⟨u, decl', _, _, _, _, h5, h6, _, _⟩ := built_split h hf
  rw [hd, Option.some.injEq] at h5
  subst h5
  have h1 := h6 []
  cases decl with
  | const type kind e =>
    obtain ⟨r, s, h2, h3⟩ := kbind_ok h1
    cases (liftK_ok h3).1
  | enum kind items =>
    obtain ⟨ws, s, h2, h3⟩ := kbind_ok h1
    obtain ⟨h4, _⟩ := liftK_ok h3
    cases h4
    rw [enumValues_length, (visitItems_ok items _ _ _ h2).1]
    rfl
  | bitmask kind items =>
    obtain ⟨ws, s, h2, h3⟩ := kbind_ok h1
    split at h3
    · cases (liftK_ok h3).1
    · obtain ⟨h4, _⟩ := liftK_ok h3
      cases h4
      rw [bitmaskValues_length, (visitItems_ok items _ _ _ h2).1]
      rfl

end Zserio.ConstEval
