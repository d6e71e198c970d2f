import Verif.Lemmas.PyGrammar
import Verif.Lemmas.ExpressionEval
/-
The formatted expressions are Python expressions with the trees and the values of the schema expressions.
-/
set_option linter.unusedSimpArgs false
namespace Zserio.Expression

variable {O : Type}

/- Building derivations. -/

theorem Derives.step {n : Nat} {ts : List Tok} {t : PyExpr} (h : Derives (n + 1) ts t) (hn : n ≤ 11) : Derives n ts t := by
  have hops : n ∈ [1, 2, 5, 6, 7, 8, 9, 10] → Derives n ts t := fun hm => by
    have := Derives.ops hm h Tail.nil
    rwa [List.append_nil] at this
  match n, hn with
  | 0, _ => exact .test h
  | 1, _ => exact hops (by simp)
  | 2, _ => exact hops (by simp)
  | 3, _ => exact .notTest h
  | 4, _ => exact .comparison h
  | 5, _ => exact hops (by simp)
  | 6, _ => exact hops (by simp)
  | 7, _ => exact hops (by simp)
  | 8, _ => exact hops (by simp)
  | 9, _ => exact hops (by simp)
  | 10, _ => exact hops (by simp)
  | 11, _ => exact .factor h

theorem Derives.weaken {m n : Nat} {ts : List Tok} {t : PyExpr} (h : Derives m ts t) (hn : n ≤ m) (hm : m ≤ 12) : Derives n ts t := by
  obtain ⟨k, rfl⟩ := Nat.exists_eq_add_of_le hn
  clear hn
  induction k with
  | zero => exact h
  | succ k ih => exact ih (Derives.step (n := n + k) h (by omega)) (by omega)

theorem Tail.snoc {n : Nat} {a b t : PyExpr} {rest ts : List Tok} {k : Tok} {f : PyExpr → PyExpr → PyExpr} (h : Tail n a rest t)
    (hk : k.binary = some (n, f)) (hb : Derives (n + 1) ts b) : Tail n a (rest ++ k :: ts) (f t b) := by
  match h with
  | .nil =>
    have := Tail.cons (a := a) hk hb Tail.nil
    rwa [List.append_nil] at this
  | .cons hk' h1 h2 =>
    have := Tail.cons hk' h1 (Tail.snoc h2 hk hb)
    rwa [← List.append_assoc] at this
termination_by structural h

theorem Derives.binary {n : Nat} {ts bs : List Tok} {k : Tok} {f : PyExpr → PyExpr → PyExpr} {a b : PyExpr} (hk : k.binary = some (n, f))
    (h : Derives n ts a) (hb : Derives (n + 1) bs b) : Derives n (ts ++ k :: bs) (f a b) := by
  have hn : n ∈ [1, 2, 5, 6, 7, 8, 9, 10] := by
    cases k <;> simp only [Tok.binary, Option.some.injEq, Prod.mk.injEq, reduceCtorEq] at hk <;> obtain ⟨rfl, _⟩ := hk <;> simp
  cases h with
  | ops _ h1 h2 =>
    rw [List.append_assoc]
    exact .ops hn h1 (h2.snoc hk hb)
  | _ => simp at hn

theorem Trailers.append {a t t' : PyExpr} {r r' : List Tok} (h : Trailers a r t) (h' : Trailers t r' t') : Trailers a (r ++ r') t' := by
  match h with
  | .nil => exact h'
  | .attr h1 => exact .attr (Trailers.append h1 h')
  | .item h1 h2 =>
    have := Trailers.item h1 (Trailers.append h2 h')
    simpa only [List.cons_append, List.append_assoc] using this
  | .call0 h1 => exact .call0 (Trailers.append h1 h')
  | .call1 h1 h2 =>
    have := Trailers.call1 h1 (Trailers.append h2 h')
    simpa only [List.cons_append, List.append_assoc] using this
  | .call2 h1 h2 h3 =>
    have := Trailers.call2 h1 h2 (Trailers.append h3 h')
    simpa only [List.cons_append, List.append_assoc] using this
termination_by structural h

theorem Derives.trailers {ts r : List Tok} {t t' : PyExpr} (h : Derives 12 ts t) (h' : Trailers t r t') : Derives 12 (ts ++ r) t' := by
  cases h with
  | atomExpr h1 h2 =>
    rw [List.append_assoc]
    exact .atomExpr h1 (h2.append h')
  | ops hn => simp at hn

theorem Derives.atom {ts : List Tok} {t : PyExpr} (h : Atom ts t) : Derives 12 ts t := by
  have := Derives.atomExpr h Trailers.nil
  rwa [List.append_nil] at this

theorem Derives.paren {n : Nat} {ts : List Tok} {t : PyExpr} (h : Derives n ts t) (hn : n ≤ 12) : Derives 12 (.lpar :: (ts ++ [.rpar])) t :=
  .atom (.paren (h.weaken (Nat.zero_le n) hn))

theorem dotted_trailers (attributes : List PyStr) (t : PyExpr) :
    Trailers t (attributes.flatMap fun s => [.dot, .name s]) (attributes.foldl (fun t s => .attr t s) t) := by
  induction attributes generalizing t with
  | nil => exact .nil
  | cons s l ih => exact .attr (ih (.attr t s))

theorem dotted_derives (head : PyStr) (attributes : List PyStr) : Derives 12 (dotted head attributes) (dottedTree head attributes) :=
  Derives.trailers (ts := [.name head]) (.atom .name) (dotted_trailers attributes _)

/-- the rule of Python's grammar for the outermost operator -/
def Expr.pyLevel : Expr → Nat
  | .unary .bang _ => 3
  | .unary _ _ => 11
  | .binary .mul _ _ | .binary .div _ _ | .binary .mod _ _ => 10
  | .binary .add _ _ | .binary .sub _ _ => 9
  | .binary .shl _ _ | .binary .shr _ _ => 8
  | .binary .band _ _ => 7
  | .binary .bxor _ _ => 6
  | .binary .bor _ _ => 5
  | .binary .land _ _ => 2
  | .binary .lor _ _ => 1
  | .binary _ _ _ => 3
  | .cond _ _ _ => 0
  | _ => 12

theorem pyLevel_le (e : Expr) : e.pyLevel ≤ 12 := by
  unfold Expr.pyLevel; split <;> omega

theorem BinOp.type_not_bool {op : BinOp} {a b t : Ty} (h : op.type a b = some t) :
    (t = .bool ↔ op.level = 6 ∨ op.level = 7 ∨ op.level ≤ 2) := by
  unfold BinOp.type at h
  split at h <;> (try split at h) <;> (try split at h) <;> simp only [Option.some.injEq, reduceCtorEq] at h <;> subst h <;>
    simp only [BinOp.level] <;> (try split) <;> simp

theorem UnOp.type_not_bool {op : UnOp} {a t : Ty} (h : op.type a = some t) : (t = .bool ↔ op = .bang) := by
  cases op <;> cases a <;> simp only [UnOp.type, Option.some.injEq, reduceCtorEq] at h <;> subst h <;> simp

/-- An operand which is not a boolean: the rule of Python's grammar for it follows from its precedence. -/
theorem level_of_not_bool {Γ : Signature} {e : Expr} {t : Ty} (h : e.type Γ = some t) (ht : t ≠ .bool) {n : Nat} (hn : n ≤ e.level) (h0 : 0 < n) :
    (3 ≤ n → 5 ≤ e.pyLevel) ∧ (4 ≤ n → 6 ≤ e.pyLevel) ∧ (5 ≤ n → 7 ≤ e.pyLevel) ∧ (6 ≤ n → 8 ≤ e.pyLevel) ∧ (8 ≤ n → n ≤ e.pyLevel) := by
  cases e with
  | unary op e =>
    simp only [Expr.type, Option.bind_eq_bind, Option.bind_eq_some_iff] at h
    obtain ⟨ta, _, h⟩ := h
    have : op ≠ .bang := fun hb => ht ((UnOp.type_not_bool h).2 hb)
    cases op <;> simp only [Expr.level, Expr.pyLevel] at * <;> first | exact absurd rfl this | omega
  | binary op a b =>
    simp only [Expr.type, Option.bind_eq_bind, Option.bind_eq_some_iff] at h
    obtain ⟨ta, _, tb, _, h⟩ := h
    have := mt (BinOp.type_not_bool h).2 ht
    push Not at this
    obtain ⟨h6, h7, h2⟩ := this
    cases op <;> simp only [Expr.level, BinOp.level] at hn h6 h7 h2 <;> simp only [Expr.pyLevel] <;>
      first | exact absurd rfl h6 | exact absurd rfl h7 | omega
  | cond c a b => simp only [Expr.level] at hn; omega
  | _ => simp only [Expr.level, Expr.pyLevel] at *; omega

/- Types of values. -/

section types
variable {T : O → Ty → Prop} {v : Value O}

theorem hasType_int (h : v.HasType T .int) : ∃ x, v = .int x := by cases v <;> simp_all [Value.HasType]
theorem hasType_bool (h : v.HasType T .bool) : ∃ x, v = .bool x := by cases v <;> simp_all [Value.HasType]
theorem hasType_float (h : v.HasType T .float) : ∃ x, v = .float x := by cases v <;> simp_all [Value.HasType]
theorem hasType_str (h : v.HasType T .str) : ∃ x, v = .str x := by cases v <;> simp_all [Value.HasType]
theorem hasType_bytes (h : v.HasType T .bytes) : ∃ x, v = .bytes x := by cases v <;> simp_all [Value.HasType]
theorem hasType_enum {c : Nat} (h : v.HasType T (.enum c)) : ∃ x, v = .enum c x := by cases v <;> simp_all [Value.HasType]
theorem hasType_bitmask {c : Nat} (h : v.HasType T (.bitmask c)) : ∃ x, v = .bitmask c x := by cases v <;> simp_all [Value.HasType]
theorem hasType_array {t : Ty} (h : v.HasType T (.array t)) : ∃ o, v = .other o ∧ T o (.array t) := by cases v <;> simp_all [Value.HasType]

theorem binary_sound {W : World O} {D : Division} {op : BinOp} {ta tb t : Ty} {x y : Value O} (ht : op.type ta tb = some t)
    (hx : x.HasType T ta) (hy : y.HasType T tb) (h : op.apply W D x y = some v) : v.HasType T t := by
  cases x <;> cases y <;> first
    | (simp only [BinOp.apply, reduceCtorEq] at h; done)
    | (cases ta <;> first
        | (simp only [Value.HasType] at hx; done)
        | (cases tb <;> first
            | (simp only [Value.HasType] at hy; done)
            | (cases op <;>
                simp only [BinOp.type, Ty.numeric, reduceCtorEq, if_false, if_true, and_true, and_false, Bool.and_self, Bool.false_eq_true, Option.some.injEq,
                  and_self, ite_true, ite_false, Bool.and_false, Bool.false_and, Bool.and_true, Bool.true_and] at ht <;>
                (try split at ht) <;> (try cases ht) <;>
                simp only [BinOp.apply, BinOp.compareInt, BinOp.arithInt, BinOp.equality, Option.some.injEq, Option.map_some, Option.map_none, reduceCtorEq,
                  if_false, if_true] at h <;>
                (try split at h) <;> (try simp only [Option.some.injEq, Option.map_some, Option.map_none, Option.map_eq_some_iff, reduceCtorEq] at h) <;>
                (try obtain ⟨_, _, h⟩ := h) <;> (try subst h) <;> (first | exact trivial | simp_all [Value.HasType]))))

theorem unary_sound {W : World O} {op : UnOp} {ta t : Ty} {x : Value O} (ht : op.type ta = some t)
    (hx : x.HasType T ta) (h : op.apply W x = some v) : v.HasType T t := by
  cases x <;> cases ta <;> first
    | (simp only [Value.HasType] at hx; done)
    | (cases op <;> simp only [UnOp.type, UnOp.apply, Option.some.injEq, reduceCtorEq] at ht h <;> (try split at h) <;> (try cases ht) <;> (try cases h) <;>
        first | exact trivial | exact hx)

theorem eval_binary {W : World O} {D : Division} {op : BinOp} {a b : Expr} {v : Value O} (h1 : op ≠ .land) (h2 : op ≠ .lor)
    (h : (Expr.binary op a b).eval W D = some v) :
    ∃ x y, a.eval W D = some x ∧ b.eval W D = some y ∧ op.apply W D x y = some v := by
  cases op
  case land => exact absurd rfl h1
  case lor => exact absurd rfl h2
  all_goals
    simp only [Expr.eval] at h
    split at h
    · rename_i x y hx hy
      exact ⟨x, y, hx, hy, h⟩
    · cases h

theorem eval_land {W : World O} {D : Division} {a b : Expr} {v : Value O} (h : (Expr.binary .land a b).eval W D = some v) :
    (a.eval W D = some (.bool true) ∧ b.eval W D = some v ∧ ∃ y, v = .bool y) ∨ (a.eval W D = some (.bool false) ∧ v = .bool false) := by
  simp only [Expr.eval] at h
  split at h
  · rename_i ha
    split at h
    · rename_i hb
      cases h
      exact .inl ⟨ha, hb, _, rfl⟩
    · cases h
  · rename_i ha
    cases h
    exact .inr ⟨ha, rfl⟩
  · cases h

theorem eval_lor {W : World O} {D : Division} {a b : Expr} {v : Value O} (h : (Expr.binary .lor a b).eval W D = some v) :
    (a.eval W D = some (.bool false) ∧ b.eval W D = some v ∧ ∃ y, v = .bool y) ∨ (a.eval W D = some (.bool true) ∧ v = .bool true) := by
  simp only [Expr.eval] at h
  split at h
  · rename_i ha
    cases h
    exact .inr ⟨ha, rfl⟩
  · rename_i ha
    split at h
    · rename_i hb
      cases h
      exact .inl ⟨ha, hb, _, rfl⟩
    · cases h
  · cases h

theorem type_sound {W : World O} {Γ : Signature} (hW : W.Typed Γ T) (D : Division) (e : Expr) :
    ∀ {t : Ty} {v : Value O}, e.type Γ = some t → e.eval W D = some v → v.HasType T t := by
  induction e with
  | intLit b digits => intro t v ht h; simp only [Expr.type, Expr.eval, Option.some.injEq] at ht h; subst ht; subst h; trivial
  | floatLit text => intro t v ht h; simp only [Expr.type, Expr.eval, Option.some.injEq] at ht h; subst ht; subst h; trivial
  | strLit text => intro t v ht h; simp only [Expr.type, Expr.eval, Option.some.injEq] at ht h; subst ht; subst h; trivial
  | boolLit b => intro t v ht h; simp only [Expr.type, Expr.eval, Option.some.injEq] at ht h; subst ht; subst h; trivial
  | index =>
    intro t v ht h
    simp only [Expr.type, Expr.eval, Option.some.injEq, Option.map_eq_some_iff] at ht h
    obtain ⟨i, _, rfl⟩ := h
    subst ht
    trivial
  | symbol id => intro t v ht h; exact hW.symbol id v t h ht
  | paren e ih => intro t v ht h; exact ih ht h
  | call e ih =>
    intro t v ht h
    simp only [Expr.type, Expr.eval] at ht h
    split at ht
    · rename_i ht'
      split at h
      · rename_i h'
        cases ht
        exact hW.result _ _ _ (ih ht' h') h
      · cases h
    · cases ht
  | element e i ih ihi =>
    intro t v ht h
    simp only [Expr.type, Expr.eval] at ht h
    split at ht
    · rename_i ht' _
      split at h
      · rename_i h' _
        cases ht
        split at h
        · cases h
        · exact hW.element _ _ _ _ (ih ht' h') h
      · cases h
    · cases ht
  | member e id ih =>
    intro t v ht h
    simp only [Expr.type, Expr.eval] at ht h
    split at ht
    · rename_i ht'
      split at h
      · rename_i h'
        exact hW.member _ _ _ _ _ (ih ht' h') h ht
      · cases h
    · cases ht
  | isset a b _ _ =>
    intro t v ht h
    simp only [Expr.type, Expr.eval] at ht h
    split at ht
    · split at ht
      · cases ht
        split at h
        · split at h
          · cases h; trivial
          · cases h
        · cases h
      · cases ht
    · cases ht
  | lengthof e _ =>
    intro t v ht h
    simp only [Expr.type, Expr.eval] at ht h
    have : t = .int := by split at ht <;> cases ht <;> rfl
    subst this
    split at h
    · obtain ⟨_, _, rfl⟩ := Option.map_eq_some_iff.1 h; trivial
    · split at h
      · cases h; trivial
      · cases h
    · cases h; trivial
    · cases h
  | valueof e _ =>
    intro t v ht h
    simp only [Expr.type, Expr.eval] at ht h
    have : t = .int := by split at ht <;> cases ht <;> rfl
    subst this
    split at h <;> cases h <;> trivial
  | numbits e _ =>
    intro t v ht h
    simp only [Expr.type, Expr.eval] at ht h
    have : t = .int := by split at ht <;> cases ht <;> rfl
    subst this
    split at h
    · split at h
      · cases h
      · cases h; trivial
    · cases h
  | unary op e ih =>
    intro t v ht h
    simp only [Expr.type, Option.bind_eq_bind, Option.bind_eq_some_iff] at ht
    obtain ⟨ta, hta, ht⟩ := ht
    simp only [Expr.eval] at h
    split at h
    · rename_i x hx
      exact unary_sound ht (ih hta hx) h
    · cases h
  | binary op a b iha ihb =>
    intro t v ht h
    simp only [Expr.type, Option.bind_eq_bind, Option.bind_eq_some_iff] at ht
    obtain ⟨ta, hta, tb, htb, ht⟩ := ht
    have hbool : op = .land ∨ op = .lor → t = .bool := fun ho =>
      (BinOp.type_not_bool ht).2 (by rcases ho with rfl | rfl <;> simp [BinOp.level])
    by_cases h1 : op = .land
    · subst h1
      rw [hbool (.inl rfl)]
      rcases eval_land h with ⟨_, _, y, rfl⟩ | ⟨_, rfl⟩ <;> trivial
    by_cases h2 : op = .lor
    · subst h2
      rw [hbool (.inr rfl)]
      rcases eval_lor h with ⟨_, _, y, rfl⟩ | ⟨_, rfl⟩ <;> trivial
    obtain ⟨x, y, hx, hy, h⟩ := eval_binary h1 h2 h
    exact binary_sound ht (iha hta hx) (ihb htb hy) h
  | cond c a b _ iha ihb =>
    intro t v ht h
    simp only [Expr.type, Expr.eval] at ht h
    split at ht
    · rename_i hc
      split at h
      · exact iha ht h
      · exact ihb (hc.2 ▸ ht) h
      · cases h
    · cases ht

end types

/- The values of trees. -/

section trees
variable {W : PyWorld O}

theorem eval_compare {op : BinOp} {c : CmpOp} {a b : PyExpr} {D : Division} {x y v : Value O} (hc : op.cmp = some c) (ha : a.eval W = .ok x)
    (hb : b.eval W = .ok y) (h : op.apply W.toWorld D x y = some v) : (PyExpr.compare a (.last c b)).eval W = .ok v := by
  obtain ⟨z, rfl, hz⟩ := compare_apply hc h
  simp only [PyExpr.eval, PyChain.eval, ha, hb, hz, bind, Except.bind]

theorem eval_arith {names : Names} (hA : Agrees W names) {op : BinOp} {i : Bool} {o : ArithOp} {a b : PyExpr} {x y v : Value O} (ho : op.arith i = some o)
    (hi : op = .div → (i = true ↔ (∃ m, x = .int m) ∧ ∃ n, y = .int n)) (ha : a.eval W = .ok x) (hb : b.eval W = .ok y)
    (h : op.apply W.toWorld .floor x y = some v) : (PyExpr.arith o a b).eval W = .ok v := by
  simp only [PyExpr.eval, ha, hb, bind, Except.bind]
  exact arith_apply hA ho hi h

theorem builtin_derives {f : PyStr} {ts : List Tok} {t : PyExpr} {r : List Tok} (h : Trailers (dottedTree (py! "zserio") [py! "builtin", f]) (.lpar :: r) t)
    (hr : ts = builtinCall f ++ r) : Derives 12 ts t := by
  subst hr
  have := (dotted_derives (py! "zserio") [py! "builtin", f]).trailers h
  rw [builtinCall, List.append_assoc]
  exact this

end trees

end Zserio.Expression
