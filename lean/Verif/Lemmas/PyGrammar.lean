import Verif.Model.PyExpr
/-
The grammar of Python expressions is unambiguous: a list of tokens has at most one tree.
-/
set_option linter.unusedSimpArgs false
namespace Zserio.Expression

/-- the number of the rule in which a token continues an expression -/
def Tok.cont : Tok → Option Nat
  | .kIf => some 0
  | .kOr => some 1
  | .kAnd => some 2
  | .lt | .le | .gt | .ge | .eq | .ne => some 4
  | .bar => some 5
  | .caret => some 6
  | .amp => some 7
  | .shl | .shr => some 8
  | .plus | .minus => some 9
  | .star | .slash | .slash2 | .percent => some 10
  | .lpar | .lbrack | .dot => some 12
  | _ => none

theorem cont_binary {k : Tok} {n : Nat} {f : PyExpr → PyExpr → PyExpr} (h : k.binary = some (n, f)) : k.cont = some n := by
  cases k <;> simp_all [Tok.binary, Tok.cont]

theorem cont_comparison {k : Tok} {op : CmpOp} (h : k.comparison = some op) : k.cont = some 4 := by
  cases k <;> simp_all [Tok.comparison, Tok.cont]

/-- no token at the beginning of `r` continues an expression of the rule `n` -/
def Stop (n : Nat) (r : List Tok) : Prop := ∀ k tl m, r = k :: tl → k.cont = some m → m < n

theorem Stop.mono {n m : Nat} {r : List Tok} (h : Stop n r) (hm : n ≤ m) : Stop m r := fun k tl l h1 h2 =>
  Nat.lt_of_lt_of_le (h k tl l h1 h2) hm

theorem Stop.nil {n : Nat} : Stop n [] := fun _ _ _ h => by simp at h

theorem Stop.cons {n : Nat} {k : Tok} {r : List Tok} (h : ∀ m, k.cont = some m → m < n) : Stop n (k :: r) := by
  intro k' tl m h1 h2
  rw [List.cons.injEq] at h1
  obtain ⟨rfl, rfl⟩ := h1
  exact h m h2

theorem Stop.head {n : Nat} {k : Tok} {r : List Tok} (h : Stop n (k :: r)) {m : Nat} (hm : k.cont = some m) : m < n := h k r m rfl hm

theorem Atom.head {ts : List Tok} {t : PyExpr} (h : Atom ts t) : ∃ k tl, ts = k :: tl ∧ k ≠ .rpar ∧ k ≠ .kNot ∧ k.sign = none := by
  cases h <;> exact ⟨_, _, rfl, by simp, by simp, rfl⟩

theorem Derives.head {n : Nat} {ts : List Tok} {t : PyExpr} (h : Derives n ts t) :
    ∃ k tl, ts = k :: tl ∧ k ≠ .rpar ∧ (4 ≤ n → k ≠ .kNot) ∧ (n = 12 → k.sign = none) := by
  match h with
  | .test h =>
    obtain ⟨k, tl, rfl, a, b, c⟩ := h.head
    exact ⟨k, tl, rfl, a, fun h => absurd h (by omega), fun h => absurd h (by omega)⟩
  | .cond h _ _ =>
    obtain ⟨k, tl, rfl, a, b, c⟩ := h.head
    exact ⟨k, _, rfl, a, fun h => absurd h (by omega), fun h => absurd h (by omega)⟩
  | .ops hn h _ =>
    obtain ⟨k, tl, rfl, a, b, c⟩ := h.head
    refine ⟨k, _, rfl, a, fun h => b (by omega), fun h => ?_⟩
    subst h
    simp at hn
  | .not h => exact ⟨_, _, rfl, by decide, fun h => absurd h (by omega), fun h => absurd h (by omega)⟩
  | .notTest h =>
    obtain ⟨k, tl, rfl, a, b, c⟩ := h.head
    exact ⟨k, tl, rfl, a, fun _ => b (by omega), fun h => absurd h (by omega)⟩
  | .comparison h =>
    obtain ⟨k, tl, rfl, a, b, c⟩ := h.head
    exact ⟨k, tl, rfl, a, fun _ => b (by omega), fun h => absurd h (by omega)⟩
  | .compare h _ =>
    obtain ⟨k, tl, rfl, a, b, c⟩ := h.head
    exact ⟨k, _, rfl, a, fun _ => b (by omega), fun h => absurd h (by omega)⟩
  | .sign hk h =>
    refine ⟨_, _, rfl, ?_, fun _ => ?_, fun h => absurd h (by omega)⟩ <;> (rintro rfl; simp [Tok.sign] at hk)
  | .factor h =>
    obtain ⟨k, tl, rfl, a, b, c⟩ := h.head
    exact ⟨k, tl, rfl, a, fun _ => b (by omega), fun h => absurd h (by omega)⟩
  | .atomExpr h _ =>
    obtain ⟨k, tl, rfl, a, b, c⟩ := Atom.head h
    exact ⟨k, _, rfl, a, fun _ => b, fun _ => c⟩

theorem Tail.stop {n : Nat} {a t : PyExpr} {rest r : List Tok} (h : Tail n a rest t) (hr : Stop n r) : Stop (n + 1) (rest ++ r) := by
  cases h with
  | nil => exact hr.mono (by omega)
  | cons hk _ _ => exact Stop.cons fun m hm => by rw [cont_binary hk] at hm; cases hm; omega

theorem Chain.stop {rest r : List Tok} {c : PyChain} (h : Chain rest c) : Stop 5 (rest ++ r) := by
  cases h with
  | last hk _ => exact Stop.cons fun m hm => by rw [cont_comparison hk] at hm; cases hm; omega
  | more hk _ _ => exact Stop.cons fun m hm => by rw [cont_comparison hk] at hm; cases hm; omega

theorem Chain.head {rest : List Tok} {c : PyChain} (h : Chain rest c) : ∃ k tl, rest = k :: tl ∧ k.cont = some 4 := by
  cases h with
  | last hk _ => exact ⟨_, _, rfl, cont_comparison hk⟩
  | more hk _ _ => exact ⟨_, _, rfl, cont_comparison hk⟩

theorem stop_close {n : Nat} {k : Tok} {r : List Tok} (h : k.cont = none) : Stop n (k :: r) := Stop.cons fun m hm => by rw [h] at hm; cases hm

mutual


theorem Derives.unique {n : Nat} {ts ts' r r' : List Tok} {t t' : PyExpr} (h : Derives n ts t) (h' : Derives n ts' t')
    (e : ts ++ r = ts' ++ r') (s : Stop n r) (s' : Stop n r') : ts = ts' ∧ t = t' := by
  match h with
  | .test (ts := ts) h1 =>
    cases h' with
    | test h2 => exact Derives.unique h1 h2 e (s.mono (by omega)) (s'.mono (by omega))
    | cond h2 h3 h4 =>
      rw [List.append_assoc] at e
      obtain ⟨rfl, rfl⟩ := Derives.unique h1 h2 e (s.mono (by omega)) (Stop.cons fun m hm => by cases hm; omega)
      rw [List.append_cancel_left_eq] at e
      subst e
      exact absurd (s.head rfl) (by omega)
    | ops hn => simp at hn
  | .cond h1 h2 h3 =>
    rw [List.append_assoc] at e
    cases h' with
    | test h4 =>
      obtain ⟨rfl, rfl⟩ := Derives.unique h1 h4 e (Stop.cons fun m hm => by cases hm; omega) (s'.mono (by omega))
      rw [List.append_cancel_left_eq] at e
      subst e
      exact absurd (s'.head rfl) (by omega)
    | cond h4 h5 h6 =>
      rw [List.append_assoc] at e
      obtain ⟨rfl, rfl⟩ := Derives.unique h1 h4 e (Stop.cons fun m hm => by cases hm; omega) (Stop.cons fun m hm => by cases hm; omega)
      rw [List.append_cancel_left_eq] at e
      simp only [List.cons_append, List.cons.injEq, true_and, List.append_assoc] at e
      obtain ⟨rfl, rfl⟩ := Derives.unique h2 h5 e (stop_close rfl) (stop_close rfl)
      rw [List.append_cancel_left_eq] at e
      simp only [List.cons_append, List.cons.injEq, true_and] at e
      obtain ⟨rfl, rfl⟩ := Derives.unique h3 h6 e s s'
      exact ⟨rfl, rfl⟩
    | ops hn => simp at hn
  | .ops hn h1 h2 =>
    cases h' with
    | ops _ h3 h4 =>
      rw [List.append_assoc, List.append_assoc] at e
      obtain ⟨rfl, rfl⟩ := Derives.unique h1 h3 e (h2.stop s) (h4.stop s')
      rw [List.append_cancel_left_eq] at e
      obtain ⟨rfl, rfl⟩ := Tail.unique h2 h4 e s s'
      exact ⟨rfl, rfl⟩
    | test _ => simp at hn
    | cond _ _ _ => simp at hn
    | not _ => simp at hn
    | notTest _ => simp at hn
    | comparison _ => simp at hn
    | compare _ _ => simp at hn
    | sign _ _ => simp at hn
    | factor _ => simp at hn
    | atomExpr _ _ => simp at hn
  | .not h1 =>
    cases h' with
    | not h2 =>
      simp only [List.cons_append, List.cons.injEq, true_and] at e
      obtain ⟨rfl, rfl⟩ := Derives.unique h1 h2 e s s'
      exact ⟨rfl, rfl⟩
    | notTest h2 =>
      obtain ⟨k, tl, rfl, _, hk, _⟩ := h2.head
      simp only [List.cons_append, List.cons.injEq] at e
      exact absurd e.1.symm (hk (by omega))
    | ops hn => simp at hn
  | .notTest h1 =>
    cases h' with
    | not h2 =>
      obtain ⟨k, tl, rfl, _, hk, _⟩ := h1.head
      simp only [List.cons_append, List.cons.injEq] at e
      exact absurd e.1 (hk (by omega))
    | notTest h2 => exact Derives.unique h1 h2 e (s.mono (by omega)) (s'.mono (by omega))
    | ops hn => simp at hn
  | .comparison h1 =>
    cases h' with
    | comparison h2 => exact Derives.unique h1 h2 e (s.mono (by omega)) (s'.mono (by omega))
    | compare h2 h3 =>
      rw [List.append_assoc] at e
      obtain ⟨rfl, rfl⟩ := Derives.unique h1 h2 e (s.mono (by omega)) h3.stop
      rw [List.append_cancel_left_eq] at e
      obtain ⟨k, tl, rfl, hk⟩ := h3.head
      subst e
      exact absurd (s.head hk) (by omega)
    | ops hn => simp at hn
  | .compare h1 h2 =>
    rw [List.append_assoc] at e
    cases h' with
    | comparison h3 =>
      obtain ⟨rfl, rfl⟩ := Derives.unique h1 h3 e h2.stop (s'.mono (by omega))
      rw [List.append_cancel_left_eq] at e
      obtain ⟨k, tl, rfl, hk⟩ := h2.head
      subst e
      exact absurd (s'.head hk) (by omega)
    | compare h3 h4 =>
      rw [List.append_assoc] at e
      obtain ⟨rfl, rfl⟩ := Derives.unique h1 h3 e h2.stop h4.stop
      rw [List.append_cancel_left_eq] at e
      obtain ⟨rfl, rfl⟩ := Chain.unique h2 h4 e s s'
      exact ⟨rfl, rfl⟩
    | ops hn => simp at hn
  | .sign hk h1 =>
    cases h' with
    | sign hk' h2 =>
      simp only [List.cons_append, List.cons.injEq] at e
      obtain ⟨rfl, e⟩ := e
      rw [hk] at hk'
      cases hk'
      obtain ⟨rfl, rfl⟩ := Derives.unique h1 h2 e s s'
      exact ⟨rfl, rfl⟩
    | factor h2 =>
      obtain ⟨k, tl, rfl, _, _, hs⟩ := h2.head
      simp only [List.cons_append, List.cons.injEq] at e
      rw [← e.1, hk] at hs
      exact absurd (hs rfl) (by simp)
    | ops hn => simp at hn
  | .factor h1 =>
    cases h' with
    | sign hk' h2 =>
      obtain ⟨k, tl, rfl, _, _, hs⟩ := h1.head
      simp only [List.cons_append, List.cons.injEq] at e
      rw [e.1, hk'] at hs
      exact absurd (hs rfl) (by simp)
    | factor h2 => exact Derives.unique h1 h2 e (s.mono (by omega)) (s'.mono (by omega))
    | ops hn => simp at hn
  | .atomExpr h1 h2 =>
    cases h' with
    | atomExpr h3 h4 =>
      rw [List.append_assoc, List.append_assoc] at e
      obtain ⟨rfl, rfl⟩ := Atom.unique h1 h3 e
      rw [List.append_cancel_left_eq] at e
      obtain ⟨rfl, rfl⟩ := Trailers.unique h2 h4 e s s'
      exact ⟨rfl, rfl⟩
    | ops hn => simp at hn
termination_by structural h

theorem Tail.unique {n : Nat} {a t t' : PyExpr} {ts ts' r r' : List Tok} (h : Tail n a ts t) (h' : Tail n a ts' t')
    (e : ts ++ r = ts' ++ r') (s : Stop n r) (s' : Stop n r') : ts = ts' ∧ t = t' := by
  match h with
  | .nil =>
    cases h' with
    | nil => exact ⟨rfl, rfl⟩
    | cons hk _ _ =>
      simp only [List.nil_append, List.cons_append] at e
      subst e
      exact absurd (s.head (cont_binary hk)) (by omega)
  | .cons hk h1 h2 =>
    cases h' with
    | nil =>
      simp only [List.nil_append, List.cons_append] at e
      subst e
      exact absurd (s'.head (cont_binary hk)) (by omega)
    | cons hk' h3 h4 =>
      simp only [List.cons_append, List.cons.injEq, List.append_assoc] at e
      obtain ⟨rfl, e⟩ := e
      rw [hk] at hk'
      cases hk'
      obtain ⟨rfl, rfl⟩ := Derives.unique h1 h3 e (h2.stop s) (h4.stop s')
      rw [List.append_cancel_left_eq] at e
      obtain ⟨rfl, rfl⟩ := Tail.unique h2 h4 e s s'
      exact ⟨rfl, rfl⟩
termination_by structural h

theorem Chain.unique {ts ts' r r' : List Tok} {c c' : PyChain} (h : Chain ts c) (h' : Chain ts' c') (e : ts ++ r = ts' ++ r')
    (s : Stop 4 r) (s' : Stop 4 r') : ts = ts' ∧ c = c' := by
  match h with
  | .last hk h1 =>
    cases h' with
    | last hk' h2 =>
      simp only [List.cons_append, List.cons.injEq] at e
      obtain ⟨rfl, e⟩ := e
      rw [hk] at hk'
      cases hk'
      obtain ⟨rfl, rfl⟩ := Derives.unique h1 h2 e (s.mono (by omega)) (s'.mono (by omega))
      exact ⟨rfl, rfl⟩
    | more hk' h2 h3 =>
      simp only [List.cons_append, List.cons.injEq, List.append_assoc] at e
      obtain ⟨rfl, e⟩ := e
      obtain ⟨rfl, rfl⟩ := Derives.unique h1 h2 e (s.mono (by omega)) h3.stop
      rw [List.append_cancel_left_eq] at e
      obtain ⟨k, tl, rfl, hk⟩ := h3.head
      subst e
      exact absurd (s.head hk) (by omega)
  | .more hk h1 h2 =>
    cases h' with
    | last hk' h3 =>
      simp only [List.cons_append, List.cons.injEq, List.append_assoc] at e
      obtain ⟨rfl, e⟩ := e
      obtain ⟨rfl, rfl⟩ := Derives.unique h1 h3 e h2.stop (s'.mono (by omega))
      rw [List.append_cancel_left_eq] at e
      obtain ⟨k, tl, rfl, hk⟩ := h2.head
      subst e
      exact absurd (s'.head hk) (by omega)
    | more hk' h3 h4 =>
      simp only [List.cons_append, List.cons.injEq, List.append_assoc] at e
      obtain ⟨rfl, e⟩ := e
      rw [hk] at hk'
      cases hk'
      obtain ⟨rfl, rfl⟩ := Derives.unique h1 h3 e h2.stop h4.stop
      rw [List.append_cancel_left_eq] at e
      obtain ⟨rfl, rfl⟩ := Chain.unique h2 h4 e s s'
      exact ⟨rfl, rfl⟩
termination_by structural h

theorem Atom.unique {ts ts' r r' : List Tok} {t t' : PyExpr} (h : Atom ts t) (h' : Atom ts' t') (e : ts ++ r = ts' ++ r') :
    ts = ts' ∧ t = t' := by
  match h with
  | .paren h1 =>
    cases h' with
    | paren h2 =>
      simp only [List.cons_append, List.cons.injEq, List.append_assoc, true_and] at e
      obtain ⟨rfl, rfl⟩ := Derives.unique h1 h2 e (stop_close rfl) (stop_close rfl)
      exact ⟨rfl, rfl⟩
    | _ => simp at e
  | .number => cases h' <;> simp_all
  | .float => cases h' <;> simp_all
  | .str => cases h' <;> simp_all
  | .true => cases h' <;> simp_all
  | .false => cases h' <;> simp_all
  | .name => cases h' <;> simp_all
termination_by structural h

theorem Trailers.unique {a t t' : PyExpr} {ts ts' r r' : List Tok} (h : Trailers a ts t) (h' : Trailers a ts' t')
    (e : ts ++ r = ts' ++ r') (s : Stop 12 r) (s' : Stop 12 r') : ts = ts' ∧ t = t' := by
  match h with
  | .nil =>
    cases h' with
    | nil => exact ⟨rfl, rfl⟩
    | _ => simp only [List.nil_append, List.cons_append] at e; subst e; exact absurd (s.head rfl) (by omega)
  | .attr h1 =>
    cases h' with
    | nil => simp only [List.nil_append, List.cons_append] at e; subst e; exact absurd (s'.head rfl) (by omega)
    | attr h2 =>
      simp only [List.cons_append, List.cons.injEq, true_and, Tok.name.injEq] at e
      obtain ⟨rfl, e⟩ := e
      obtain ⟨rfl, rfl⟩ := Trailers.unique h1 h2 e s s'
      exact ⟨rfl, rfl⟩
    | _ => simp at e
  | .item h1 h2 =>
    cases h' with
    | nil => simp only [List.nil_append, List.cons_append] at e; subst e; exact absurd (s'.head rfl) (by omega)
    | item h3 h4 =>
      simp only [List.cons_append, List.cons.injEq, true_and, List.append_assoc] at e
      obtain ⟨rfl, rfl⟩ := Derives.unique h1 h3 e (stop_close rfl) (stop_close rfl)
      rw [List.append_cancel_left_eq] at e
      simp only [List.cons_append, List.cons.injEq, true_and] at e
      obtain ⟨rfl, rfl⟩ := Trailers.unique h2 h4 e s s'
      exact ⟨rfl, rfl⟩
    | _ => simp at e
  | .call0 h1 =>
    cases h' with
    | nil => simp only [List.nil_append, List.cons_append] at e; subst e; exact absurd (s'.head rfl) (by omega)
    | call0 h2 =>
      simp only [List.cons_append, List.cons.injEq, true_and] at e
      obtain ⟨rfl, rfl⟩ := Trailers.unique h1 h2 e s s'
      exact ⟨rfl, rfl⟩
    | call1 h2 h3 =>
      obtain ⟨k, tl, rfl, hk, _⟩ := h2.head
      simp only [List.cons_append, List.cons.injEq, true_and] at e
      exact absurd e.1.symm hk
    | call2 h2 h3 h4 =>
      obtain ⟨k, tl, rfl, hk, _⟩ := h2.head
      simp only [List.cons_append, List.cons.injEq, true_and] at e
      exact absurd e.1.symm hk
    | _ => simp at e
  | .call1 h1 h2 =>
    cases h' with
    | nil => simp only [List.nil_append, List.cons_append] at e; subst e; exact absurd (s'.head rfl) (by omega)
    | call0 h3 =>
      obtain ⟨k, tl, rfl, hk, _⟩ := h1.head
      simp only [List.cons_append, List.cons.injEq, true_and] at e
      exact absurd e.1 hk
    | call1 h3 h4 =>
      simp only [List.cons_append, List.cons.injEq, true_and, List.append_assoc] at e
      obtain ⟨rfl, rfl⟩ := Derives.unique h1 h3 e (stop_close rfl) (stop_close rfl)
      rw [List.append_cancel_left_eq] at e
      simp only [List.cons_append, List.cons.injEq, true_and] at e
      obtain ⟨rfl, rfl⟩ := Trailers.unique h2 h4 e s s'
      exact ⟨rfl, rfl⟩
    | call2 h3 h4 h5 =>
      simp only [List.cons_append, List.cons.injEq, true_and, List.append_assoc] at e
      obtain ⟨rfl, rfl⟩ := Derives.unique h1 h3 e (stop_close rfl) (stop_close rfl)
      rw [List.append_cancel_left_eq] at e
      simp at e
    | _ => simp at e
  | .call2 h1 h2 h3 =>
    cases h' with
    | nil => simp only [List.nil_append, List.cons_append] at e; subst e; exact absurd (s'.head rfl) (by omega)
    | call0 h4 =>
      obtain ⟨k, tl, rfl, hk, _⟩ := h1.head
      simp only [List.cons_append, List.cons.injEq, true_and] at e
      exact absurd e.1 hk
    | call1 h4 h5 =>
      simp only [List.cons_append, List.cons.injEq, true_and, List.append_assoc] at e
      obtain ⟨rfl, rfl⟩ := Derives.unique h1 h4 e (stop_close rfl) (stop_close rfl)
      rw [List.append_cancel_left_eq] at e
      simp at e
    | call2 h4 h5 h6 =>
      simp only [List.cons_append, List.cons.injEq, true_and, List.append_assoc] at e
      obtain ⟨rfl, rfl⟩ := Derives.unique h1 h4 e (stop_close rfl) (stop_close rfl)
      rw [List.append_cancel_left_eq] at e
      simp only [List.cons_append, List.cons.injEq, true_and, List.append_assoc] at e
      obtain ⟨rfl, rfl⟩ := Derives.unique h2 h5 e (stop_close rfl) (stop_close rfl)
      rw [List.append_cancel_left_eq] at e
      simp only [List.cons_append, List.cons.injEq, true_and] at e
      obtain ⟨rfl, rfl⟩ := Trailers.unique h3 h6 e s s'
      exact ⟨rfl, rfl⟩
    | _ => simp at e
termination_by structural h

end

/-- A list of tokens has at most one tree. -/
theorem Derives.tree_unique {n : Nat} {ts : List Tok} {t t' : PyExpr} (h : Derives n ts t) (h' : Derives n ts t') : t = t' :=
  (Derives.unique (r := []) (r' := []) h h' rfl Stop.nil Stop.nil).2

end Zserio.Expression
