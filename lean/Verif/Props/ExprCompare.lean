import Verif.Spec.ExprCompare
import Verif.Props.ExprParse
/-
Property C123: the comparison of expressions.
-/
namespace Zserio.ExprParse

/-- the tree whose tokens are the formatted text: conditions are in parentheses -/
def Tree.par : Tree → Tree
  | .paren l e r => .paren l.plain e.par r.plain
  | .call e l r => .call e.par l.plain r.plain
  | .array e l i r => .array e.par l.plain i.par r.plain
  | .dot e d n => .dot e.par d.plain n.plain
  | .isset o l a c b r => .isset o.plain l.plain a.par c.plain b.par r.plain
  | .function o l e r => .function o.plain l.plain e.par r.plain
  | .unary o e => .unary o.plain e.par
  | .binary a o b => .binary a.par o.plain b.par
  | .rshift a o o' b => .rshift a.par o.plain o'.plain b.par
  | .ternary a q b c d => .ternary (wrap a.par) q.plain b.par c.plain d.par
  | .atom t => .atom t.plain

/-- the other direction -/
def Tree.unpar : Tree → Tree
  | .paren l e r => .paren l e.unpar r
  | .call e l r => .call e.unpar l r
  | .array e l i r => .array e.unpar l i.unpar r
  | .dot e d n => .dot e.unpar d n
  | .isset o l a c b r => .isset o l a.unpar c b.unpar r
  | .function o l e r => .function o l e.unpar r
  | .unary o e => .unary o e.unpar
  | .binary a o b => .binary a.unpar o b.unpar
  | .rshift a o o' b => .rshift a.unpar o o' b.unpar
  | .ternary (.paren _ a _) q b c d => .ternary a.unpar q b.unpar c d.unpar
  | .ternary a q b c d => .ternary a q b c d
  | .atom t => .atom t

theorem unpar_par (t : Tree) : t.par.unpar = t.plain := by
  induction t <;> simp_all [Tree.par, Tree.unpar, Tree.plain, wrap]

theorem plain_eq {t : Token} {k : Kind} (h : t.kind = k) : t.plain = ⟨k, 0, 0⟩ := by rw [Token.plain, h]

theorem par_tokens (t : Tree) (hp : t.Proper) : t.par.tokens = t.formatted.map fun k => ⟨k, 0, 0⟩ := by
  induction t with
  | paren l e r ih => simp [Tree.par, Tree.tokens, Tree.formatted, ih hp.2.1, plain_eq hp.1, plain_eq hp.2.2]
  | call e l r ih => simp [Tree.par, Tree.tokens, Tree.formatted, ih hp.1, plain_eq hp.2.1, plain_eq hp.2.2]
  | array e l i r ih ih' =>
    simp [Tree.par, Tree.tokens, Tree.formatted, ih hp.1, ih' hp.2.2.1, plain_eq hp.2.1, plain_eq hp.2.2.2]
  | dot e d n ih => simp [Tree.par, Tree.tokens, Tree.formatted, ih hp.1, plain_eq hp.2.1, plain_eq (t := n) rfl]
  | isset o l a c b r iha ihb =>
    obtain ⟨p1, p2, p3, p4, p5, p6⟩ := hp
    simp [Tree.par, Tree.tokens, Tree.formatted, iha p3, ihb p5, plain_eq p1, plain_eq p2, plain_eq p4, plain_eq p6]
  | function o l e r ih =>
    obtain ⟨p1, p2, p3, p4⟩ := hp
    simp [Tree.par, Tree.tokens, Tree.formatted, ih p3, plain_eq p2, plain_eq p4, plain_eq (t := o) rfl]
  | unary o e ih => simp [Tree.par, Tree.tokens, Tree.formatted, ih hp.2, Token.plain]
  | binary a o b iha ihb => simp [Tree.par, Tree.tokens, Tree.formatted, iha hp.1, ihb hp.2.2, Token.plain]
  | rshift a o o' b iha ihb =>
    simp [Tree.par, Tree.tokens, Tree.formatted, iha hp.1, ihb hp.2.2.2, plain_eq hp.2.1, plain_eq hp.2.2.1]
  | ternary a q b c d iha ihb ihd =>
    obtain ⟨p1, p2, p3, p4, p5⟩ := hp
    simp [Tree.par, Tree.tokens, Tree.formatted, wrap, iha p1, ihb p3, ihd p5, plain_eq p2, plain_eq p4]
  | atom t => rfl

theorem par_line (t : Tree) : t.par.line = t.line := by cases t <;> rfl

theorem par_proper (t : Tree) (hp : t.Proper) : t.par.Proper := by
  induction t <;> simp_all [Tree.par, Tree.Proper, wrap, Token.plain]

theorem par_grouped (t : Tree) (hg : t.Grouped) : t.par.Grouped := by
  induction t with
  | binary a o b iha ihb =>
    obtain ⟨h1, h2, h3, h4⟩ := hg
    refine ⟨iha h1, ?_, ihb h3, ?_⟩
    · rw [par_line]; exact h2
    · rw [par_line]; exact h4
  | ternary a q b c d iha ihb ihd =>
    obtain ⟨h1, h2, h3, h4⟩ := hg
    exact ⟨iha h1, by simp [wrap_line], ihb h3, ihd h4⟩
  | _ => simp_all [Tree.par, Tree.Grouped, par_line]

theorem plain_formatted (t : Tree) : t.plain.formatted = t.formatted := by
  induction t <;> simp_all [Tree.plain, Tree.formatted, Token.plain]

theorem formatted_inj (t t' : Tree) (hp : t.Proper) (hg : t.Grouped) (hp' : t'.Proper) (hg' : t'.Grouped) :
    t.formatted = t'.formatted ↔ t.plain = t'.plain := by
  constructor
  · intro h
    have := C106_unique t.par t'.par (by rw [par_tokens t hp, par_tokens t' hp', h]) (par_proper t hp) (par_grouped t hg)
      (par_proper t' hp') (par_grouped t' hg')
    rw [← unpar_par, ← unpar_par, this]
  · intro h; rw [← plain_formatted t, h, plain_formatted]

theorem removeParentheses_parens (t : Tree) : Parens t.removeParentheses t := by
  induction t with
  | paren l e r ih => exact .more l r ih
  | _ => exact .none

theorem removeParentheses_ne (t : Tree) : ∀ l e r, t.removeParentheses ≠ .paren l e r := by
  induction t with
  | paren l e r ih => exact ih
  | _ => intro l e r h; cases h

theorem Parens.unique {e t : Tree} (h : Parens e t) (he : ∀ l x r, e ≠ .paren l x r) : t.removeParentheses = e := by
  induction h with
  | none => cases e <;> first | rfl | exact absurd rfl (he _ _ _)
  | more l r _ ih => exact ih

theorem removeParentheses_wf (t : Tree) (hp : t.Proper) (hg : t.Grouped) : t.removeParentheses.Proper ∧ t.removeParentheses.Grouped := by
  induction t with
  | paren l e r ih => exact ih hp.2.1 hg
  | _ => exact ⟨hp, hg⟩

/-- **C123**: expressions which were read count as the same if and only if they are: they have the same tree, apart from positions and from
parentheses around the whole. -/
theorem C123_compare (ts ts' : List Token) (t t' : Tree) (h : readExpr ts = some t) (h' : readExpr ts' = some t') :
    sameText t t' = true ↔ ∃ e e', Parens e t ∧ Parens e' t' ∧ (∀ l x r, e ≠ .paren l x r) ∧ (∀ l x r, e' ≠ .paren l x r) ∧ e.plain = e'.plain := by
  obtain ⟨_, hp, hg⟩ := C106_accepted ts t h
  obtain ⟨_, hp', hg'⟩ := C106_accepted ts' t' h'
  obtain ⟨w1, w2⟩ := removeParentheses_wf t hp hg
  obtain ⟨w1', w2'⟩ := removeParentheses_wf t' hp' hg'
  rw [sameText, beq_iff_eq, formatted_inj _ _ w1 w2 w1' w2']
  constructor
  · intro he
    exact ⟨_, _, removeParentheses_parens t, removeParentheses_parens t', removeParentheses_ne t, removeParentheses_ne t', he⟩
  · rintro ⟨e, e', h1, h2, h3, h4, h5⟩
    rw [h1.unique h3, h2.unique h4]; exact h5

/-- **C123**: in particular, the same text at another place, and the same text in parentheses, count as the same. -/
theorem C123_same (t t' : Tree) (l r : Token) (h : t.plain = t'.plain) : sameText t t' = true ∧ sameText (.paren l t r) t' = true := by
  have : ∀ t t' : Tree, t.plain = t'.plain → t.removeParentheses.formatted = t'.removeParentheses.formatted := by
    intro t
    induction t with
    | paren l e r ih =>
      intro t' h
      cases t' <;> simp only [Tree.plain, reduceCtorEq, Tree.paren.injEq] at h
      rename_i l' e' r'
      exact ih e' h.2.1
    | _ =>
      intro t' h
      rw [← plain_formatted, ← plain_formatted t'.removeParentheses]
      cases t' <;> first | (exact congrArg Tree.formatted h) | (simp only [Tree.plain, reduceCtorEq] at h)
  exact ⟨by rw [sameText, beq_iff_eq]; exact this t t' h, by rw [sameText, beq_iff_eq]; exact this t t' h⟩

theorem dotted_formatted : ∀ (ps : List Nat) (e : Tree), (dotted e ps).formatted = e.formatted ++ ps.flatMap fun p => [.dot, .id p]
  | [], e => by simp [dotted]
  | p :: ps, e => by rw [dotted, dotted_formatted ps]; simp [Tree.formatted]

theorem dotted_wf : ∀ (ps : List Nat) (e : Tree), e.Proper → e.Grouped → 14 ≤ e.line →
    (dotted e ps).Proper ∧ (dotted e ps).Grouped ∧ 14 ≤ (dotted e ps).line
  | [], _, h1, h2, h3 => ⟨h1, h2, h3⟩
  | p :: ps, e, h1, h2, h3 => dotted_wf ps _ ⟨h1, rfl, p, rfl⟩ ⟨h2, h3⟩ (Nat.le_refl 14)

theorem shift_dots : ∀ (ps : List Nat) (p n : Nat), (Kind.id p) :: ((ps ++ [n]).flatMap fun q => [Kind.dot, .id q]) =
    (p :: ps).flatMap (fun q => [Kind.id q, .dot]) ++ [.id n]
  | [], p, n => rfl
  | q :: ps, p, n => by
    have := shift_dots ps q n
    simp only [List.cons_append, List.flatMap_cons, List.nil_append] at this ⊢
    rw [this]

theorem behind_formatted (pre : List Nat) (n : Nat) : (behind pre n).formatted = (pre.flatMap fun p => [Kind.id p, .dot]) ++ [.id n] := by
  cases pre with
  | nil => rfl
  | cons p ps => rw [behind, dotted_formatted, ← shift_dots]; rfl

theorem behind_wf (pre : List Nat) (n : Nat) : (behind pre n).Proper ∧ (behind pre n).Grouped ∧ 14 ≤ (behind pre n).line := by
  cases pre with
  | nil => exact ⟨.inr (.inr ⟨n, rfl⟩), trivial, by simp [behind, Tree.line]⟩
  | cons p ps => exact dotted_wf _ _ (.inr (.inr ⟨p, rfl⟩)) trivial (by simp [Tree.line])

theorem seen_formatted (inner : Nat → Bool) (pre : List Nat) (t : Tree) : (t.seen inner pre).formatted = t.formattedAfter inner pre := by
  induction t with
  | atom t =>
    simp only [Tree.seen, Tree.formattedAfter]
    split
    · rename_i n hn
      rw [hn]
      split
      · rename_i hi; rw [behind_formatted]; simp [hi]
      · rename_i hi; simp [Tree.formatted, hn, hi]
    · simp [Tree.formatted]
  | _ => simp_all [Tree.seen, Tree.formattedAfter, Tree.formatted]

theorem seen_proper (inner : Nat → Bool) (pre : List Nat) (t : Tree) (hp : t.Proper) : (t.seen inner pre).Proper := by
  induction t with
  | atom t =>
    simp only [Tree.seen]
    split
    · split
      · exact (behind_wf pre _).1
      · exact hp
    · exact hp
  | _ => simp_all [Tree.seen, Tree.Proper]

theorem seen_line (inner : Nat → Bool) (pre : List Nat) (t : Tree) :
    (t.seen inner pre).line = t.line ∨ (t.line = 15 ∧ 14 ≤ (t.seen inner pre).line) := by
  cases t with
  | atom t =>
    simp only [Tree.seen]
    split
    · split
      · exact .inr ⟨rfl, (behind_wf pre _).2.2⟩
      · exact .inl rfl
    · exact .inl rfl
  | _ => exact .inl rfl

theorem binary_line_lt (a : Tree) (o : Token) (b : Tree) : (Tree.binary a o b).line ≤ 11 := by
  simp only [Tree.line]
  split
  · rename_i s _; cases s <;> simp [Sym.line]
  · omega

theorem seen_grouped (inner : Nat → Bool) (pre : List Nat) (t : Tree) (hg : t.Grouped) : (t.seen inner pre).Grouped := by
  have key : ∀ (x : Tree) (n : Nat), n ≤ 14 → n ≤ x.line → n ≤ (x.seen inner pre).line := by
    intro x n h1 h2
    rcases seen_line inner pre x with h | ⟨_, h⟩ <;> omega
  induction t with
  | atom t =>
    simp only [Tree.seen]
    split
    · split
      · exact (behind_wf pre _).2.1
      · trivial
    · trivial
  | paren l e r ih => exact ih hg
  | call e l r ih => exact ⟨ih hg.1, key e 14 (by omega) hg.2⟩
  | array e l i r ih ih' => exact ⟨ih hg.1, key e 14 (by omega) hg.2.1, ih' hg.2.2⟩
  | dot e d n ih => exact ⟨ih hg.1, key e 14 (by omega) hg.2⟩
  | isset o l a c b r iha ihb => exact ⟨iha hg.1, ihb hg.2⟩
  | function o l e r ih => exact ih hg
  | unary o e ih => exact ⟨ih hg.1, key e 12 (by omega) hg.2⟩
  | binary a o b iha ihb =>
    obtain ⟨h1, h2, h3, h4⟩ := hg
    have hl := binary_line_lt a o b
    have he : (Tree.binary (a.seen inner pre) o (b.seen inner pre)).line = (Tree.binary a o b).line := rfl
    exact ⟨iha h1, he ▸ key a _ (by omega) h2, ihb h3, he ▸ key b (_ + 1) (by omega) h4⟩
  | rshift a o o' b iha ihb => exact ⟨iha hg.1, key a 9 (by omega) hg.2.1, ihb hg.2.2.1, key b 10 (by omega) hg.2.2.2⟩
  | ternary a q b c d iha ihb ihd => exact ⟨iha hg.1, key a 2 (by omega) hg.2.1, ihb hg.2.2.1, ihd hg.2.2.2⟩

/-- **C123**: with a dot prefix, the first expression counts as the same as the second if and only if it is what the second looks like from
outside, where its fields, functions and parameters are reached by the prefix. -/
theorem C123_prefix (inner : Nat → Bool) (pre : List Nat) (ts ts' : List Token) (t t' : Tree) (h : readExpr ts = some t)
    (h' : readExpr ts' = some t') : sameTextAfter inner pre t t' = true ↔ ∃ e e', Parens e t ∧ Parens e' t' ∧
      (∀ l x r, e ≠ .paren l x r) ∧ (∀ l x r, e' ≠ .paren l x r) ∧ e.plain = (e'.seen inner pre).plain := by
  obtain ⟨_, hp, hg⟩ := C106_accepted ts t h
  obtain ⟨_, hp', hg'⟩ := C106_accepted ts' t' h'
  obtain ⟨w1, w2⟩ := removeParentheses_wf t hp hg
  obtain ⟨w1', w2'⟩ := removeParentheses_wf t' hp' hg'
  rw [sameTextAfter, beq_iff_eq, ← seen_formatted, formatted_inj _ _ w1 w2 (seen_proper inner pre _ w1') (seen_grouped inner pre _ w2')]
  constructor
  · intro he
    exact ⟨_, _, removeParentheses_parens t, removeParentheses_parens t', removeParentheses_ne t, removeParentheses_ne t', he⟩
  · rintro ⟨e, e', h1, h2, h3, h4, h5⟩
    rw [h1.unique h3, h2.unique h4]; exact h5

/-- `a.b > 1` from outside, `b > 1` in the type of `a` -/
example : ∃ t t', readExpr (line 0 [.id 0, .dot, .id 1, .sym .gt, .lit 1]) = some t ∧ readExpr (line 0 [.id 1, .sym .gt, .lit 1]) = some t' ∧
    sameTextAfter (fun _ => true) [0] t t' = true ∧ sameTextAfter (fun _ => false) [0] t t' = false := by
  refine ⟨_, _, rfl, rfl, ?_, ?_⟩ <;> decide +kernel

/-! Non-trivial instances: `(a ? b : c)` at two places, and `(a) ? b : c`, which is another expression. -/

example : ∃ t t' t'', readExpr (line 0 [.lparen, .id 0, .question, .id 1, .colon, .id 2, .rparen]) = some t ∧
    readExpr (line 7 [.id 0, .question, .id 1, .colon, .id 2]) = some t' ∧
    readExpr (line 7 [.lparen, .id 0, .rparen, .question, .id 1, .colon, .id 2]) = some t'' ∧
    sameText t t' = true ∧ sameText t' t'' = false := by
  refine ⟨_, _, _, rfl, rfl, rfl, ?_, ?_⟩ <;> decide +kernel

end Zserio.ExprParse
