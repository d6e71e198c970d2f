import Verif.Spec.ExprParse
/-
Lemmas about the parser of expressions.
-/
set_option linter.unusedSimpArgs false
set_option linter.unusedVariables false
namespace Zserio.ExprParse

/-- the line of the table of an extension -/
def Extension.line : Extension → Nat
  | .call => 14
  | .array => 14
  | .dot => 14
  | .rshift => 9
  | .ternary => 1
  | .binary k => k - 3

/-- the tokens after an expression do not extend a part of it -/
def Ready (t : Tree) (ts : List Token) : Prop := ∀ x, extension ts = some x → x.line ≤ t.line ∧ (x = .ternary → 1 < t.line)

theorem binaryPrec_line (s : Sym) (k : Nat) : binaryPrec s = some k ↔ ∃ n, s.line = some n ∧ k = n + 3 := by
  cases s <;> simp [binaryPrec, Sym.line] <;> omega

theorem line_range {s : Sym} {n : Nat} (h : s.line = some n) : 2 ≤ n ∧ n ≤ 11 := by
  cases s <;> simp [Sym.line] at h <;> omega

theorem isUnary_iff (s : Sym) : isUnary s = true ↔ s.IsUnary := by
  cases s <;> simp [isUnary, Sym.IsUnary]

theorem extension_nil : extension [] = none := rfl

/-- what the extensions are -/
theorem extension_some {ts : List Token} {x : Extension} (h : extension ts = some x) :
    (x = .call ∧ ∃ l r rest, ts = l :: r :: rest ∧ l.kind = .lparen ∧ r.kind = .rparen) ∨
    (x = .array ∧ ∃ l rest, ts = l :: rest ∧ l.kind = .lbracket) ∨
    (x = .dot ∧ ∃ d n i rest, ts = d :: n :: rest ∧ d.kind = .dot ∧ n.kind = .id i) ∨
    (x = .rshift ∧ ∃ o o' rest, ts = o :: o' :: rest ∧ o.kind = .sym .gt ∧ o'.kind = .sym .gt) ∨
    (x = .ternary ∧ ∃ q rest, ts = q :: rest ∧ q.kind = .question) ∨
    (∃ s n o rest, x = .binary (n + 3) ∧ ts = o :: rest ∧ o.kind = .sym s ∧ s.line = some n) := by
  unfold extension at h
  split at h
  · cases h; exact Or.inl ⟨rfl, _, _, _, rfl, rfl, rfl⟩
  · cases h; exact Or.inr (Or.inl ⟨rfl, _, _, rfl, rfl⟩)
  · cases h; exact Or.inr (Or.inr (Or.inl ⟨rfl, _, _, _, _, rfl, rfl, rfl⟩))
  · cases h; exact Or.inr (Or.inr (Or.inr (Or.inl ⟨rfl, _, _, _, rfl, rfl, rfl⟩)))
  · rename_i s _ _ rest _
    obtain ⟨k, hk, rfl⟩ := Option.map_eq_some_iff.1 h
    obtain ⟨n, hn, rfl⟩ := (binaryPrec_line s k).1 hk
    exact Or.inr (Or.inr (Or.inr (Or.inr (Or.inr ⟨s, n, _, _, rfl, rfl, rfl, hn⟩))))
  · cases h; exact Or.inr (Or.inr (Or.inr (Or.inr (Or.inl ⟨rfl, _, _, rfl, rfl⟩))))
  · cases h

theorem extension_line {ts : List Token} {x : Extension} (h : extension ts = some x) :
    1 ≤ x.line ∧ x.line ≤ 14 ∧ (x.line = 14 → 20 ≤ x.prec) ∧ (x.line ≠ 14 → x.prec = x.line + 3 ∧ x.line ≤ 11) ∧ (x ≠ .ternary → 2 ≤ x.line) := by
  rcases extension_some h with ⟨rfl, _⟩ | ⟨rfl, _⟩ | ⟨rfl, _⟩ | ⟨rfl, _⟩ | ⟨rfl, _⟩ | ⟨s, n, o, rest, rfl, _, _, hn⟩
  · simp [Extension.line, Extension.prec]
  · simp [Extension.line, Extension.prec]
  · simp [Extension.line, Extension.prec]
  · simp [Extension.line, Extension.prec]
  · simp [Extension.line, Extension.prec]
  · have := line_range hn
    simp only [Extension.line, Extension.prec, Nat.add_sub_cancel]
    exact ⟨by omega, by omega, by omega, fun _ => ⟨trivial, by omega⟩, fun _ => by omega⟩

/-- the loop stops -/
def Stops (p : Nat) (ts : List Token) : Prop := ∀ x, extension ts = some x → x.prec < p

theorem ready_of_stops {t : Tree} {k : Nat} {ts : List Token} (h : Stops (k + 1) ts) (hk : k ≤ 15) (h2 : 5 ≤ k) (hl : k ≤ t.line + 3) : Ready t ts := by
  intro x hx
  have h1 := h x hx
  obtain ⟨a, b, c, d, e⟩ := extension_line hx
  have hx14 : x.line ≠ 14 := fun h => by have := c h; omega
  have := d hx14
  refine ⟨by omega, fun _ => by omega⟩

theorem not_stops_four {ts : List Token} (h : Stops 4 ts) : extension ts = none := by
  cases hx : extension ts with
  | none => rfl
  | some x =>
    have := h x hx
    obtain ⟨a, b, c, d, e⟩ := extension_line hx
    by_cases h14 : x.line = 14
    · have := c h14
      omega
    · have := d h14
      omega

theorem ready_none {t : Tree} {ts : List Token} (h : extension ts = none) : Ready t ts := fun x hx => by rw [h] at hx; cases hx

theorem ready_fourteen {t : Tree} {ts : List Token} (h : 14 ≤ t.line) : Ready t ts := by
  intro x hx
  obtain ⟨a, b, c, d, e⟩ := extension_line hx
  exact ⟨by omega, fun _ => by omega⟩

/-! ### What is parsed has the right tokens and is grouped -/

/-- the result of `expression(p)` -/
def Result (p : Nat) (ts : List Token) (t : Tree) (rest : List Token) : Prop :=
  t.Proper ∧ t.Grouped ∧ p ≤ t.line + 3 ∧ ts = t.tokens ++ rest ∧ Stops p rest

theorem binary_line (a : Tree) (o : Token) (b : Tree) {s : Sym} {n : Nat} (ho : o.kind = .sym s) (hn : s.line = some n) :
    (Tree.binary a o b).line = n := by
  simp [Tree.line, ho, hn]

theorem parse_sound (f : Nat) :
    (∀ p ts t rest, p ≤ 15 → parseExpr f p ts = some (t, rest) → Result p ts t rest) ∧
    (∀ ts t rest, parsePrefix f ts = some (t, rest) → t.Proper ∧ t.Grouped ∧ 12 ≤ t.line ∧ ts = t.tokens ++ rest ∧ Ready t rest) ∧
    (∀ p e ts t rest, p ≤ 15 → e.Proper → e.Grouped → p ≤ e.line + 3 → Ready e ts → parseLoop f p e ts = some (t, rest) →
      Result p (e.tokens ++ ts) t rest) := by
  induction f with
  | zero =>
    refine ⟨?_, ?_, ?_⟩
    · intro p ts t rest _ h
      rw [parseExpr] at h
      cases h
    · intro ts t rest h
      rw [parsePrefix] at h
      cases h
    · intro p e ts t rest _ _ _ _ _ h
      rw [parseLoop] at h
      cases h
  | succ f ih =>
    obtain ⟨ihE, ihP, ihL⟩ := ih
    refine ⟨?_, ?_, ?_⟩
    · intro p ts t rest hp h
      rw [parseExpr] at h
      split at h
      · cases h
      · rename_i e rest' he
        obtain ⟨a, b, c, d, r⟩ := ihP _ _ _ he
        rw [d]
        exact ihL p e rest' t rest hp a b (by omega) r h
    · intro ts t rest h
      cases ts with
      | nil => simp [parsePrefix] at h
      | cons t₀ ts =>
        unfold parsePrefix at h
        simp only at h
        revert h
        have prim : ∀ {t : Tree} {ts}, t.line = 15 → Ready t ts := fun h => ready_fourteen (by omega)
        have fn : (t₀.kind = .lengthof ∨ t₀.kind = .valueof ∨ t₀.kind = .numbits) →
            (match ts with
              | [] => none
              | l :: ts =>
                if l.kind = .lparen then
                  match parseExpr f 0 ts with
                  | some (e, r :: rest) => if r.kind = .rparen then some (Tree.function t₀ l e r, rest) else none
                  | _ => none
                else none) = some (t, rest) →
            t.Proper ∧ t.Grouped ∧ 12 ≤ t.line ∧ t₀ :: ts = t.tokens ++ rest ∧ Ready t rest := by
          intro hk h
          split at h
          · cases h
          · rename_i l ts'
            split at h
            · rename_i hl
              split at h
              · rename_i e r rest' he
                split at h
                · rename_i hr
                  cases h
                  obtain ⟨a, b, _, d, _⟩ := ihE _ _ _ _ (by omega) he
                  exact ⟨⟨hk, hl, a, hr⟩, b, by simp [Tree.line], by simp [Tree.tokens, d], prim rfl⟩
                · cases h
              · cases h
            · cases h
        intro h
        split at h
        · rename_i hk
          split at h
          · rename_i e r rest' he
            split at h
            · rename_i hr
              cases h
              obtain ⟨a, b, _, d, _⟩ := ihE _ _ _ _ (by omega) he
              exact ⟨⟨hk, a, hr⟩, b, by simp [Tree.line], by simp [Tree.tokens, d], prim rfl⟩
            · cases h
          · cases h
        · rename_i hk
          split at h
          · cases h
          · rename_i l ts'
            split at h
            · rename_i hl
              split at h
              · rename_i a c rest' ha
                split at h
                · rename_i hc
                  split at h
                  · rename_i b r rest'' hb
                    split at h
                    · rename_i hr
                      cases h
                      obtain ⟨a1, a2, _, a3, _⟩ := ihE _ _ _ _ (by omega) ha
                      obtain ⟨b1, b2, _, b3, _⟩ := ihE _ _ _ _ (by omega) hb
                      exact ⟨⟨hk, hl, a1, hc, b1, hr⟩, ⟨a2, b2⟩, by simp [Tree.line], by simp [Tree.tokens, a3, b3], prim rfl⟩
                    · cases h
                  · cases h
                · cases h
              · cases h
            · cases h
        · rename_i s hk
          split at h
          · rename_i hs
            split at h
            · rename_i e rest' he
              cases h
              obtain ⟨a, b, c, d, r⟩ := ihE _ _ _ _ (by omega) he
              exact ⟨⟨⟨s, hk, (isUnary_iff s).1 hs⟩, a⟩, ⟨b, by omega⟩, by simp [Tree.line], by simp [Tree.tokens, d],
                ready_of_stops (k := 14) r (by omega) (by omega) (by simp [Tree.line])⟩
            · cases h
          · cases h
        · rename_i n hk
          cases h
          exact ⟨Or.inl ⟨n, hk⟩, trivial, by simp [Tree.line], by simp [Tree.tokens], prim rfl⟩
        · rename_i hk
          cases h
          exact ⟨Or.inr (Or.inl hk), trivial, by simp [Tree.line], by simp [Tree.tokens], prim rfl⟩
        · rename_i n hk
          cases h
          exact ⟨Or.inr (Or.inr ⟨n, hk⟩), trivial, by simp [Tree.line], by simp [Tree.tokens], prim rfl⟩
        all_goals first
          | (cases h; done)
          | skip
        refine fn ?_ h
        cases hk : t₀.kind <;> simp_all
    · intro p e ts t rest hp he hg hl hready h
      rw [parseLoop] at h
      split at h
      · rename_i hx
        cases h
        exact ⟨he, hg, hl, rfl, fun x hx' => by rw [hx] at hx'; cases hx'⟩
      · rename_i x hx
        split at h
        · rename_i hlt
          cases h
          refine ⟨he, hg, hl, rfl, fun x' hx' => ?_⟩
          rw [hx] at hx'
          cases hx'
          exact hlt
        · rename_i hge
          obtain ⟨hr1, hr2⟩ := hready x hx
          have hlines := extension_line hx
          rcases extension_some hx with ⟨rfl, l, r, rest', rfl, hk1, hk2⟩ | ⟨rfl, l, rest', rfl, hk1⟩ | ⟨rfl, d, n, i, rest', rfl, hk1, hk2⟩ |
            ⟨rfl, o, o', rest', rfl, hk1, hk2⟩ | ⟨rfl, q, rest', rfl, hk1⟩ | ⟨s, n, o, rest', rfl, rfl, hk, hn⟩
          · have := ihL p (.call e l r) _ _ _ hp ⟨he, hk1, hk2⟩ ⟨hg, hr1⟩ (by simp [Tree.line]; omega) (ready_fourteen (by simp [Tree.line])) h
            simpa [Tree.tokens] using this
          · simp only at h
            split at h
            · rename_i i r rest'' hi
              split at h
              · rename_i hr
                obtain ⟨a, b, _, d, _⟩ := ihE _ _ _ _ (by omega) hi
                have := ihL p (.array e l i r) _ _ _ hp ⟨he, hk1, a, hr⟩ ⟨hg, hr1, b⟩ (by simp [Tree.line]; omega)
                  (ready_fourteen (by simp [Tree.line])) h
                simpa [Tree.tokens, d] using this
              · cases h
            · cases h
          · have := ihL p (.dot e d n) _ _ _ hp ⟨he, hk1, i, hk2⟩ ⟨hg, hr1⟩ (by simp [Tree.line]; omega) (ready_fourteen (by simp [Tree.line])) h
            simpa [Tree.tokens] using this
          · simp only at h
            split at h
            · rename_i b rest'' hb
              obtain ⟨b1, b2, b3, b4, b5⟩ := ihE _ _ _ _ (by omega) hb
              have := ihL p (.rshift e o o' b) _ _ _ hp ⟨he, hk1, hk2, b1⟩ ⟨hg, hr1, b2, by omega⟩
                (by simp [Tree.line, Extension.prec] at *; omega)
                (ready_of_stops (k := 12) b5 (by omega) (by omega) (by simp [Tree.line])) h
              simpa [Tree.tokens, b4] using this
            · cases h
          · simp only at h
            split at h
            · rename_i b c rest'' hb
              split at h
              · rename_i hc
                split at h
                · rename_i d rest3 hd
                  obtain ⟨b1, b2, b3, b4, b5⟩ := ihE _ _ _ _ (by omega) hb
                  obtain ⟨d1, d2, d3, d4, d5⟩ := ihE _ _ _ _ (by omega) hd
                  have := ihL p (.ternary e q b c d) _ _ _ hp ⟨he, hk1, b1, hc, d1⟩ ⟨hg, hr2 rfl, b2, d2⟩
                    (by simp [Tree.line, Extension.prec] at *; omega) (ready_none (not_stops_four d5)) h
                  simpa [Tree.tokens, b4, d4] using this
                · cases h
              · cases h
            · cases h
          · simp only at h
            have hrange := line_range hn
            split at h
            · rename_i b rest'' hb
              obtain ⟨b1, b2, b3, b4, b5⟩ := ihE _ _ _ _ (by omega) hb
              have hbl := binary_line e o b hk hn
              simp only [Extension.line, Extension.prec, Nat.add_sub_cancel] at hr1 hge
              have := ihL p (.binary e o b) _ _ _ hp ⟨he, ⟨s, n, hk, hn⟩, b1⟩ ⟨hg, by omega, b2, by omega⟩ (by omega)
                (ready_of_stops (k := n + 3) b5 (by omega) (by omega) (by omega)) h
              simpa [Tree.tokens, b4] using this
            · cases h

/-! ### What is grouped is found -/

/-- nested calls on the way to the first token -/
def Tree.spine : Tree → Nat
  | .call e _ _ => e.spine + 1
  | .array e _ _ _ => e.spine + 1
  | .dot e _ _ => e.spine + 1
  | .binary a _ _ => a.spine + 1
  | .rshift a _ _ _ => a.spine + 1
  | .ternary a _ _ _ _ => a.spine + 1
  | _ => 1

/-- enough steps -/
def Tree.need : Tree → Nat
  | .paren _ e _ => e.need + e.spine + 1
  | .call e _ _ => e.need
  | .array e _ i _ => e.need + i.need + i.spine
  | .dot e _ _ => e.need
  | .isset _ _ a _ b _ => a.need + a.spine + b.need + b.spine + 1
  | .function _ _ e _ => e.need + e.spine + 1
  | .unary _ e => e.need + e.spine + 1
  | .binary a _ b => a.need + b.need + b.spine
  | .rshift a _ _ b => a.need + b.need + b.spine
  | .ternary a _ b _ d => a.need + b.need + b.spine + d.need + d.spine
  | .atom _ => 1

theorem need_pos (t : Tree) : 1 ≤ t.need := by
  induction t <;> simp only [Tree.need] <;> omega

theorem spine_pos (t : Tree) : 1 ≤ t.spine := by
  cases t <;> simp only [Tree.spine] <;> omega

theorem need_le (t : Tree) : t.spine ≤ t.tokens.length ∧ t.need + t.spine ≤ 2 * t.tokens.length := by
  induction t <;> simp only [Tree.need, Tree.spine, Tree.tokens, List.length_append, List.length_cons, List.length_nil] <;> omega

/-- the first token of an expression -/
theorem proper_head {t : Tree} (h : t.Proper) (ts : List Token) : ∃ o rest, t.tokens ++ ts = o :: rest ∧ o.kind ≠ .sym .gt ∧ o.kind ≠ .rparen := by
  induction t generalizing ts with
  | paren l e r _ => exact ⟨l, _, rfl, by rw [h.1]; decide, by rw [h.1]; decide⟩
  | call e l r ih =>
    obtain ⟨o, rest, h1, h2⟩ := ih h.1 ([l, r] ++ ts)
    exact ⟨o, rest, by simpa [Tree.tokens] using h1, h2⟩
  | array e l i r ih _ =>
    obtain ⟨o, rest, h1, h2⟩ := ih h.1 (l :: i.tokens ++ [r] ++ ts)
    exact ⟨o, rest, by simpa [Tree.tokens] using h1, h2⟩
  | dot e d n ih =>
    obtain ⟨o, rest, h1, h2⟩ := ih h.1 ([d, n] ++ ts)
    exact ⟨o, rest, by simpa [Tree.tokens] using h1, h2⟩
  | isset o l a c b r _ _ => exact ⟨o, _, rfl, by rw [h.1]; decide, by rw [h.1]; decide⟩
  | function o l e r _ =>
    refine ⟨o, _, rfl, ?_, ?_⟩ <;> rcases h.1 with h | h | h <;> rw [h] <;> decide
  | unary o e _ =>
    obtain ⟨⟨s, hs, hu⟩, _⟩ := h
    refine ⟨o, _, rfl, ?_, ?_⟩ <;> rw [hs]
    · rcases hu with rfl | rfl | rfl | rfl <;> decide
    · simp
  | binary a o b ih _ =>
    obtain ⟨o', rest, h1, h2⟩ := ih h.1 (o :: b.tokens ++ ts)
    exact ⟨o', rest, by simpa [Tree.tokens] using h1, h2⟩
  | rshift a o o' b ih _ =>
    obtain ⟨o'', rest, h1, h2⟩ := ih h.1 (o :: o' :: b.tokens ++ ts)
    exact ⟨o'', rest, by simpa [Tree.tokens] using h1, h2⟩
  | ternary a q b c d ih _ _ =>
    obtain ⟨o'', rest, h1, h2⟩ := ih h.1 (q :: b.tokens ++ c :: d.tokens ++ ts)
    exact ⟨o'', rest, by simpa [Tree.tokens] using h1, h2⟩
  | atom t =>
    refine ⟨t, _, rfl, ?_, ?_⟩ <;> rcases h with ⟨n, h⟩ | h | ⟨n, h⟩ <;> rw [h] <;> simp

theorem extension_binary {o : Token} {s : Sym} {n : Nat} (ho : o.kind = .sym s) (hn : s.line = some n) {o' : Token} (h' : o'.kind ≠ .sym .gt)
    (rest : List Token) : extension (o :: o' :: rest) = some (.binary (n + 3)) := by
  obtain ⟨k, l, c⟩ := o
  obtain ⟨k', l', c'⟩ := o'
  simp only at ho h'
  subst ho
  have hb : binaryPrec s = some (n + 3) := (binaryPrec_line s (n + 3)).2 ⟨n, hn, rfl⟩
  unfold extension
  split
  · simp_all
  · simp_all
  · simp_all
  · simp_all
  · rename_i heq
    simp only [List.cons.injEq, Token.mk.injEq, Kind.sym.injEq] at heq
    obtain ⟨⟨rfl, _⟩, _⟩ := heq
    rw [hb]
    rfl
  · simp_all
  · rename_i x _
    have := x s l c ({ kind := k', line := l', column := c' } :: rest)
    simp at this

theorem loop_stop {f p : Nat} {t : Tree} {ts : List Token} (hf : 1 ≤ f) (h : Stops p ts) : parseLoop f p t ts = some (t, ts) := by
  obtain ⟨f, rfl⟩ : ∃ g, f = g + 1 := ⟨f - 1, by omega⟩
  rw [parseLoop]
  split
  · rfl
  · rename_i x hx
    rw [if_pos (h x hx)]

theorem stops_none {p : Nat} {ts : List Token} (h : extension ts = none) : Stops p ts := fun x hx => by rw [h] at hx; cases hx

theorem extension_other {o : Token} {ts : List Token} (h : o.kind = .rparen ∨ o.kind = .rbracket ∨ o.kind = .comma ∨ o.kind = .colon) :
    extension (o :: ts) = none := by
  obtain ⟨k, l, c⟩ := o
  rcases h with h | h | h | h <;> simp only at h <;> subst h <;> cases ts <;> rfl

/-- the loop of an operand stops if the tokens after the whole expression do not extend a part of it -/
theorem stops_of_ready {t : Tree} {k : Nat} {ts : List Token} (h : Ready t ts) (hl : t.line + 3 ≤ k) (h14 : t.line ≤ 12) : Stops (k + 1) ts := by
  intro x hx
  obtain ⟨a, _⟩ := h x hx
  obtain ⟨_, b, c, d, e⟩ := extension_line hx
  have := d (by omega)
  omega

theorem parse_complete (t : Tree) : ∀ p ts f, t.Proper → t.Grouped → p ≤ t.line + 3 → p ≤ 15 → Ready t ts → t.need ≤ f →
    parseExpr (f + t.spine) p (t.tokens ++ ts) = parseLoop f p t ts := by
  -- an operand which is not extended
  have operand : ∀ (b : Tree) (q : Nat) (ts : List Token) (g : Nat),
      (∀ p ts f, b.Proper → b.Grouped → p ≤ b.line + 3 → p ≤ 15 → Ready b ts → b.need ≤ f →
        parseExpr (f + b.spine) p (b.tokens ++ ts) = parseLoop f p b ts) →
      b.Proper → b.Grouped → q ≤ b.line + 3 → q ≤ 15 → Ready b ts → Stops q ts → b.need + b.spine ≤ g →
      parseExpr g q (b.tokens ++ ts) = some (b, ts) := by
    intro b q ts g ih h1 h2 h3 h4 h5 h6 h7
    have := ih q ts (g - b.spine) h1 h2 h3 h4 h5 (by omega)
    rw [show g - b.spine + b.spine = g by omega] at this
    rw [this]
    exact loop_stop (by have := need_pos b; omega) h6
  induction t with
  | paren l e r ih =>
    intro p ts f hp hg hl h15 hr hf
    obtain ⟨h1, h2, h3⟩ := hp
    simp only [Tree.need] at hf
    obtain ⟨f, rfl⟩ : ∃ g, f = g + 1 := ⟨f - 1, by omega⟩
    have he := operand e 0 (r :: ts) f ih h2 hg (by omega) (by omega) (ready_none (extension_other (Or.inl h3)))
      (stops_none (extension_other (Or.inl h3))) (by omega)
    simp only [Tree.spine, parseExpr, Tree.tokens, List.cons_append, List.append_assoc, List.nil_append, parsePrefix, h1, he, h3, if_true]
  | call e l r ih =>
    intro p ts f hp hg hl h15 hr hf
    obtain ⟨h1, h2, h3⟩ := hp
    have hx : extension (l :: r :: ts) = some .call := by
      obtain ⟨kl, _, _⟩ := l
      obtain ⟨kr, _, _⟩ := r
      simp only at h2 h3
      subst h2 h3
      rfl
    have := ih p (l :: r :: ts) (f + 1) h1 hg.1 (by have := hg.2; omega) h15 (ready_fourteen hg.2) (by simp only [Tree.need] at hf; omega)
    simp only [Tree.spine, Tree.tokens, List.append_assoc, List.cons_append, List.nil_append]
    rw [show f + (e.spine + 1) = f + 1 + e.spine by omega, this, parseLoop, hx]
    simp only
    rw [if_neg (show ¬ (Extension.call).prec < p by simp only [Extension.prec]; omega)]
  | array e l i r ih ihi =>
    intro p ts f hp hg hl h15 hr hf
    obtain ⟨h1, h2, h3, h4⟩ := hp
    obtain ⟨g1, g2, g3⟩ := hg
    have hx : extension (l :: (i.tokens ++ r :: ts)) = some .array := by
      obtain ⟨kl, _, _⟩ := l
      simp only at h2
      subst h2
      rfl
    simp only [Tree.need] at hf
    have := ih p (l :: (i.tokens ++ r :: ts)) (f + 1) h1 g1 (by omega) h15 (ready_fourteen g2) (by omega)
    have hi := operand i 0 (r :: ts) f ihi h3 g3 (by omega) (by omega) (ready_none (extension_other (Or.inr (Or.inl h4))))
      (stops_none (extension_other (Or.inr (Or.inl h4)))) (by omega)
    simp only [Tree.spine, Tree.tokens, List.append_assoc, List.cons_append, List.nil_append]
    rw [show f + (e.spine + 1) = f + 1 + e.spine by omega, this, parseLoop, hx]
    simp only
    rw [if_neg (show ¬ (Extension.array).prec < p by simp only [Extension.prec]; omega), hi]
    simp only [h4, if_true]
  | dot e d n ih =>
    intro p ts f hp hg hl h15 hr hf
    obtain ⟨h1, h2, i, h3⟩ := hp
    have hx : extension (d :: n :: ts) = some .dot := by
      obtain ⟨kl, _, _⟩ := d
      obtain ⟨kr, _, _⟩ := n
      simp only at h2 h3
      subst h2 h3
      rfl
    have := ih p (d :: n :: ts) (f + 1) h1 hg.1 (by have := hg.2; omega) h15 (ready_fourteen hg.2) (by simp only [Tree.need] at hf; omega)
    simp only [Tree.spine, Tree.tokens, List.append_assoc, List.cons_append, List.nil_append]
    rw [show f + (e.spine + 1) = f + 1 + e.spine by omega, this, parseLoop, hx]
    simp only
    rw [if_neg (show ¬ (Extension.dot).prec < p by simp only [Extension.prec]; omega)]
  | isset o l a c b r iha ihb =>
    intro p ts f hp hg hl h15 hr hf
    obtain ⟨h1, h2, h3, h4, h5, h6⟩ := hp
    simp only [Tree.need] at hf
    obtain ⟨f, rfl⟩ : ∃ g, f = g + 1 := ⟨f - 1, by omega⟩
    have hc : extension (c :: (b.tokens ++ r :: ts)) = none := extension_other (Or.inr (Or.inr (Or.inl h4)))
    have ha := operand a 0 (c :: (b.tokens ++ r :: ts)) f iha h3 hg.1 (by omega) (by omega) (ready_none hc) (stops_none hc) (by omega)
    have hb := operand b 0 (r :: ts) f ihb h5 hg.2 (by omega) (by omega) (ready_none (extension_other (Or.inl h6)))
      (stops_none (extension_other (Or.inl h6))) (by omega)
    simp only [Tree.spine, parseExpr, Tree.tokens, List.cons_append, List.append_assoc, List.nil_append, parsePrefix, h1, h2, ha, hb, h4, h6, if_true]
  | function o l e r ih =>
    intro p ts f hp hg hl h15 hr hf
    obtain ⟨h1, h2, h3, h4⟩ := hp
    simp only [Tree.need] at hf
    obtain ⟨f, rfl⟩ : ∃ g, f = g + 1 := ⟨f - 1, by omega⟩
    have he := operand e 0 (r :: ts) f ih h3 hg (by omega) (by omega) (ready_none (extension_other (Or.inl h4)))
      (stops_none (extension_other (Or.inl h4))) (by omega)
    rcases h1 with h1 | h1 | h1 <;>
      simp only [Tree.spine, parseExpr, Tree.tokens, List.cons_append, List.append_assoc, List.nil_append, parsePrefix, h1, h2, he, h4, if_true]
  | unary o e ih =>
    intro p ts f hp hg hl h15 hr hf
    obtain ⟨⟨s, h1, h2⟩, h3⟩ := hp
    obtain ⟨g1, g2⟩ := hg
    simp only [Tree.need] at hf
    obtain ⟨f, rfl⟩ : ∃ g, f = g + 1 := ⟨f - 1, by omega⟩
    have hs : Stops 15 ts := by
      intro x hx
      obtain ⟨a, _⟩ := hr x hx
      obtain ⟨_, b, c, d, e⟩ := extension_line hx
      simp only [Tree.line] at a
      have := d (by omega)
      omega
    have hre : Ready e ts := fun x hx => by
      obtain ⟨a, b⟩ := hr x hx
      simp only [Tree.line] at a
      exact ⟨by omega, fun _ => by omega⟩
    have he := operand e 15 ts f ih h3 g1 (by omega) (by omega) hre hs (by omega)
    simp only [Tree.spine, parseExpr, Tree.tokens, List.cons_append, List.append_assoc, List.nil_append, parsePrefix, h1, (isUnary_iff s).2 h2, he, if_true]
  | binary a o b iha ihb =>
    intro p ts f hp hg hl h15 hr hf
    obtain ⟨h1, ⟨s, n, h2, h2'⟩, h3⟩ := hp
    obtain ⟨g1, g2, g3, g4⟩ := hg
    have hline := binary_line a o b h2 h2'
    have hrange := line_range h2'
    rw [hline] at g2 g4 hl
    simp only [Tree.need] at hf
    obtain ⟨o', rest, hh, hh1, hh2⟩ := proper_head h3 ts
    have hx : extension (o :: (b.tokens ++ ts)) = some (.binary (n + 3)) := by rw [hh]; exact extension_binary h2 h2' hh1 rest
    have hready : Ready a (o :: (b.tokens ++ ts)) := by
      intro x hx'
      rw [hx] at hx'
      cases hx'
      exact ⟨by simpa [Extension.line] using g2, fun h => by cases h⟩
    have ha := iha p (o :: (b.tokens ++ ts)) (f + 1) h1 g1 (by omega) h15 hready (by omega)
    have hstop : Stops (n + 3 + 1) ts := stops_of_ready hr (by omega) (by omega)
    have hrb : Ready b ts := fun x hx => by
      obtain ⟨a1, b1⟩ := hr x hx
      rw [hline] at a1 b1
      exact ⟨by omega, fun _ => by omega⟩
    have hb := operand b (n + 3 + 1) ts f ihb h3 g3 (by omega) (by omega) hrb hstop (by omega)
    simp only [Tree.spine, Tree.tokens, List.append_assoc, List.cons_append, List.nil_append]
    rw [show f + (a.spine + 1) = f + 1 + a.spine by omega, ha, parseLoop, hx]
    simp only
    rw [if_neg (show ¬ (Extension.binary (n + 3)).prec < p by simp only [Extension.prec]; omega), hb]
  | rshift a o o' b iha ihb =>
    intro p ts f hp hg hl h15 hr hf
    obtain ⟨h1, h2, h2', h3⟩ := hp
    obtain ⟨g1, g2, g3, g4⟩ := hg
    simp only [Tree.line] at hl
    simp only [Tree.need] at hf
    have hx : extension (o :: o' :: (b.tokens ++ ts)) = some .rshift := by
      obtain ⟨kl, _, _⟩ := o
      obtain ⟨kr, _, _⟩ := o'
      simp only at h2 h2'
      subst h2 h2'
      rfl
    have hready : Ready a (o :: o' :: (b.tokens ++ ts)) := by
      intro x hx'
      rw [hx] at hx'
      cases hx'
      exact ⟨by simpa [Extension.line] using g2, fun h => by cases h⟩
    have ha := iha p (o :: o' :: (b.tokens ++ ts)) (f + 1) h1 g1 (by omega) h15 hready (by omega)
    have hstop : Stops (12 + 1) ts := stops_of_ready hr (by simp [Tree.line]) (by simp [Tree.line])
    have hrb : Ready b ts := fun x hx => by
      obtain ⟨a1, b1⟩ := hr x hx
      simp only [Tree.line] at a1 b1
      exact ⟨by omega, fun _ => by omega⟩
    have hb := operand b 13 ts f ihb h3 g3 (by omega) (by omega) hrb hstop (by omega)
    simp only [Tree.spine, Tree.tokens, List.append_assoc, List.cons_append, List.nil_append]
    rw [show f + (a.spine + 1) = f + 1 + a.spine by omega, ha, parseLoop, hx]
    simp only
    rw [if_neg (show ¬ (Extension.rshift).prec < p by simp only [Extension.prec]; omega), hb]
  | ternary a q b c d iha ihb ihd =>
    intro p ts f hp hg hl h15 hr hf
    obtain ⟨h1, h2, h3, h4, h5⟩ := hp
    obtain ⟨g1, g2, g3, g4⟩ := hg
    simp only [Tree.line] at hl
    simp only [Tree.need] at hf
    have hx : extension (q :: (b.tokens ++ c :: (d.tokens ++ ts))) = some .ternary := by
      obtain ⟨kl, _, _⟩ := q
      simp only at h2
      subst h2
      rfl
    have hready : Ready a (q :: (b.tokens ++ c :: (d.tokens ++ ts))) := by
      intro x hx'
      rw [hx] at hx'
      cases hx'
      exact ⟨by simp only [Extension.line]; omega, fun _ => g2⟩
    have ha := iha p (q :: (b.tokens ++ c :: (d.tokens ++ ts))) (f + 1) h1 g1 (by omega) h15 hready (by omega)
    have hn : extension ts = none := by
      cases hx : extension ts with
      | none => rfl
      | some x =>
        obtain ⟨a1, b1⟩ := hr x hx
        obtain ⟨_, _, _, _, e⟩ := extension_line hx
        simp only [Tree.line] at a1 b1
        by_cases hxt : x = .ternary
        · have := b1 hxt
          omega
        · have := e hxt
          omega
    have hc : extension (c :: (d.tokens ++ ts)) = none := extension_other (Or.inr (Or.inr (Or.inr h4)))
    have hb := operand b 0 (c :: (d.tokens ++ ts)) f ihb h3 g3 (by omega) (by omega) (ready_none hc) (stops_none hc) (by omega)
    have hline : ∀ t : Tree, t.Proper → 1 ≤ t.line := by
      intro t ht
      cases t with
      | binary a o b =>
        obtain ⟨_, ⟨s, n, h2, h2'⟩, _⟩ := ht
        rw [binary_line a o b h2 h2']
        have := line_range h2'
        omega
      | _ => simp [Tree.line]
    have hd := operand d 4 ts f ihd h5 g4 (by have := hline d h5; omega) (by omega) (ready_none hn) (stops_none hn) (by omega)
    simp only [Tree.spine, Tree.tokens, List.append_assoc, List.cons_append, List.nil_append]
    rw [show f + (a.spine + 1) = f + 1 + a.spine by omega, ha, parseLoop, hx]
    simp only
    rw [if_neg (show ¬ (Extension.ternary).prec < p by simp only [Extension.prec]; omega), hb]
    simp only [h4, if_true, hd]
  | atom t =>
    intro p ts f hp hg hl h15 hr hf
    simp only [Tree.need] at hf
    obtain ⟨f, rfl⟩ : ∃ g, f = g + 1 := ⟨f - 1, by omega⟩
    rcases hp with ⟨n, h⟩ | h | ⟨n, h⟩ <;>
      simp only [Tree.spine, parseExpr, Tree.tokens, List.cons_append, List.nil_append, parsePrefix, h]

end Zserio.ExprParse
