import Verif.Lemmas.ExprParse
import Verif.Model.ExprBuild
import Verif.Props.Expression
/-
C106: the text of an expression is grouped as the table of precedences of the language guide says.
-/
namespace Zserio.ExprParse

/-- **C106**: a text is an expression exactly if it is the text of a tree whose operators are grouped as the table says, and this is its tree. -/
theorem C106_parse (ts : List Token) (t : Tree) : parseText ts = some t ↔ t.tokens = ts ∧ t.Proper ∧ t.Grouped := by
  constructor
  · intro h
    unfold parseText at h
    split at h
    · rename_i e he
      cases h
      obtain ⟨a, b, _, d, _⟩ := (parse_sound _).1 _ _ _ _ (by omega) he
      exact ⟨by simpa using d.symm, a, b⟩
    · cases h
  · rintro ⟨rfl, hp, hg⟩
    have hn := need_le t
    have := parse_complete t 0 [] (2 * t.tokens.length + 2 - t.spine) hp hg (by omega) (by omega) (ready_none extension_nil) (by omega)
    rw [show 2 * t.tokens.length + 2 - t.spine + t.spine = 2 * t.tokens.length + 2 by omega, List.append_nil] at this
    have hpos := need_pos t
    rw [loop_stop (by omega) (stops_none extension_nil)] at this
    unfold parseText
    rw [this]

/-- **C106**: the grouping is unique. -/
theorem C106_unique (t t' : Tree) (h : t.tokens = t'.tokens) (hp : t.Proper) (hg : t.Grouped) (hp' : t'.Proper) (hg' : t'.Grouped) : t = t' := by
  have h1 := (C106_parse t.tokens t).2 ⟨rfl, hp, hg⟩
  have h2 := (C106_parse t.tokens t').2 ⟨h.symm, hp', hg'⟩
  exact Option.some.inj (h1.symm.trans h2)

/-- **C106**: within a longer text an expression ends where the tokens can not extend it; what follows does not change its tree. -/
theorem C106_prefix (t : Tree) (hp : t.Proper) (hg : t.Grouped) (o : Token) (rest : List Token)
    (ho : ∀ s, o.kind ≠ .sym s) (ho' : o.kind ≠ .lparen ∧ o.kind ≠ .lbracket ∧ o.kind ≠ .dot ∧ o.kind ≠ .question) (f : Nat)
    (hf : 2 * t.tokens.length + 1 ≤ f) : parseExpr f 0 (t.tokens ++ o :: rest) = some (t, o :: rest) := by
  have hx : extension (o :: rest) = none := by
    cases hx : extension (o :: rest) with
    | none => rfl
    | some x =>
      exfalso
      rcases extension_some hx with ⟨_, l, r, rest', h, hk1, _⟩ | ⟨_, l, rest', h, hk1⟩ | ⟨_, d, n, i, rest', h, hk1, _⟩ |
        ⟨_, o', o'', rest', h, hk1, _⟩ | ⟨_, q, rest', h, hk1⟩ | ⟨s, n, o', rest', _, h, hk1, _⟩ <;> cases h
      · exact ho'.1 hk1
      · exact ho'.2.1 hk1
      · exact ho'.2.2.1 hk1
      · exact ho _ hk1
      · exact ho'.2.2.2 hk1
      · exact ho _ hk1
  have hn := need_le t
  have hpos := need_pos t
  have := parse_complete t 0 (o :: rest) (f - t.spine) hp hg (by omega) (by omega) (ready_none hx) (by omega)
  rw [show f - t.spine + t.spine = f by omega] at this
  rw [this]
  exact loop_stop (by omega) (stops_none hx)

/-- parentheses around a tree -/
def wrap (t : Tree) : Tree := .paren ⟨.lparen, 0, 0⟩ t ⟨.rparen, 0, 0⟩

theorem wrap_line (t : Tree) : (wrap t).line = 15 := rfl

/-- **C106**: every grouping can be written, with parentheses. -/
theorem C106_all (t : Tree) (hp : t.Proper) : ∃ t' : Tree, t'.strip = t.strip ∧ parseText t'.tokens = some t' := by
  have : ∃ t' : Tree, t'.strip = t.strip ∧ t'.Proper ∧ t'.Grouped := by
    induction t with
    | paren l e r ih => obtain ⟨e', h1, h2, h3⟩ := ih hp.2.1; exact ⟨.paren l e' r, h1, ⟨hp.1, h2, hp.2.2⟩, h3⟩
    | call e l r ih =>
      obtain ⟨e', h1, h2, h3⟩ := ih hp.1
      exact ⟨.call (wrap e') l r, by simp [Tree.strip, wrap, h1], ⟨⟨rfl, h2, rfl⟩, hp.2⟩, ⟨h3, by simp [wrap_line]⟩⟩
    | array e l i r ih ihi =>
      obtain ⟨e', h1, h2, h3⟩ := ih hp.1
      obtain ⟨i', h4, h5, h6⟩ := ihi hp.2.2.1
      exact ⟨.array (wrap e') l i' r, by simp [Tree.strip, wrap, h1, h4], ⟨⟨rfl, h2, rfl⟩, hp.2.1, h5, hp.2.2.2⟩, ⟨h3, by simp [wrap_line], h6⟩⟩
    | dot e d n ih =>
      obtain ⟨e', h1, h2, h3⟩ := ih hp.1
      exact ⟨.dot (wrap e') d n, by simp [Tree.strip, wrap, h1], ⟨⟨rfl, h2, rfl⟩, hp.2⟩, ⟨h3, by simp [wrap_line]⟩⟩
    | isset o l a c b r iha ihb =>
      obtain ⟨p1, p2, p3, p4, p5, p6⟩ := hp
      obtain ⟨a', h1, h2, h3⟩ := iha p3
      obtain ⟨b', h4, h5, h6⟩ := ihb p5
      exact ⟨.isset o l a' c b' r, by simp [Tree.strip, h1, h4], ⟨p1, p2, h2, p4, h5, p6⟩, ⟨h3, h6⟩⟩
    | function o l e r ih =>
      obtain ⟨p1, p2, p3, p4⟩ := hp
      obtain ⟨e', h1, h2, h3⟩ := ih p3
      exact ⟨.function o l e' r, by simp [Tree.strip, h1], ⟨p1, p2, h2, p4⟩, h3⟩
    | unary o e ih =>
      obtain ⟨e', h1, h2, h3⟩ := ih hp.2
      exact ⟨.unary o (wrap e'), by simp [Tree.strip, wrap, h1], ⟨hp.1, ⟨rfl, h2, rfl⟩⟩, ⟨h3, by simp [wrap_line]⟩⟩
    | binary a o b iha ihb =>
      obtain ⟨p1, ⟨s, n, p2, p3⟩, p4⟩ := hp
      obtain ⟨a', h1, h2, h3⟩ := iha p1
      obtain ⟨b', h4, h5, h6⟩ := ihb p4
      have hl := binary_line (wrap a') o (wrap b') p2 p3
      have hr := line_range p3
      refine ⟨.binary (wrap a') o (wrap b'), by simp [Tree.strip, wrap, h1, h4], ⟨⟨rfl, h2, rfl⟩, ⟨s, n, p2, p3⟩, ⟨rfl, h5, rfl⟩⟩, ?_⟩
      exact ⟨h3, by rw [hl, wrap_line]; omega, h6, by rw [hl, wrap_line]; omega⟩
    | rshift a o o' b iha ihb =>
      obtain ⟨p1, p2, p3, p4⟩ := hp
      obtain ⟨a', h1, h2, h3⟩ := iha p1
      obtain ⟨b', h4, h5, h6⟩ := ihb p4
      exact ⟨.rshift (wrap a') o o' (wrap b'), by simp [Tree.strip, wrap, h1, h4], ⟨⟨rfl, h2, rfl⟩, p2, p3, ⟨rfl, h5, rfl⟩⟩,
        ⟨h3, by simp [wrap_line], h6, by simp [wrap_line]⟩⟩
    | ternary a q b c d iha ihb ihd =>
      obtain ⟨p1, p2, p3, p4, p5⟩ := hp
      obtain ⟨a', h1, h2, h3⟩ := iha p1
      obtain ⟨b', h4, h5, h6⟩ := ihb p3
      obtain ⟨d', h7, h8, h9⟩ := ihd p5
      exact ⟨.ternary (wrap a') q b' c d', by simp [Tree.strip, wrap, h1, h4, h7], ⟨⟨rfl, h2, rfl⟩, p2, h5, p4, h8⟩,
        ⟨h3, by simp [wrap_line], h6, h9⟩⟩
    | atom t => exact ⟨.atom t, rfl, hp, trivial⟩
  obtain ⟨t', h1, h2, h3⟩ := this
  exact ⟨t', h1, (C106_parse _ _).2 ⟨rfl, h2, h3⟩⟩

theorem tight_checkShifts (t : Tree) (h : t.Tight) : checkShifts t = true := by
  induction t <;> simp_all [Tree.Tight, checkShifts]

/-- **C106**: an expression which is written without spaces in `>>` is accepted exactly if it can be grouped; its tree is the grouped one. -/
theorem C106_read (t : Tree) (h : t.Tight) (hp : t.Proper) (hg : t.Grouped) : readExpr t.tokens = some t := by
  unfold readExpr
  rw [(C106_parse t.tokens t).2 ⟨rfl, hp, hg⟩]
  simp [tight_checkShifts t h]

/-- **C106**: every accepted expression has the grouped tree. -/
theorem C106_accepted (ts : List Token) (t : Tree) (h : readExpr ts = some t) : t.tokens = ts ∧ t.Proper ∧ t.Grouped := by
  unfold readExpr at h
  split at h
  · cases h
  · rename_i e he
    split at h
    · cases h
      exact (C106_parse ts t).1 he
    · cases h

/-- all tokens are on one line -/
def OneLine (ts : List Token) : Prop := ∃ n, ∀ o ∈ ts, o.line = n

theorem checkShifts_tight (t : Tree) (n : Nat) (hn : ∀ o ∈ t.tokens, o.line = n) (h : checkShifts t = true) : t.Tight := by
  induction t with
  | rshift a o o' b iha ihb =>
    simp only [checkShifts, Bool.and_eq_true, decide_eq_true_eq, Tree.tokens, List.mem_append, List.mem_cons] at h hn
    exact ⟨iha (fun x hx => hn x (Or.inl hx)) h.1.1, ihb (fun x hx => hn x (Or.inr (Or.inr (Or.inr hx)))) h.1.2,
      by rw [hn o (by simp), hn o' (by simp)], h.2⟩
  | atom t => trivial
  | _ => simp_all [checkShifts, Tree.Tight, Tree.tokens, List.mem_append, List.mem_cons]

/-- **C106 (partial)**: in an accepted expression on one line `>>` contains no spaces.  (On several lines it is false: `C106_lines_deviates`.) -/
theorem C106_tight_partial (ts : List Token) (t : Tree) (hl : OneLine ts) (h : readExpr ts = some t) : t.Tight := by
  obtain ⟨h1, _, _⟩ := C106_accepted ts t h
  obtain ⟨n, hn⟩ := hl
  refine checkShifts_tight t n (by rw [h1]; exact hn) ?_
  unfold readExpr at h
  split at h
  · cases h
  · rename_i e he
    split at h
    · rename_i hc
      cases h
      exact hc
    · cases h

/-! ### The value of a text -/

theorem literal_level (l : Literal) : l.expr.level = 12 ∧ l.expr.Parsed := by cases l <;> exact ⟨rfl, trivial⟩

theorem binOp_level {o : Token} {s : Sym} {n : Nat} (ho : o.kind = .sym s) (hn : s.line = some n) : (binOp o).level + 1 = n := by
  obtain ⟨k, l, c⟩ := o
  simp only at ho
  subst ho
  cases s <;> simp [Sym.line] at hn <;> subst hn <;> rfl

theorem build_level (m : Meaning) (t : Tree) (h : t.Proper) : (14 ≤ t.line → (build m t).level = 12) ∧ (t.line < 14 → (build m t).level + 1 = t.line) := by
  cases t with
  | dot e d n =>
    refine ⟨fun _ => ?_, fun h => by simp [Tree.line] at h⟩
    unfold build
    split <;> rfl
  | function o l e r =>
    refine ⟨fun _ => ?_, fun h => by simp [Tree.line] at h⟩
    unfold build
    split <;> rfl
  | atom t =>
    refine ⟨fun _ => ?_, fun h => by simp [Tree.line] at h⟩
    unfold build
    split
    · exact (literal_level _).1
    · rfl
    · rfl
  | binary a o b =>
    obtain ⟨_, ⟨s, n, h1, h2⟩, _⟩ := h
    have hl := binary_line a o b h1 h2
    have hr := line_range h2
    refine ⟨fun h => by omega, fun _ => ?_⟩
    rw [hl]
    exact binOp_level h1 h2
  | paren l e r => exact ⟨fun _ => rfl, fun h => by simp [Tree.line] at h⟩
  | call e l r => exact ⟨fun _ => rfl, fun h => by simp [Tree.line] at h⟩
  | array e l i r => exact ⟨fun _ => rfl, fun h => by simp [Tree.line] at h⟩
  | isset o l a c b r => exact ⟨fun _ => rfl, fun h => by simp [Tree.line] at h⟩
  | unary o e => exact ⟨fun h => by simp [Tree.line] at h, fun _ => rfl⟩
  | rshift a o o' b => exact ⟨fun h => by simp [Tree.line] at h, fun _ => rfl⟩
  | ternary a q b c d => exact ⟨fun h => by simp [Tree.line] at h, fun _ => rfl⟩

theorem line_le (t : Tree) (h : t.Proper) : t.line ≤ 15 := by
  cases t with
  | binary a o b =>
    obtain ⟨_, ⟨s, n, h1, h2⟩, _⟩ := h
    have hl := binary_line a o b h1 h2
    have hr := line_range h2
    omega
  | _ => simp [Tree.line]

theorem build_parsed (m : Meaning) (t : Tree) (h : t.Proper) (hg : t.Grouped) : (build m t).Parsed := by
  induction t with
  | paren l e r ih => exact ih h.2.1 hg
  | call e l r ih => exact ⟨ih h.1 hg.1, (build_level m e h.1).1 hg.2⟩
  | array e l i r ih ihi => exact ⟨ih h.1 hg.1, (build_level m e h.1).1 hg.2.1, ihi h.2.2.1 hg.2.2⟩
  | dot e d n ih =>
    unfold build
    split
    · trivial
    · exact ⟨ih h.1 hg.1, (build_level m e h.1).1 hg.2⟩
  | isset o l a c b r iha ihb => exact ⟨iha h.2.2.1 hg.1, ihb h.2.2.2.2.1 hg.2⟩
  | function o l e r ih =>
    unfold build
    split <;> exact ih h.2.2.1 hg
  | unary o e ih =>
    refine ⟨ih h.2 hg.1, ?_⟩
    obtain ⟨a, b⟩ := build_level m e h.2
    have := hg.2
    by_cases h14 : 14 ≤ e.line
    · have := a h14; omega
    · have := b (by omega); omega
  | binary a o b iha ihb =>
    obtain ⟨h1, ⟨s, n, h2, h3⟩, h4⟩ := h
    obtain ⟨g1, g2, g3, g4⟩ := hg
    rw [binary_line a o b h2 h3] at g2 g4
    have hlev := binOp_level h2 h3
    have hr := line_range h3
    obtain ⟨a1, a2⟩ := build_level m a h1
    obtain ⟨b1, b2⟩ := build_level m b h4
    refine ⟨iha h1 g1, ?_, ihb h4 g3, ?_⟩
    · by_cases h14 : 14 ≤ a.line
      · have := a1 h14; omega
      · have := a2 (by omega); omega
    · by_cases h14 : 14 ≤ b.line
      · have := b1 h14; omega
      · have := b2 (by omega); omega
  | rshift a o o' b iha ihb =>
    obtain ⟨h1, _, _, h4⟩ := h
    obtain ⟨g1, g2, g3, g4⟩ := hg
    obtain ⟨a1, a2⟩ := build_level m a h1
    obtain ⟨b1, b2⟩ := build_level m b h4
    refine ⟨iha h1 g1, ?_, ihb h4 g3, ?_⟩
    · show 8 ≤ _
      by_cases h14 : 14 ≤ a.line
      · have := a1 h14; omega
      · have := a2 (by omega); omega
    · show 8 < _
      by_cases h14 : 14 ≤ b.line
      · have := b1 h14; omega
      · have := b2 (by omega); omega
  | ternary a q b c d iha ihb ihd =>
    obtain ⟨h1, _, h3, _, h5⟩ := h
    obtain ⟨g1, g2, g3, g4⟩ := hg
    obtain ⟨a1, a2⟩ := build_level m a h1
    refine ⟨iha h1 g1, ?_, ihb h3 g3, ihd h5 g4⟩
    by_cases h14 : 14 ≤ a.line
    · have := a1 h14; omega
    · have := a2 (by omega); omega
  | atom t =>
    unfold build
    split
    · exact (literal_level _).2
    · trivial
    · trivial

/-- **C106**: the expressions which the compiler builds from texts are those which C67 is about. -/
theorem C106_built (m : Meaning) (ts : List Token) (t : Tree) (h : readExpr ts = some t) : (build m t).Parsed := by
  obtain ⟨_, hp, hg⟩ := C106_accepted ts t h
  exact build_parsed m t hp hg

/-- **C106 (partial)**: from the text in the schema to the value in Python.  If a text is grouped as the tree `t`, and the expression has a type,
the generated Python text is evaluated to the value which the language guide gives to the grouped expression.  (For the restrictions on
divisions and operators see C67.) -/
theorem C106_value_partial {O : Type} {W : Expression.PyWorld O} {Γ : Expression.Signature} {names : Expression.Names} {T : O → Expression.Ty → Prop}
    (hW : W.toWorld.Typed Γ T) (hA : Expression.Agrees W names) (m : Meaning) (t : Tree) (hp : t.Proper) (hg : t.Grouped) (htight : t.Tight)
    (ty : Expression.Ty) (ht : (build m t).type Γ = some ty) (hs : (build m t).Parenthesised Γ) (hl : (build m t).Literals)
    (hn : (build m t).NaturalDivisions W.toWorld) (v : Expression.Value O) (hv : (build m t).eval W.toWorld .java = some v) :
    ∃ t', readExpr t.tokens = some t' ∧ ∃! py, Expression.Derives 0 ((build m t').format Γ names) py ∧ py.eval W = .ok v := by
  have hparsed := build_parsed m t hp hg
  refine ⟨t, C106_read t htight hp hg, ?_⟩
  obtain ⟨py, h1, h2⟩ := Expression.C67_syntax hW hA (build m t) ty ht hparsed hs hl
  exact ⟨py, ⟨h1, Expression.C67_value_partial hW hA (build m t) ty ht hparsed hs hl hn py h1 v hv⟩, fun py' h' => h2 py' h'.1⟩

/-! ### Examples -/

/-- tokens of a line -/
def line : Nat → List Kind → List Token
  | _, [] => []
  | c, k :: ks => ⟨k, 0, c⟩ :: line (c + 1) ks

/-- `a-b-c*d.e` -/
example : parseText (line 0 [.id 0, .sym .minus, .id 1, .sym .minus, .id 2, .sym .mul, .id 3, .dot, .id 4]) =
    some (.binary (.binary (.atom ⟨.id 0, 0, 0⟩) ⟨.sym .minus, 0, 1⟩ (.atom ⟨.id 1, 0, 2⟩)) ⟨.sym .minus, 0, 3⟩
      (.binary (.atom ⟨.id 2, 0, 4⟩) ⟨.sym .mul, 0, 5⟩ (.dot (.atom ⟨.id 3, 0, 6⟩) ⟨.dot, 0, 7⟩ ⟨.id 4, 0, 8⟩))) := by decide +kernel

/-- `a?b:c?d:e` and `-a.b[0]` and `a<b>>c` -/
example : (parseText (line 0 [.id 0, .question, .id 1, .colon, .id 2, .question, .id 3, .colon, .id 4])).isSome = true ∧
    parseText (line 0 [.sym .minus, .id 0, .dot, .id 1, .lbracket, .lit 0, .rbracket]) =
      some (.unary ⟨.sym .minus, 0, 0⟩ (.array (.dot (.atom ⟨.id 0, 0, 1⟩) ⟨.dot, 0, 2⟩ ⟨.id 1, 0, 3⟩) ⟨.lbracket, 0, 4⟩ (.atom ⟨.lit 0, 0, 5⟩)
        ⟨.rbracket, 0, 6⟩)) ∧
    readExpr (line 0 [.id 0, .sym .lt, .id 1, .sym .gt, .sym .gt, .id 2]) =
      some (.binary (.atom ⟨.id 0, 0, 0⟩) ⟨.sym .lt, 0, 1⟩ (.rshift (.atom ⟨.id 1, 0, 2⟩) ⟨.sym .gt, 0, 3⟩ ⟨.sym .gt, 0, 4⟩ (.atom ⟨.id 2, 0, 5⟩))) := by
  decide +kernel

/-- the hypotheses of the theorems can be met: `a<<b>>c` -/
example : ∃ t : Tree, t.Proper ∧ t.Grouped ∧ t.Tight ∧ OneLine t.tokens ∧ t.tokens.length = 6 := by
  refine ⟨.rshift (.binary (.atom ⟨.id 0, 0, 0⟩) ⟨.sym .lshift, 0, 1⟩ (.atom ⟨.id 1, 0, 3⟩)) ⟨.sym .gt, 0, 4⟩ ⟨.sym .gt, 0, 5⟩ (.atom ⟨.id 2, 0, 6⟩),
    ?_, ?_, ?_, ⟨0, ?_⟩, rfl⟩
  · simp [Tree.Proper, Sym.line]
  · simp [Tree.Grouped, Tree.line, Sym.line]
  · simp [Tree.Tight]
  · simp [Tree.tokens]

/-- `Mask.X` is the symbol 6; literals of the example of C67 -/
def demoMeaning : Meaning where
  literal
    | 0 => .int .hex (py! "1F")
    | 1 => .int .dec (py! "2")
    | 2 => .int .dec (py! "3")
    | _ => .int .dec (py! "0")
  resolve
    | .dot (.atom ⟨.id 9, _, _⟩) _ _ => some 6
    | _ => none

/-- `!flag == done && (p.data[@index] + 0x1F) * 2 / 3 > lengthof(s) ? numbits(p.data[0]) - -n : valueof(~m | Mask.X)` -/
def demoTokens : List Token := line 0
  [.sym .bang, .id 2, .sym .eq, .id 3, .sym .land, .lparen, .id 0, .dot, .id 0, .lbracket, .index, .rbracket, .sym .plus, .lit 0, .rparen, .sym .mul, .lit 1,
    .sym .div, .lit 2, .sym .gt, .lengthof, .lparen, .id 1, .rparen, .question, .numbits, .lparen, .id 0, .dot, .id 0, .lbracket, .lit 3, .rbracket, .rparen,
    .sym .minus, .sym .minus, .id 4, .colon, .valueof, .lparen, .sym .tilde, .id 5, .sym .or, .id 9, .dot, .id 10, .rparen]

/-- the text is the expression of the example of C67, so that its hypotheses are met -/
example : (readExpr demoTokens).map (build demoMeaning) = some Expression.Demo.expression := by decide +kernel

example : ∃ t : Tree, t.Proper ∧ t.Grouped ∧ t.Tight ∧ (build demoMeaning t).type Expression.Demo.signature = some .int ∧
    (build demoMeaning t).Parenthesised Expression.Demo.signature ∧ (build demoMeaning t).Literals ∧
    (build demoMeaning t).NaturalDivisions Expression.Demo.world.toWorld ∧
    (build demoMeaning t).eval Expression.Demo.world.toWorld .java = some (.int (4 - 7)) := by
  have h : (readExpr demoTokens).map (build demoMeaning) = some Expression.Demo.expression := by decide +kernel
  obtain ⟨t, ht, hb⟩ := Option.map_eq_some_iff.1 h
  obtain ⟨_, hp, hg⟩ := C106_accepted _ _ ht
  obtain ⟨h1, _, h3, h4, h5⟩ := Expression.Demo.hypotheses
  refine ⟨t, hp, hg, C106_tight_partial _ _ ⟨0, ?_⟩ ht, ?_⟩
  · decide +kernel
  · rw [hb]
    exact ⟨h1, h3, h4, h5, rfl⟩

/-- **C106 (deviation)**: only the columns of the two characters of `>>` are compared: they may be on different lines, with a line break and any
comments between them. -/
theorem C106_lines_deviates : ∃ (ts : List Token) (t : Tree), readExpr ts = some t ∧ ¬ t.Tight := by
  refine ⟨[⟨.id 0, 0, 0⟩, ⟨.sym .gt, 0, 4⟩, ⟨.sym .gt, 7, 5⟩, ⟨.id 1, 7, 6⟩],
    .rshift (.atom ⟨.id 0, 0, 0⟩) ⟨.sym .gt, 0, 4⟩ ⟨.sym .gt, 7, 5⟩ (.atom ⟨.id 1, 7, 6⟩), by decide +kernel, ?_⟩
  simp [Tree.Tight]

/-- **C106 (deviation)**: `lengthof a`, as it is written in the language guide, is refused: the operand must be in parentheses; and
`lengthof(a).b` is `(lengthof(a)).b`, although `.` is above `lengthof` in the table. -/
theorem C106_lengthof_deviates : parseText (line 0 [.lengthof, .id 0]) = none ∧
    ∃ e, parseText (line 0 [.lengthof, .lparen, .id 0, .rparen, .dot, .id 1]) = some (.dot (.function ⟨.lengthof, 0, 0⟩ ⟨.lparen, 0, 1⟩ e ⟨.rparen, 0, 3⟩)
      ⟨.dot, 0, 4⟩ ⟨.id 1, 0, 5⟩) := by
  refine ⟨by decide +kernel, .atom ⟨.id 0, 0, 2⟩, by decide +kernel⟩

end Zserio.ExprParse
