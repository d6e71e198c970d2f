import Verif.Model.ExprParse
/-
The table of precedences of the language guide (doc/ZserioLanguageOverview.md, Operator Precedence).
-/
namespace Zserio.ExprParse

/-- the line of the table of an operator with two operands, counted from the last line; none for operators with one operand only -/
def Sym.line : Sym → Option Nat
  | .mul | .div | .mod => some 11
  | .plus | .minus => some 10
  | .lshift => some 9
  | .lt | .gt | .le | .ge => some 8
  | .eq | .ne => some 7
  | .and => some 6
  | .xor => some 5
  | .or => some 4
  | .land => some 3
  | .lor => some 2
  | .bang | .tilde => none

/-- operators with one operand -/
def Sym.IsUnary (s : Sym) : Prop := s = .plus ∨ s = .minus ∨ s = .bang ∨ s = .tilde

/-- the line of the outermost operator of a tree; 15 for what needs no grouping.  (`lengthof`, `valueof`, `numbits` and `isset` are always written
with parentheses.) -/
def Tree.line : Tree → Nat
  | .paren _ _ _ => 15
  | .call _ _ _ => 14
  | .array _ _ _ _ => 14
  | .dot _ _ _ => 14
  | .isset _ _ _ _ _ _ => 15
  | .function _ _ _ _ => 15
  | .unary _ _ => 12
  | .binary _ o _ =>
    match o.kind with
    | .sym s => s.line.getD 0
    | _ => 0
  | .rshift _ _ _ _ => 9
  | .ternary _ _ _ _ _ => 1
  | .atom _ => 15

/-- the text of a tree -/
def Tree.tokens : Tree → List Token
  | .paren l e r => l :: e.tokens ++ [r]
  | .call e l r => e.tokens ++ [l, r]
  | .array e l i r => e.tokens ++ l :: i.tokens ++ [r]
  | .dot e d n => e.tokens ++ [d, n]
  | .isset o l a c b r => o :: l :: a.tokens ++ c :: b.tokens ++ [r]
  | .function o l e r => o :: l :: e.tokens ++ [r]
  | .unary o e => o :: e.tokens
  | .binary a o b => a.tokens ++ o :: b.tokens
  | .rshift a o o' b => a.tokens ++ o :: o' :: b.tokens
  | .ternary a q b c d => a.tokens ++ q :: b.tokens ++ c :: d.tokens
  | .atom t => [t]

/-- every node has the tokens of its kind -/
def Tree.Proper : Tree → Prop
  | .paren l e r => l.kind = .lparen ∧ e.Proper ∧ r.kind = .rparen
  | .call e l r => e.Proper ∧ l.kind = .lparen ∧ r.kind = .rparen
  | .array e l i r => e.Proper ∧ l.kind = .lbracket ∧ i.Proper ∧ r.kind = .rbracket
  | .dot e d n => e.Proper ∧ d.kind = .dot ∧ ∃ i, n.kind = .id i
  | .isset o l a c b r => o.kind = .isset ∧ l.kind = .lparen ∧ a.Proper ∧ c.kind = .comma ∧ b.Proper ∧ r.kind = .rparen
  | .function o l e r => (o.kind = .lengthof ∨ o.kind = .valueof ∨ o.kind = .numbits) ∧ l.kind = .lparen ∧ e.Proper ∧ r.kind = .rparen
  | .unary o e => (∃ s, o.kind = .sym s ∧ s.IsUnary) ∧ e.Proper
  | .binary a o b => a.Proper ∧ (∃ s n, o.kind = .sym s ∧ s.line = some n) ∧ b.Proper
  | .rshift a o o' b => a.Proper ∧ o.kind = .sym .gt ∧ o'.kind = .sym .gt ∧ b.Proper
  | .ternary a q b c d => a.Proper ∧ q.kind = .question ∧ b.Proper ∧ c.kind = .colon ∧ d.Proper
  | .atom t => (∃ n, t.kind = .lit n) ∨ t.kind = .index ∨ ∃ n, t.kind = .id n

/-- The operators are grouped as the table says: operators on a higher line bind tighter; operators on the same line are grouped from left to right,
except for the ternary operator, which is grouped from right to left. -/
def Tree.Grouped : Tree → Prop
  | .paren _ e _ => e.Grouped
  | .call e _ _ => e.Grouped ∧ 14 ≤ e.line
  | .array e _ i _ => e.Grouped ∧ 14 ≤ e.line ∧ i.Grouped
  | .dot e _ _ => e.Grouped ∧ 14 ≤ e.line
  | .isset _ _ a _ b _ => a.Grouped ∧ b.Grouped
  | .function _ _ e _ => e.Grouped
  | .unary _ e => e.Grouped ∧ 12 ≤ e.line
  | t@(.binary a _ b) => a.Grouped ∧ t.line ≤ a.line ∧ b.Grouped ∧ t.line < b.line
  | .rshift a _ _ b => a.Grouped ∧ 9 ≤ a.line ∧ b.Grouped ∧ 9 < b.line
  | .ternary a _ b _ d => a.Grouped ∧ 1 < a.line ∧ b.Grouped ∧ d.Grouped
  | .atom _ => True

/-- `>>` has no space between its two characters -/
def Tree.Tight : Tree → Prop
  | .paren _ e _ => e.Tight
  | .call e _ _ => e.Tight
  | .array e _ i _ => e.Tight ∧ i.Tight
  | .dot e _ _ => e.Tight
  | .isset _ _ a _ b _ => a.Tight ∧ b.Tight
  | .function _ _ e _ => e.Tight
  | .unary _ e => e.Tight
  | .binary a _ b => a.Tight ∧ b.Tight
  | .rshift a o o' b => a.Tight ∧ b.Tight ∧ o.line = o'.line ∧ o.column + 1 = o'.column
  | .ternary a _ b _ c => a.Tight ∧ b.Tight ∧ c.Tight
  | .atom _ => True

/-- the tree without parentheses -/
def Tree.strip : Tree → Tree
  | .paren _ e _ => e.strip
  | .call e l r => .call e.strip l r
  | .array e l i r => .array e.strip l i.strip r
  | .dot e d n => .dot e.strip d n
  | .isset o l a c b r => .isset o l a.strip c b.strip r
  | .function o l e r => .function o l e.strip r
  | .unary o e => .unary o e.strip
  | .binary a o b => .binary a.strip o b.strip
  | .rshift a o o' b => .rshift a.strip o o' b.strip
  | .ternary a q b c d => .ternary a.strip q b.strip c d.strip
  | .atom t => .atom t

end Zserio.ExprParse
