import Verif.Model.ExprParse
/-
Model of `ExpressionComparator` (ExpressionComparator.java) on the trees of the parser: two expressions are compared by
formatting them.

A text is the list of its pieces, where a piece which is a token is the kind of that token.  Identifiers stand for the objects
they are resolved to.  Simplified: hash codes of objects of the syntax tree are taken to be different for different objects.
-/
namespace Zserio.ExprParse

/-- ExpressionComparator.java:63-70 `removeParentheses` -/
def Tree.removeParentheses : Tree → Tree
  | .paren _ e _ => e.removeParentheses
  | e => e

/-- ExpressionFormatter.java with the policies of ExpressionComparator.java:72-222 and DefaultExpressionFormattingPolicy.java:30-184:
`formatGetter` -/
def Tree.formatted : Tree → List Kind
  | .paren _ e _ => .lparen :: e.formatted ++ [.rparen]
  | .call e _ _ => e.formatted ++ [.lparen, .rparen]
  | .array e _ i _ => e.formatted ++ .lbracket :: i.formatted ++ [.rbracket]
  | .dot e _ n => e.formatted ++ [.dot, n.kind]
  | .isset _ _ a _ b _ => .isset :: .lparen :: a.formatted ++ .comma :: b.formatted ++ [.rparen]
  | .function o _ e _ => o.kind :: .lparen :: e.formatted ++ [.rparen]
  | .unary o e => o.kind :: e.formatted
  | .binary a o b => a.formatted ++ o.kind :: b.formatted
  | .rshift a _ _ b => a.formatted ++ .sym .gt :: .sym .gt :: b.formatted
  | .ternary a _ b _ d => .lparen :: a.formatted ++ .rparen :: .question :: b.formatted ++ .colon :: d.formatted
  | .atom t => [t.kind]

/-- ExpressionComparator.java:76-86 and 143-165, `getIdentifier` with a dot prefix: the prefix is put in front of the most left
identifiers which are fields, functions or parameters (`inner`).  Identifiers behind a dot are not most left. -/
def Tree.formattedAfter (inner : Nat → Bool) (pre : List Nat) : Tree → List Kind
  | .paren _ e _ => .lparen :: e.formattedAfter inner pre ++ [.rparen]
  | .call e _ _ => e.formattedAfter inner pre ++ [.lparen, .rparen]
  | .array e _ i _ => e.formattedAfter inner pre ++ .lbracket :: i.formattedAfter inner pre ++ [.rbracket]
  | .dot e _ n => e.formattedAfter inner pre ++ [.dot, n.kind]
  | .isset _ _ a _ b _ => .isset :: .lparen :: a.formattedAfter inner pre ++ .comma :: b.formattedAfter inner pre ++ [.rparen]
  | .function o _ e _ => o.kind :: .lparen :: e.formattedAfter inner pre ++ [.rparen]
  | .unary o e => o.kind :: e.formattedAfter inner pre
  | .binary a o b => a.formattedAfter inner pre ++ o.kind :: b.formattedAfter inner pre
  | .rshift a _ _ b => a.formattedAfter inner pre ++ .sym .gt :: .sym .gt :: b.formattedAfter inner pre
  | .ternary a _ b _ d =>
    .lparen :: a.formattedAfter inner pre ++ .rparen :: .question :: b.formattedAfter inner pre ++ .colon :: d.formattedAfter inner pre
  | .atom t =>
    match t.kind with
    | .id n => (if inner n then pre.flatMap fun p => [.id p, .dot] else []) ++ [.id n]
    | k => [k]

/-- ExpressionComparator.java:42-61 `equals` with a dot prefix for the second expression -/
def sameTextAfter (inner : Nat → Bool) (pre : List Nat) (t t' : Tree) : Bool :=
  t.removeParentheses.formatted == t'.removeParentheses.formattedAfter inner pre

/-- ExpressionComparator.java:23-28 `equals` -/
def sameText (t t' : Tree) : Bool := t.removeParentheses.formatted == t'.removeParentheses.formatted

end Zserio.ExprParse
