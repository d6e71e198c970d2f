import Verif.Model.ExprCompare
/-
Specification vocabulary for the comparison of expressions.
-/
namespace Zserio.ExprParse

/-- a token without its position -/
def Token.plain (t : Token) : Token := ⟨t.kind, 0, 0⟩

/-- the tree without positions -/
def Tree.plain : Tree → Tree
  | .paren l e r => .paren l.plain e.plain r.plain
  | .call e l r => .call e.plain l.plain r.plain
  | .array e l i r => .array e.plain l.plain i.plain r.plain
  | .dot e d n => .dot e.plain d.plain n.plain
  | .isset o l a c b r => .isset o.plain l.plain a.plain c.plain b.plain r.plain
  | .function o l e r => .function o.plain l.plain e.plain r.plain
  | .unary o e => .unary o.plain e.plain
  | .binary a o b => .binary a.plain o.plain b.plain
  | .rshift a o o' b => .rshift a.plain o.plain o'.plain b.plain
  | .ternary a q b c d => .ternary a.plain q.plain b.plain c.plain d.plain
  | .atom t => .atom t.plain

/-- `t` is `e` in any number of parentheses -/
inductive Parens (e : Tree) : Tree → Prop
  | none : Parens e e
  | more {t : Tree} (l r : Token) (h : Parens e t) : Parens e (.paren l t r)

/-- `p.q.x` for the prefix `p, q` and the identifier `x` -/
def dotted (e : Tree) : List Nat → Tree
  | [] => e
  | p :: ps => dotted (.dot e ⟨.dot, 0, 0⟩ ⟨.id p, 0, 0⟩) ps

/-- the identifier behind the prefix -/
def behind (pre : List Nat) (n : Nat) : Tree :=
  match pre with
  | [] => .atom ⟨.id n, 0, 0⟩
  | p :: ps => dotted (.atom ⟨.id p, 0, 0⟩) (ps ++ [n])

/-- the expression as seen from outside: each field, function or parameter is reached by the prefix -/
def Tree.seen (inner : Nat → Bool) (pre : List Nat) : Tree → Tree
  | .paren l e r => .paren l (e.seen inner pre) r
  | .call e l r => .call (e.seen inner pre) l r
  | .array e l i r => .array (e.seen inner pre) l (i.seen inner pre) r
  | .dot e d n => .dot (e.seen inner pre) d n
  | .isset o l a c b r => .isset o l (a.seen inner pre) c (b.seen inner pre) r
  | .function o l e r => .function o l (e.seen inner pre) r
  | .unary o e => .unary o (e.seen inner pre)
  | .binary a o b => .binary (a.seen inner pre) o (b.seen inner pre)
  | .rshift a o o' b => .rshift (a.seen inner pre) o o' (b.seen inner pre)
  | .ternary a q b c d => .ternary (a.seen inner pre) q (b.seen inner pre) c (d.seen inner pre)
  | .atom t =>
    match t.kind with
    | .id n => if inner n then behind pre n else .atom t
    | _ => .atom t

end Zserio.ExprParse
