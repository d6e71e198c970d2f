import Verif.Model.ExprParse
import Verif.Spec.Expression
/-
From the tree of the parser to the expression of the schema.

Source: compiler/core/src/zserio/ast/ZserioAstBuilder.java:740-1005.
-/
namespace Zserio.ExprParse
open Expression (UnOp BinOp Base)

/-- literals (Expression.java strips prefixes and quotes) -/
inductive Literal where
  | int (base : Base) (digits : PyStr)
  | float (text : PyStr)
  | str (text : PyStr)
  | bool (b : Bool)

def Literal.expr : Literal → Expression.Expr
  | .int b d => .intLit b d
  | .float t => .floatLit t
  | .str t => .strLit t
  | .bool b => .boolLit b

/-- What the texts of tokens mean: literals, identifiers which are members, and names (identifiers or dotted names) which are resolved to
symbols (C88) -/
structure Meaning where
  literal : Nat → Literal
  resolve : Tree → Option Nat

/-- ZserioAstBuilder.java:832-840 -/
def unOp : Token → UnOp
  | ⟨.sym .plus, _, _⟩ => .plus
  | ⟨.sym .minus, _, _⟩ => .minus
  | ⟨.sym .tilde, _, _⟩ => .tilde
  | _ => .bang

/-- ZserioAstBuilder.java:842-978: the type of the token is the operator -/
def binOp : Token → BinOp
  | ⟨.sym .mul, _, _⟩ => .mul
  | ⟨.sym .div, _, _⟩ => .div
  | ⟨.sym .mod, _, _⟩ => .mod
  | ⟨.sym .plus, _, _⟩ => .add
  | ⟨.sym .minus, _, _⟩ => .sub
  | ⟨.sym .lshift, _, _⟩ => .shl
  | ⟨.sym .lt, _, _⟩ => .lt
  | ⟨.sym .le, _, _⟩ => .le
  | ⟨.sym .gt, _, _⟩ => .gt
  | ⟨.sym .ge, _, _⟩ => .ge
  | ⟨.sym .eq, _, _⟩ => .eq
  | ⟨.sym .ne, _, _⟩ => .ne
  | ⟨.sym .and, _, _⟩ => .band
  | ⟨.sym .xor, _, _⟩ => .bxor
  | ⟨.sym .or, _, _⟩ => .bor
  | ⟨.sym .land, _, _⟩ => .land
  | _ => .lor

/-- the number of an identifier -/
def Token.ident : Token → Nat
  | ⟨.id n, _, _⟩ => n
  | _ => 0

/-- ZserioAstBuilder.java:740-1005; names which are symbols are one node -/
def build (m : Meaning) : Tree → Expression.Expr
  | .paren _ e _ => .paren (build m e)
  | .call e _ _ => .call (build m e)
  | .array e _ i _ => .element (build m e) (build m i)
  | .dot e d n =>
    match m.resolve (.dot e d n) with
    | some s => .symbol s
    | none => .member (build m e) n.ident
  | .isset _ _ a _ b _ => .isset (build m a) (build m b)
  | .function o _ e _ =>
    match o.kind with
    | .lengthof => .lengthof (build m e)
    | .valueof => .valueof (build m e)
    | _ => .numbits (build m e)
  | .unary o e => .unary (unOp o) (build m e)
  | .binary a o b => .binary (binOp o) (build m a) (build m b)
  | .rshift a _ _ b => .binary .shr (build m a) (build m b)
  | .ternary a _ b _ c => .cond (build m a) (build m b) (build m c)
  | .atom t =>
    match t.kind with
    | .lit n => (m.literal n).expr
    | .index => .index
    | _ => .symbol ((m.resolve (.atom t)).getD t.ident)

end Zserio.ExprParse
