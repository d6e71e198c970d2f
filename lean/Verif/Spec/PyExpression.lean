import Verif.Spec.Bitmask
import Verif.Model.Expression
/-
Which Python names the formatted expressions may use, and the expressions for which formatting them is harmless.
-/
namespace Zserio.Expression

/-- the tree of a dotted name -/
def dottedTree (head : PyStr) (attributes : List PyStr) : PyExpr := attributes.foldl (fun t s => .attr t s) (.name head)

/-- The Python names which the formatter uses denote what the schema names denote: where the code of the expression stands, the
dotted name of a symbol has the value of the symbol, `zserio_index` is the index, the property of a member of a compound has the
value of the member, and the classes of bitmasks have the widths of the bitmasks. -/
structure Agrees {O : Type} (W : PyWorld O) (names : Names) : Prop where
  symbol : ∀ id v, W.symbol id = some v → (dottedTree (names.head id) (names.attributes id)).eval W = .ok v
  index : ∀ i, W.index = some i → W.name (py! "zserio_index") = some (.int i)
  member : ∀ o m v, W.member o m = some v → W.property o (names.member m) = some v
  width : ∀ c, (W.bitmaskDef c).width = some (W.width c)

/-- a comparison which is not in parentheses -/
def Expr.IsComparison : Expr → Bool
  | .binary op _ _ => op.level == 6 || op.level == 7
  | _ => false

/-- a negation which is not in parentheses -/
def Expr.IsNegation : Expr → Bool
  | .unary .bang _ => true
  | _ => false

/-- a conditional expression which is not in parentheses -/
def Expr.IsConditional : Expr → Bool
  | .cond _ _ _ => true
  | _ => false

/-- In the whole expression, an operand of `==` and `!=` which is a comparison is in parentheses, a right operand of these which is a
negation is in parentheses, and so is a conditional expression whose enumeration value `valueof` takes. -/
def Expr.Parenthesised (Γ : Signature) : Expr → Prop
  | .paren e | .lengthof e | .numbits e | .call e | .member e _ | .unary _ e => e.Parenthesised Γ
  | .element a b | .isset a b => a.Parenthesised Γ ∧ b.Parenthesised Γ
  | .valueof e => e.Parenthesised Γ ∧ (∀ c, e.type Γ = some (.enum c) → e.IsConditional = false)
  | .binary op a b => a.Parenthesised Γ ∧ b.Parenthesised Γ ∧
      (op = .eq ∨ op = .ne → a.IsComparison = false ∧ b.IsComparison = false ∧ b.IsNegation = false)
  | .cond c a b => c.Parenthesised Γ ∧ a.Parenthesised Γ ∧ b.Parenthesised Γ
  | _ => True

end Zserio.Expression
