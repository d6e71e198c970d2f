import Verif.Model.PyExpr
/-
Model of the formatting of expressions: ExpressionFormatter.java (compiler/core/src/zserio/extension/common) with
PythonExpressionFormattingPolicy.java (compiler/extensions/python/src/zserio/extension/python).

The texts are modelled as lists of tokens.  The formatter puts blanks around operators and after commas, so that the tokens of the
text are those listed here.
-/
namespace Zserio.Expression

/-- PythonExpressionFormattingPolicy.java:107-125 `getIdentifier`, 436-479 `formatSymbolIdentifier` and the overriding policies: the
dotted name for a symbol, and the names of properties (AccessorNameFormatter.java) for the members of compounds. -/
structure Names where
  head : Nat → PyStr
  attributes : Nat → List PyStr
  member : Nat → PyStr

/-- PythonExpressionFormattingPolicy.java:50-76: the prefixes of literals.  Expression.java:1885-1931 has already removed those of
the schema language (for octal literals the first `0`). -/
def Base.prefix : Base → PyStr
  | .bin => py! "0b"
  | .oct => py! "0o"
  | .dec => []
  | .hex => py! "0x"

/-- a dotted name -/
def dotted (head : PyStr) (attributes : List PyStr) : List Tok :=
  .name head :: attributes.flatMap fun s => [.dot, .name s]

/-- PythonExpressionFormattingPolicy.java:129-154, 224-336: the operators.  `isInt` says that the type of the expression is INTEGER
(321-329 `getDivide`). -/
def BinOp.token (isInt : Bool) : BinOp → Tok
  | .mul => .star
  | .div => if isInt then .slash2 else .slash
  | .mod => .percent
  | .add => .plus
  | .sub => .minus
  | .shl => .shl
  | .shr => .shr
  | .lt => .lt
  | .le => .le
  | .gt => .gt
  | .ge => .ge
  | .eq => .eq
  | .ne => .ne
  | .band => .amp
  | .bxor => .caret
  | .bor => .bar
  | .land => .kAnd
  | .lor => .kOr

/-- PythonExpressionFormattingPolicy.java:135-157 -/
def UnOp.token : UnOp → Tok
  | .plus => .plus
  | .minus => .minus
  | .tilde => .tilde
  | .bang => .kNot

/-- `zserio.builtin.` in front of the name of a function -/
def builtinCall (f : PyStr) : List Tok := dotted (py! "zserio") [py! "builtin", f] ++ [.lpar]

/-- ExpressionFormatter.java:64-99 `append`, 137-185 `emitAtom`, 187-236 `emitUnaryExpression`, 238-356 `emitBinaryExpression`,
358-384 `emitTernaryExpression` with PythonExpressionFormattingPolicy.java:50-364 -/
def Expr.format (Γ : Signature) (names : Names) : Expr → List Tok
  | .intLit base digits => [.number (base.prefix ++ digits)]
  | .floatLit text => [.float text]
  | .strLit text => [.str text]
  | .boolLit b => [if b then .kTrue else .kFalse]
  | .index => [.name (py! "zserio_index")]
  | .symbol id => dotted (names.head id) (names.attributes id)
  | .paren e => .lpar :: (e.format Γ names ++ [.rpar])
  | .call e => e.format Γ names ++ [.lpar, .rpar]
  | .element e i => e.format Γ names ++ (.lbrack :: (i.format Γ names ++ [.rbrack]))
  | .member e id => e.format Γ names ++ [.dot, .name (names.member id)]
  | .isset a b => builtinCall (py! "isset") ++ (a.format Γ names ++ .comma :: (b.format Γ names ++ [.rpar]))
  | .lengthof e =>
    (if e.type Γ = some .str then builtinCall (py! "lengthof_string") else [.name (py! "len"), .lpar]) ++
      (e.format Γ names ++ [.rpar])
  | .valueof e =>
    match e.type Γ with
    | some (.bitmask _) => .lpar :: (e.format Γ names ++ [.rpar, .dot, .name (py! "value")])
    | _ => e.format Γ names ++ [.dot, .name (py! "value")]
  | .numbits e => builtinCall (py! "numbits") ++ (e.format Γ names ++ [.rpar])
  | .unary op e => op.token :: e.format Γ names
  | .binary op a b =>
    a.format Γ names ++ op.token ((Expr.binary op a b).type Γ == some .int) :: b.format Γ names
  | .cond c a b =>
    .lpar :: (a.format Γ names ++ [.rpar, .kIf, .lpar] ++ c.format Γ names ++ [.rpar, .kElse, .lpar] ++ b.format Γ names ++ [.rpar])

end Zserio.Expression
