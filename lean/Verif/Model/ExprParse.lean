import Verif.Model.JsonText
/-
How the text of an expression is parsed.

Sources: compiler/core/antlr/ZserioParser.g4 (rule `expression`), ZserioLexer.g4, compiler/core/src/zserio/ast/ZserioAstBuilder.java.
The parser is the one which ANTLR 4 generates from a left recursive rule: the method `expression(p)` reads a prefix, and then extends it as long as
there is an alternative whose precedence is at least `p`.  Alternative `i` of the 23 has the precedence `24 - i`.
-/
namespace Zserio.ExprParse

/-- operators which are one token (ZserioLexer.g4; there is no token for `>>`) -/
inductive Sym where
  | plus | minus | bang | tilde | mul | div | mod | lshift | lt | le | ge | gt | eq | ne | and | xor | or | land | lor
  deriving DecidableEq, Repr

/-- tokens of expressions; `other`: any other token, for instance a semicolon -/
inductive Kind where
  | lparen | rparen | lbracket | rbracket | dot | comma | question | colon | isset | lengthof | valueof | numbits | index
  | sym (s : Sym)
  | lit (n : Nat)
  | id (n : Nat)
  | other (n : Nat)
  deriving DecidableEq, Repr

/-- a token and its position -/
structure Token where
  kind : Kind
  line : Nat
  column : Nat
  deriving DecidableEq, Repr

/-- Trees of the parser, with their tokens.  `rshift` is `GT GT`. -/
inductive Tree where
  | paren (l : Token) (e : Tree) (r : Token)
  | call (e : Tree) (l r : Token)
  | array (e : Tree) (l : Token) (i : Tree) (r : Token)
  | dot (e : Tree) (d n : Token)
  | isset (o l : Token) (a : Tree) (c : Token) (b : Tree) (r : Token)
  | function (o l : Token) (e : Tree) (r : Token)
  | unary (o : Token) (e : Tree)
  | binary (a : Tree) (o : Token) (b : Tree)
  | rshift (a : Tree) (o o' : Token) (b : Tree)
  | ternary (a : Tree) (q : Token) (b : Tree) (c : Token) (d : Tree)
  | atom (t : Token)
  deriving DecidableEq, Repr

/-- ZserioParser.g4:359-368: the precedence of an operator with two operands, `24 - i` for alternative `i` -/
def binaryPrec : Sym → Option Nat
  | .mul => some 14
  | .div => some 14
  | .mod => some 14
  | .plus => some 13
  | .minus => some 13
  | .lshift => some 12
  | .lt => some 11
  | .le => some 11
  | .gt => some 11
  | .ge => some 11
  | .eq => some 10
  | .ne => some 10
  | .and => some 9
  | .xor => some 8
  | .or => some 7
  | .land => some 6
  | .lor => some 5
  | .bang => none
  | .tilde => none

/-- ZserioParser.g4:358 -/
def isUnary : Sym → Bool
  | .plus => true
  | .minus => true
  | .bang => true
  | .tilde => true
  | _ => false

/-- the alternative by which an expression is extended -/
inductive Extension where
  | call | array | dot | rshift | ternary
  | binary (k : Nat)
  deriving DecidableEq, Repr

/-- its precedence -/
def Extension.prec : Extension → Nat
  | .call => 22
  | .array => 21
  | .dot => 20
  | .rshift => 12
  | .ternary => 4
  | .binary k => k

/-- ZserioParser.g4:351-369: the alternative by which these tokens extend an expression, without its predicate; at most two tokens decide, since
no expression begins with `>` -/
def extension : List Token → Option Extension
  | ⟨.lparen, _, _⟩ :: ⟨.rparen, _, _⟩ :: _ => some .call
  | ⟨.lbracket, _, _⟩ :: _ => some .array
  | ⟨.dot, _, _⟩ :: ⟨.id _, _, _⟩ :: _ => some .dot
  | ⟨.sym .gt, _, _⟩ :: ⟨.sym .gt, _, _⟩ :: _ => some .rshift
  | ⟨.sym s, _, _⟩ :: _ => (binaryPrec s).map .binary
  | ⟨.question, _, _⟩ :: _ => some .ternary
  | _ => none

mutual

/-- `expression(p)`: the tree and the tokens which are left; none for a syntax error.  `f` bounds the number of nested calls and steps of loops. -/
def parseExpr : Nat → Nat → List Token → Option (Tree × List Token)
  | 0, _, _ => none
  | f + 1, p, ts =>
    match parsePrefix f ts with
    | none => none
    | some (e, rest) => parseLoop f p e rest

/-- ZserioParser.g4:350, 354-358, 370-372: alternatives which do not begin with an expression -/
def parsePrefix : Nat → List Token → Option (Tree × List Token)
  | 0, _ => none
  | _ + 1, [] => none
  | f + 1, t :: ts =>
    match t.kind with
    | .lparen =>
      match parseExpr f 0 ts with
      | some (e, r :: rest) => if r.kind = .rparen then some (.paren t e r, rest) else none
      | _ => none
    | .isset =>
      match ts with
      | [] => none
      | l :: ts =>
        if l.kind = .lparen then
          match parseExpr f 0 ts with
          | some (a, c :: rest) =>
            if c.kind = .comma then
              match parseExpr f 0 rest with
              | some (b, r :: rest) => if r.kind = .rparen then some (.isset t l a c b r, rest) else none
              | _ => none
            else none
          | _ => none
        else none
    | .sym s =>
      if isUnary s then
        match parseExpr f 15 ts with
        | some (e, rest) => some (.unary t e, rest)
        | none => none
      else none
    | .lit _ => some (.atom t, ts)
    | .index => some (.atom t, ts)
    | .id _ => some (.atom t, ts)
    | .rparen => none
    | .lbracket => none
    | .rbracket => none
    | .dot => none
    | .comma => none
    | .question => none
    | .colon => none
    | .other _ => none
    | _ =>
      match ts with
      | [] => none
      | l :: ts =>
        if l.kind = .lparen then
          match parseExpr f 0 ts with
          | some (e, r :: rest) => if r.kind = .rparen then some (.function t l e r, rest) else none
          | _ => none
        else none

/-- the loop: `while (…) if (precpred(_ctx, k)) …` -/
def parseLoop : Nat → Nat → Tree → List Token → Option (Tree × List Token)
  | 0, _, _, _ => none
  | f + 1, p, e, ts =>
    match extension ts with
    | none => some (e, ts)
    | some x =>
      if x.prec < p then some (e, ts)
      else
        match x, ts with
        | .call, l :: r :: ts => parseLoop f p (.call e l r) ts
        | .array, l :: ts =>
          match parseExpr f 0 ts with
          | some (i, r :: rest) => if r.kind = .rbracket then parseLoop f p (.array e l i r) rest else none
          | _ => none
        | .dot, d :: n :: ts => parseLoop f p (.dot e d n) ts
        | .rshift, o :: o' :: ts =>
          match parseExpr f 13 ts with
          | some (b, rest) => parseLoop f p (.rshift e o o' b) rest
          | none => none
        | .ternary, q :: ts =>
          match parseExpr f 0 ts with
          | some (b, c :: rest) =>
            if c.kind = .colon then
              match parseExpr f 4 rest with
              | some (d, rest) => parseLoop f p (.ternary e q b c d) rest
              | none => none
            else none
          | _ => none
        | .binary k, o :: ts =>
          match parseExpr f (k + 1) ts with
          | some (b, rest) => parseLoop f p (.binary e o b) rest
          | none => none
        | _, _ => none

end

/-- the whole text is an expression -/
def parseText (ts : List Token) : Option Tree :=
  match parseExpr (2 * ts.length + 2) 0 ts with
  | some (e, []) => some e
  | _ => none

/-- ZserioAstBuilder.java:865-885 `visitShiftExpression`, for all nodes: the columns of both tokens of `>>` are compared -/
def checkShifts : Tree → Bool
  | .paren _ e _ => checkShifts e
  | .call e _ _ => checkShifts e
  | .array e _ i _ => checkShifts e && checkShifts i
  | .dot e _ _ => checkShifts e
  | .isset _ _ a _ b _ => checkShifts a && checkShifts b
  | .function _ _ e _ => checkShifts e
  | .unary _ e => checkShifts e
  | .binary a _ b => checkShifts a && checkShifts b
  | .rshift a o o' b => checkShifts a && checkShifts b && (o.column + 1 = o'.column)
  | .ternary a _ b _ c => checkShifts a && checkShifts b && checkShifts c
  | .atom _ => true

/-- the tree of an expression in a schema, none if it is refused -/
def readExpr (ts : List Token) : Option Tree :=
  match parseText ts with
  | none => none
  | some e => if checkShifts e then some e else none

end Zserio.ExprParse
