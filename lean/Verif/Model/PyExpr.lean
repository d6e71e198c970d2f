import Verif.Spec.Expression
import Verif.Model.Bitmask
import Verif.Model.Builtin
/-
The part of the Python language which the generated expressions use: tokens, the grammar of expressions and their values.  This is
not code of zserio, so it belongs to the trusted base.

The grammar is the one of "The Python Language Reference" (the rules `test` ... `atom` of the file Grammar/Grammar up to Python 3.8,
which give the same trees as the later ones), restricted to what occurs: no `lambda`, no `**`, no `in` and `is`, calls with at
most two arguments.
-/
namespace Zserio.Expression

/-- tokens; a number is its text, a string literal is its text without the quotes -/
inductive Tok where
  | number (text : PyStr)
  | float (text : PyStr)
  | str (text : PyStr)
  | name (s : PyStr)
  | kTrue
  | kFalse
  | kNot
  | kAnd
  | kOr
  | kIf
  | kElse
  | plus
  | minus
  | tilde
  | star
  | slash
  | slash2
  | percent
  | shl
  | shr
  | lt
  | le
  | gt
  | ge
  | eq
  | ne
  | amp
  | caret
  | bar
  | lpar
  | rpar
  | lbrack
  | rbrack
  | comma
  | dot
  deriving DecidableEq, Repr

/-- comparison operators -/
inductive CmpOp where
  | lt
  | le
  | gt
  | ge
  | eq
  | ne
  deriving DecidableEq, Repr

/-- arithmetic operators; `div` is `/` and `floordiv` is `//` -/
inductive ArithOp where
  | mul
  | div
  | floordiv
  | mod
  | add
  | sub
  | shl
  | shr
  | band
  | bxor
  | bor
  deriving DecidableEq, Repr

/-- signs -/
inductive SignOp where
  | plus
  | minus
  | tilde
  deriving DecidableEq, Repr

mutual
/-- the trees of expressions -/
inductive PyExpr where
  | number (text : PyStr)
  | float (text : PyStr)
  | str (text : PyStr)
  | const (b : Bool)
  | name (s : PyStr)
  | attr (e : PyExpr) (s : PyStr)
  | item (e i : PyExpr)
  | call0 (f : PyExpr)
  | call1 (f a : PyExpr)
  | call2 (f a b : PyExpr)
  | sign (op : SignOp) (e : PyExpr)
  | arith (op : ArithOp) (a b : PyExpr)
  | compare (a : PyExpr) (rest : PyChain)
  | not (e : PyExpr)
  | and (a b : PyExpr)
  | or (a b : PyExpr)
  | cond (c a b : PyExpr)
/-- the comparisons which follow the first operand: `a < b == c` compares `a` with `b` and `b` with `c` -/
inductive PyChain where
  | last (op : CmpOp) (b : PyExpr)
  | more (op : CmpOp) (b : PyExpr) (rest : PyChain)
end

/-- the operators of left associative rules, with the number of their rule -/
def Tok.binary : Tok → Option (Nat × (PyExpr → PyExpr → PyExpr))
  | .kOr => some (1, .or)
  | .kAnd => some (2, .and)
  | .bar => some (5, .arith .bor)
  | .caret => some (6, .arith .bxor)
  | .amp => some (7, .arith .band)
  | .shl => some (8, .arith .shl)
  | .shr => some (8, .arith .shr)
  | .plus => some (9, .arith .add)
  | .minus => some (9, .arith .sub)
  | .star => some (10, .arith .mul)
  | .slash => some (10, .arith .div)
  | .slash2 => some (10, .arith .floordiv)
  | .percent => some (10, .arith .mod)
  | _ => none

/-- `comp_op` -/
def Tok.comparison : Tok → Option CmpOp
  | .lt => some .lt
  | .le => some .le
  | .gt => some .gt
  | .ge => some .ge
  | .eq => some .eq
  | .ne => some .ne
  | _ => none

/-- the signs of `factor` -/
def Tok.sign : Tok → Option SignOp
  | .plus => some .plus
  | .minus => some .minus
  | .tilde => some .tilde
  | _ => none

mutual
/-- `Derives n ts t`: the tokens `ts` are an expression with the tree `t` by the rule number `n`:
0 `test`, 1 `or_test`, 2 `and_test`, 3 `not_test`, 4 `comparison`, 5 `expr`, 6 `xor_expr`, 7 `and_expr`, 8 `shift_expr`,
9 `arith_expr`, 10 `term`, 11 `factor`, 12 `atom_expr` -/
inductive Derives : Nat → List Tok → PyExpr → Prop where
  /-- test: or_test -/
  | test {ts t} : Derives 1 ts t → Derives 0 ts t
  /-- test: or_test 'if' or_test 'else' test -/
  | cond {as cs bs a c b} : Derives 1 as a → Derives 1 cs c → Derives 0 bs b →
      Derives 0 (as ++ .kIf :: (cs ++ .kElse :: bs)) (.cond c a b)
  /-- or_test: and_test ('or' and_test)*, ..., term: factor (('*'|'/'|'%'|'//') factor)* -/
  | ops {n ts rest a t} : n ∈ [1, 2, 5, 6, 7, 8, 9, 10] → Derives (n + 1) ts a → Tail n a rest t → Derives n (ts ++ rest) t
  /-- not_test: 'not' not_test -/
  | not {ts t} : Derives 3 ts t → Derives 3 (.kNot :: ts) (.not t)
  /-- not_test: comparison -/
  | notTest {ts t} : Derives 4 ts t → Derives 3 ts t
  /-- comparison: expr -/
  | comparison {ts t} : Derives 5 ts t → Derives 4 ts t
  /-- comparison: expr (comp_op expr)+ -/
  | compare {ts rest a c} : Derives 5 ts a → Chain rest c → Derives 4 (ts ++ rest) (.compare a c)
  /-- factor: ('+'|'-'|'~') factor -/
  | sign {k op ts t} : Tok.sign k = some op → Derives 11 ts t → Derives 11 (k :: ts) (.sign op t)
  /-- factor: atom_expr -/
  | factor {ts t} : Derives 12 ts t → Derives 11 ts t
  /-- atom_expr: atom trailer* -/
  | atomExpr {ts rest a t} : Atom ts a → Trailers a rest t → Derives 12 (ts ++ rest) t
/-- `(op operand)*` after the operand `a` -/
inductive Tail : Nat → PyExpr → List Tok → PyExpr → Prop where
  | nil {n a} : Tail n a [] a
  | cons {n k f ts rest a b t} : Tok.binary k = some (n, f) → Derives (n + 1) ts b → Tail n (f a b) rest t →
      Tail n a (k :: (ts ++ rest)) t
/-- `(comp_op expr)+` -/
inductive Chain : List Tok → PyChain → Prop where
  | last {k op ts b} : Tok.comparison k = some op → Derives 5 ts b → Chain (k :: ts) (.last op b)
  | more {k op ts rest b c} : Tok.comparison k = some op → Derives 5 ts b → Chain rest c →
      Chain (k :: (ts ++ rest)) (.more op b c)
/-- atom: '(' test ')' | NAME | NUMBER | STRING | 'True' | 'False' -/
inductive Atom : List Tok → PyExpr → Prop where
  | number {text} : Atom [.number text] (.number text)
  | float {text} : Atom [.float text] (.float text)
  | str {text} : Atom [.str text] (.str text)
  | true : Atom [.kTrue] (.const true)
  | false : Atom [.kFalse] (.const false)
  | name {s} : Atom [.name s] (.name s)
  | paren {ts t} : Derives 0 ts t → Atom (.lpar :: (ts ++ [.rpar])) t
/-- trailer*: trailer: '(' [arglist] ')' | '[' test ']' | '.' NAME -/
inductive Trailers : PyExpr → List Tok → PyExpr → Prop where
  | nil {a} : Trailers a [] a
  | attr {a s rest t} : Trailers (.attr a s) rest t → Trailers a (.dot :: .name s :: rest) t
  | item {a is i rest t} : Derives 0 is i → Trailers (.item a i) rest t → Trailers a (.lbrack :: (is ++ .rbrack :: rest)) t
  | call0 {a rest t} : Trailers (.call0 a) rest t → Trailers a (.lpar :: .rpar :: rest) t
  | call1 {a xs x rest t} : Derives 0 xs x → Trailers (.call1 a x) rest t →
      Trailers a (.lpar :: (xs ++ .rpar :: rest)) t
  | call2 {a xs x ys y rest t} : Derives 0 xs x → Derives 0 ys y → Trailers (.call2 a x y) rest t →
      Trailers a (.lpar :: (xs ++ .comma :: (ys ++ .rpar :: rest))) t
end

/-- What Python names refer to, besides of what schema expressions refer to: the values of names, the attributes of objects and
the bitmask classes. -/
structure PyWorld (O : Type) extends World O where
  name : PyStr → Option (Value O)
  property : O → PyStr → Option (Value O)
  bitmaskDef : Nat → BitmaskDef

/-- `int(text, 0)` for the texts of number tokens; a decimal number has no leading zero -/
def pyNumber : PyStr → Option Int
  | 48 :: 98 :: digits => if digits ≠ [] ∧ digits.all Base.bin.isDigit then some (Base.bin.value digits) else none
  | 48 :: 111 :: digits => if digits ≠ [] ∧ digits.all Base.oct.isDigit then some (Base.oct.value digits) else none
  | 48 :: 120 :: digits => if digits ≠ [] ∧ digits.all Base.hex.isDigit then some (Base.hex.value digits) else none
  | digits =>
    if digits ≠ [] ∧ digits.all Base.dec.isDigit ∧ (digits.head? = some 48 → digits.all (· == 48)) then
      some (Base.dec.value digits)
    else none

/-- `bool(x)`; objects without `__bool__` and `__len__` are true (lists are not used as conditions) -/
def Value.truth {O : Type} : Value O → Bool
  | .int x => x ≠ 0
  | .bool b => b
  | .str s => s ≠ []
  | .bytes bs => bs ≠ []
  | _ => true

/-- `bool` is a subclass of `int` -/
def Value.asInt {O : Type} : Value O → Option Int
  | .int x => some x
  | .bool b => some (if b then 1 else 0)
  | _ => none

/-- `a == b`; values of different types are different, except numbers (equality of floats is not used) -/
def pyEq {O : Type} (W : PyWorld O) : Value O → Value O → Except Err Bool
  | .str s, .str t => .ok (s = t)
  | .bytes s, .bytes t => .ok (s = t)
  | .enum c x, .enum c' y => .ok (c = c' ∧ x = y)
  | .bitmask c x, .bitmask c' y => .ok (c = c' ∧ x = y)
  | .other o, .other o' => .ok (W.equal o o')
  | .float _, _ => .error .type
  | _, .float _ => .error .type
  | a, b =>
    match a.asInt, b.asInt with
    | some x, some y => .ok (x = y)
    | _, _ => .ok false

/-- a comparison -/
def pyCompare {O : Type} (W : PyWorld O) (op : CmpOp) (a b : Value O) : Except Err Bool :=
  match op with
  | .eq => pyEq W a b
  | .ne => (pyEq W a b).map (!·)
  | _ =>
    match a, b with
    | .float x, .float y =>
      match op with
      | .lt => .ok (W.floatLess x y)
      | .gt => .ok (W.floatLess y x)
      | _ => .error .type
    | _, _ =>
      match a.asInt, b.asInt with
      | some x, some y =>
        match op with
        | .lt => .ok (x < y)
        | .le => .ok (x ≤ y)
        | .gt => .ok (y < x)
        | _ => .ok (y ≤ x)
      | _, _ => .error .type

/-- integer arithmetic: `//` and `%` round downwards -/
def pyArithInt (op : ArithOp) (x y : Int) : Except Err Int :=
  match op with
  | .mul => .ok (x * y)
  | .div => .error .type
  | .floordiv => if y = 0 then .error .zeroDivision else .ok (Int.fdiv x y)
  | .mod => if y = 0 then .error .zeroDivision else .ok (Int.fmod x y)
  | .add => .ok (x + y)
  | .sub => .ok (x - y)
  | .shl => if y < 0 then .error .negativeShift else .ok (x * 2 ^ y.toNat)
  | .shr => if y < 0 then .error .negativeShift else .ok (x / 2 ^ y.toNat)
  | .band => .ok (Int.land x y)
  | .bxor => .ok (Int.xor x y)
  | .bor => .ok (Int.lor x y)

/-- the operation on floating point numbers which an operator stands for -/
def ArithOp.float : ArithOp → Option BinOp
  | .mul => some .mul
  | .div => some .div
  | .add => some .add
  | .sub => some .sub
  | _ => none

/-- `a op b` -/
def pyArith {O : Type} (W : PyWorld O) (op : ArithOp) (a b : Value O) : Except Err (Value O) :=
  match a, b with
  | .str s, .str t => if op = .add then .ok (.str (s ++ t)) else .error .type
  | .bitmask c x, .bitmask c' y =>
    if c = c' then
      let x' : Bitmask (W.bitmaskDef c) := ⟨x⟩
      let y' : Bitmask (W.bitmaskDef c) := ⟨y⟩
      match op with
      | .band => (x'.and y').map fun r => .bitmask c r.value
      | .bxor => (x'.xor y').map fun r => .bitmask c r.value
      | .bor => (x'.or y').map fun r => .bitmask c r.value
      | _ => .error .type
    else .error .type
  | .float _, .float _ | .float _, .int _ | .int _, .float _ =>
    match op.float with
    | some f =>
      match W.floatArith f a b with
      | some x => .ok (.float x)
      | none => .error .zeroDivision
    | none => .error .type
  | _, _ =>
    match a.asInt, b.asInt with
    | some x, some y => (pyArithInt op x y).map .int
    | _, _ => .error .type

/-- `+a`, `-a`, `~a` -/
def pySign {O : Type} (W : PyWorld O) : SignOp → Value O → Except Err (Value O)
  | .plus, .float x => .ok (.float x)
  | .minus, .float x => .ok (.float (W.floatMinus x))
  | .tilde, .bitmask c x => ((⟨x⟩ : Bitmask (W.bitmaskDef c)).invert).map fun r => .bitmask c r.value
  | op, a =>
    match a.asInt with
    | some x =>
      match op with
      | .plus => .ok (.int x)
      | .minus => .ok (.int (-x))
      | .tilde => .ok (.int (Int.lnot x))
    | none => .error .type

/-- builtin.py:8-19 `isset` of two bitmasks -/
def pyIsset {O : Type} (W : PyWorld O) (a b : Value O) : Except Err (Value O) := do
  let x ← pyArith W .band a b
  let r ← pyEq W x b
  .ok (.bool r)

/-- `len(a)` -/
def pyLen {O : Type} (W : PyWorld O) : Value O → Except Err (Value O)
  | .other o =>
    match W.length o with
    | some n => .ok (.int n)
    | none => .error .type
  | .bytes bs => .ok (.int bs.length)
  | .str s => .ok (.int s.length)
  | _ => .error .type

/-- builtin.py:40-48 `lengthof_string` -/
def pyLengthofString {O : Type} : Value O → Except Err (Value O)
  | .str s => (lengthofString s).map fun (n : Nat) => .int (n : Int)
  | _ => .error .type

/-- builtin.py:22-37 `numbits`; a negative number is neither 0 nor 1 -/
def pyNumbits (x : Int) : Nat := if x < 0 then bitLength (x - 1) else numbits x.toNat

/-- the functions of builtin.py:8-48 which are called with `zserio.builtin.`, and `len` -/
inductive PyFunction where
  | len
  | isset
  | numbits
  | lengthofString
  deriving DecidableEq

/-- The function an expression in front of parentheses denotes.  The names `len` and `zserio` are not names of the schema (they are
not generated for any symbol in this position). -/
def PyExpr.function : PyExpr → Option PyFunction
  | .name f => if f = py! "len" then some .len else none
  | .attr (.attr (.name m) b) f =>
    if m = py! "zserio" ∧ b = py! "builtin" then
      if f = py! "isset" then some .isset
      else if f = py! "numbits" then some .numbits
      else if f = py! "lengthof_string" then some .lengthofString
      else none
    else none
  | _ => none

mutual
/-- the value of an expression, or the exception it raises -/
def PyExpr.eval {O : Type} (W : PyWorld O) : PyExpr → Except Err (Value O)
  | .number text =>
    match pyNumber text with
    | some x => .ok (.int x)
    | none => .error .type
  | .float text => .ok (.float (W.floatText text))
  | .str text => .ok (.str (W.stringText text))
  | .const b => .ok (.bool b)
  | .name s =>
    match W.name s with
    | some v => .ok v
    | none => .error .type
  | .attr e s => do
    match ← e.eval W with
    | .other o =>
      match W.property o s with
      | some v => .ok v
      | none => .error .type
    | .enum _ x => if s = py! "value" then .ok (.int x) else .error .type
    | .bitmask _ x => if s = py! "value" then .ok (.int x) else .error .type
    | _ => .error .type
  | .item e i => do
    match ← e.eval W, ← i.eval W with
    | .other o, .int i =>
      let n := (W.length o).getD 0
      match W.element o (if i < 0 then i + n else i).toNat with
      | some v => .ok v
      | none => .error .index
    | _, _ => .error .type
  | .call0 f => do
    match ← f.eval W with
    | .other o =>
      match W.result o with
      | some v => .ok v
      | none => .error .type
    | _ => .error .type
  | .call1 f a => do
    let x ← a.eval W
    match f.function with
    | some .len => pyLen W x
    | some .lengthofString => pyLengthofString x
    | some .numbits =>
      match x.asInt with
      | some x => .ok (.int (pyNumbits x))
      | none => .error .type
    | _ => .error .type
  | .call2 f a b => do
    let x ← a.eval W
    let y ← b.eval W
    match f.function with
    | some .isset => pyIsset W x y
    | _ => .error .type
  | .sign op e => do pySign W op (← e.eval W)
  | .arith op a b => do
    let x ← a.eval W
    let y ← b.eval W
    pyArith W op x y
  | .compare a rest => do rest.eval W (← a.eval W)
  | .not e => do .ok (.bool (!(← e.eval W).truth))
  | .and a b => do
    let x ← a.eval W
    if x.truth then b.eval W else .ok x
  | .or a b => do
    let x ← a.eval W
    if x.truth then .ok x else b.eval W
  | .cond c a b => do
    if (← c.eval W).truth then a.eval W else b.eval W
/-- the comparisons which follow the operand with the value `x` -/
def PyChain.eval {O : Type} (W : PyWorld O) (x : Value O) : PyChain → Except Err (Value O)
  | .last op b => do
    let y ← b.eval W
    .ok (.bool (← pyCompare W op x y))
  | .more op b rest => do
    let y ← b.eval W
    if ← pyCompare W op x y then rest.eval W y else .ok (.bool false)
end

end Zserio.Expression
