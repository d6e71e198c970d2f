import Verif.Lemmas.ExpressionMain
/-
Property C67: the Python text generated for an expression of the schema has the value of the expression.

`Expr` and `Expr.eval` (Spec/Expression.lean) are the expressions of the schema language and their values by the language guide,
`Expr.format` (Model/Expression.lean) is the text which the compiler writes, `Derives` and `PyExpr.eval` (Model/PyExpr.lean) are
Python's grammar and the values of Python expressions.
-/
set_option linter.unusedSimpArgs false
namespace Zserio.Expression

variable {O : Type}

theorem apply_java {W : World O} {op : BinOp} {x y : Value O}
    (h : op = .div ∨ op = .mod → ∀ m n, x = .int m → y = .int n → 0 ≤ m ∧ 0 ≤ n) : op.apply W .java x y = op.apply W .floor x y := by
  cases x <;> cases y <;> (try rfl)
  rename_i m n
  have hq : 0 ≤ m → 0 ≤ n → Int.tdiv m n = Int.fdiv m n := fun h1 h2 => by rw [Int.tdiv_eq_ediv_of_nonneg h1, Int.fdiv_eq_ediv_of_nonneg m h2]
  have hr : 0 ≤ m → 0 ≤ n → Int.tmod m n = Int.fmod m n := fun h1 h2 => by rw [Int.tmod_eq_emod_of_nonneg h1, Int.fmod_eq_emod_of_nonneg m h2]
  cases op <;> (try rfl)
  · obtain ⟨h1, h2⟩ := h (.inl rfl) m n rfl rfl
    simp only [BinOp.apply, BinOp.compareInt, BinOp.arithInt, Division.java, Division.floor, hq h1 h2]
  · obtain ⟨h1, h2⟩ := h (.inr rfl) m n rfl rfl
    simp only [BinOp.apply, BinOp.compareInt, BinOp.arithInt, Division.java, Division.floor, hr h1 h2]

/-- Without negative operands of divisions it does not matter how they are rounded. -/
theorem natural_eval {W : World O} (e : Expr) (h : e.NaturalDivisions W) : e.eval W .java = e.eval W .floor := by
  induction e with
  | paren e ih => exact ih h
  | call e ih => simp only [Expr.eval, ih h]
  | element a b iha ihb => simp only [Expr.eval, iha h.1, ihb h.2]
  | member e id ih => simp only [Expr.eval, ih h]
  | isset a b iha ihb => simp only [Expr.eval, iha h.1, ihb h.2]
  | lengthof e ih => simp only [Expr.eval, ih h]
  | valueof e ih => simp only [Expr.eval, ih h]
  | numbits e ih => simp only [Expr.eval, ih h]
  | unary op e ih => simp only [Expr.eval, ih h]
  | binary op a b iha ihb =>
    obtain ⟨h1, h2, h3⟩ := h
    have ha := iha h1
    have hb := ihb h2
    rw [ha, hb] at h3
    cases op
    case land => simp only [Expr.eval, ha, hb]
    case lor => simp only [Expr.eval, ha, hb]
    all_goals
      simp only [Expr.eval, ha, hb]
      split
      · rename_i hx hy
        exact apply_java fun ho m n hm hn => h3 ho m n (hm ▸ hx) (hn ▸ hy)
      · rfl
  | cond c a b ihc iha ihb => simp only [Expr.eval, ihc h.1, iha h.2.1, ihb h.2.2]
  | _ => rfl

/-- **C67.** The text is a Python expression, and it is one in only one way. -/
theorem C67_syntax {W : PyWorld O} {Γ : Signature} {names : Names} {T : O → Ty → Prop} (hW : W.toWorld.Typed Γ T) (hA : Agrees W names)
    (e : Expr) (ty : Ty) (ht : e.type Γ = some ty) (hp : e.Parsed) (hs : e.Parenthesised Γ) (hl : e.Literals) :
    ∃! t, Derives 0 (e.format Γ names) t := by
  obtain ⟨t, h1, _⟩ := (formats hW hA e ty ht hp hs hl).1
  exact ⟨t, h1.weaken (Nat.zero_le _) (pyLevel_le e), fun t' h' => h'.tree_unique (h1.weaken (Nat.zero_le _) (pyLevel_le e))⟩

/-- **C67.** For every well-typed expression of the schema language, if the Python names denote what the schema names denote: when
Python evaluates the generated text, the result is the value of the expression with divisions which round downwards.  The missing
part, which is false (see below): expressions with comparisons of comparisons, `== !`, or `valueof` of a conditional expression. -/
theorem C67_floor_partial {W : PyWorld O} {Γ : Signature} {names : Names} {T : O → Ty → Prop} (hW : W.toWorld.Typed Γ T) (hA : Agrees W names)
    (e : Expr) (ty : Ty) (ht : e.type Γ = some ty) (hp : e.Parsed) (hs : e.Parenthesised Γ) (hl : e.Literals)
    (t : PyExpr) (hd : Derives 0 (e.format Γ names) t) (v : Value O) (hv : e.eval W.toWorld .floor = some v) : t.eval W = .ok v := by
  obtain ⟨t', h1, h2⟩ := (formats hW hA e ty ht hp hs hl).1
  rw [hd.tree_unique (h1.weaken (Nat.zero_le _) (pyLevel_le e))]
  exact h2 v hv

/-- **C67.** ... and it is the value of the language guide if no integer division has a negative operand. -/
theorem C67_value_partial {W : PyWorld O} {Γ : Signature} {names : Names} {T : O → Ty → Prop} (hW : W.toWorld.Typed Γ T) (hA : Agrees W names)
    (e : Expr) (ty : Ty) (ht : e.type Γ = some ty) (hp : e.Parsed) (hs : e.Parenthesised Γ) (hl : e.Literals)
    (hn : e.NaturalDivisions W.toWorld) (t : PyExpr) (hd : Derives 0 (e.format Γ names) t) (v : Value O) (hv : e.eval W.toWorld .java = some v) :
    t.eval W = .ok v :=
  C67_floor_partial hW hA e ty ht hp hs hl t hd v (natural_eval e hn ▸ hv)

/-- **C67.** The values of expressions have the types which the compiler computes. -/
theorem C67_types {W : World O} {Γ : Signature} {T : O → Ty → Prop} (hW : W.Typed Γ T) (D : Division) (e : Expr) (t : Ty) (v : Value O)
    (ht : e.type Γ = some t) (hv : e.eval W D = some v) : v.HasType T t := type_sound hW D e ht hv

namespace Demo

/-- A compound with a parameter `p`, which has an array `data`, a string field `s`, boolean fields, an integer field `n`, a bitmask
field `m`, the value `X` of the bitmask, and an enumeration with two items. -/
def signature : Signature where
  symbol
    | 0 => some (.compound 0)
    | 1 => some .str
    | 2 => some .bool
    | 3 => some .bool
    | 4 => some .int
    | 5 => some (.bitmask 0)
    | 6 => some (.bitmask 0)
    | 7 => some (.enum 0)
    | 8 => some (.enum 0)
    | _ => none
  member
    | 0, 0 => some (.array .int)
    | _, _ => none

inductive Obj where
  | self
  | p
  | data
  | maskClass
  | enumClass
  deriving DecidableEq

def symbolValue : Nat → Option (Value Obj)
  | 0 => some (.other .p)
  | 1 => some (.str (py! "äb"))
  | 2 => some (.bool true)
  | 3 => some (.bool false)
  | 4 => some (.int (-7))
  | 5 => some (.bitmask 0 3)
  | 6 => some (.bitmask 0 4)
  | 7 => some (.enum 0 10)
  | 8 => some (.enum 0 20)
  | _ => none

def names : Names where
  head
    | 6 => py! "Mask"
    | 7 => py! "Color"
    | 8 => py! "Color"
    | _ => py! "self"
  attributes
    | 0 => [py! "_p_"]
    | 1 => [py! "s"]
    | 2 => [py! "flag"]
    | 3 => [py! "done"]
    | 4 => [py! "n"]
    | 5 => [py! "m"]
    | 6 => [py! "Values", py! "X"]
    | 7 => [py! "RED"]
    | _ => [py! "BLUE"]
  member _ := py! "data"

def memberValue : Obj → Nat → Option (Value Obj)
  | .p, 0 => some (.other .data)
  | _, _ => none

def elementValue : Obj → Nat → Option (Value Obj)
  | .data, 0 => some (.int 10)
  | .data, 1 => some (.int 20)
  | _, _ => none

def lengthValue : Obj → Option Nat
  | .data => some 2
  | _ => none

def nameValue (s : PyStr) : Option (Value Obj) :=
  if s = py! "self" then some (.other .self)
  else if s = py! "Mask" then some (.other .maskClass)
  else if s = py! "Color" then some (.other .enumClass)
  else if s = py! "zserio_index" then some (.int 1)
  else none

def propertyValue (o : Obj) (s : PyStr) : Option (Value Obj) :=
  match o with
  | .self =>
    if s = py! "_p_" then some (.other .p)
    else if s = py! "s" then some (.str (py! "äb"))
    else if s = py! "flag" then some (.bool true)
    else if s = py! "done" then some (.bool false)
    else if s = py! "n" then some (.int (-7))
    else if s = py! "m" then some (.bitmask 0 3)
    else none
  | .p => if s = py! "data" then some (.other .data) else none
  | .maskClass => if s = py! "Values" then some (.other .maskClass) else if s = py! "X" then some (.bitmask 0 4) else none
  | .enumClass => if s = py! "RED" then some (.enum 0 10) else if s = py! "BLUE" then some (.enum 0 20) else none
  | .data => none

def world : PyWorld Obj where
  symbol := symbolValue
  index := some 1
  member := memberValue
  element := elementValue
  length := lengthValue
  result _ := none
  equal a b := a = b
  width _ := 8
  floatText _ := 0
  stringText s := s
  floatMinus x := x
  floatArith _ _ _ := none
  floatLess _ _ := false
  name := nameValue
  property := propertyValue
  bitmaskDef _ := ⟨.bitField 8, []⟩

def objType : Obj → Ty → Prop
  | .p, .compound 0 => True
  | .data, .array .int => True
  | _, _ => False

theorem agrees : Agrees world names where
  symbol id v h := by
    match id with
    | 0 | 1 | 2 | 3 | 4 | 5 | 6 | 7 | 8 => cases h; rfl
    | _ + 9 => cases h
  index i h := by cases h; rfl
  member o m v h := by
    match o, m with
    | .p, 0 => cases h; rfl
    | .p, _ + 1 => cases h
    | .self, _ | .data, _ | .maskClass, _ | .enumClass, _ => cases h
  width c := rfl

theorem typed : world.toWorld.Typed signature objType where
  symbol id v t h ht := by
    match id with
    | 0 | 1 | 2 | 3 | 4 | 5 | 6 | 7 | 8 => cases h; cases ht; trivial
    | _ + 9 => cases h
  member o c m v t ho h ht := by
    match o, m with
    | .p, 0 =>
      cases h
      match c with
      | 0 => cases ht; trivial
      | _ + 1 => cases ht
    | .p, _ + 1 => cases h
    | .self, _ | .data, _ | .maskClass, _ | .enumClass, _ => cases h
  element o t i v ho h := by
    match o with
    | .data =>
      match t with
      | .int =>
        match i with
        | 0 | 1 => cases h; trivial
        | _ + 2 => cases h
      | .float | .bool | .str | .bytes | .enum _ | .bitmask _ | .compound _ | .array _ | .func _ => exact ho.elim
    | .p | .self | .maskClass | .enumClass => cases h
  result o t v ho h := by cases h

/-- `!flag == done && (p.data[@index] + 0x1F) * 2 / 3 > lengthof(s) ? numbits(p.data[0]) - -n : valueof(~m | Mask.X)` -/
def expression : Expr :=
  .cond
    (.binary .land (.binary .eq (.unary .bang (.symbol 2)) (.symbol 3))
      (.binary .gt
        (.binary .div
          (.binary .mul (.paren (.binary .add (.element (.member (.symbol 0) 0) .index) (.intLit .hex (py! "1F")))) (.intLit .dec (py! "2")))
          (.intLit .dec (py! "3")))
        (.lengthof (.symbol 1))))
    (.binary .sub (.numbits (.element (.member (.symbol 0) 0) (.intLit .dec (py! "0")))) (.unary .minus (.symbol 4)))
    (.valueof (.binary .bor (.unary .tilde (.symbol 5)) (.symbol 6)))

theorem hypotheses : expression.type signature = some .int ∧ expression.Parsed ∧ expression.Parenthesised signature ∧ expression.Literals ∧
    expression.NaturalDivisions world.toWorld := by
  refine ⟨by decide +kernel, ?_, ?_, ?_, ?_⟩
  · simp [expression, Expr.Parsed, Expr.level, BinOp.level]
  · simp [expression, Expr.Parenthesised, Expr.IsComparison, Expr.IsNegation, Expr.IsConditional]
  · simp [expression, Expr.Literals, Base.isDigit, digitValue, Base.radix]
  · refine ⟨⟨⟨trivial, trivial, fun h => ?_⟩, ⟨⟨⟨⟨⟨trivial, trivial⟩, trivial, fun h => ?_⟩, trivial, fun h => ?_⟩, trivial, fun _ x y hx hy => ?_⟩,
      trivial, fun h => ?_⟩, fun h => ?_⟩, ⟨⟨trivial, trivial⟩, trivial, fun h => ?_⟩, trivial, trivial, fun h => ?_⟩
    case refine_4 =>
      have h1 : (Expr.binary .mul (.paren (.binary .add (.element (.member (.symbol 0) 0) .index) (.intLit .hex (py! "1F")))) (.intLit .dec (py! "2"))).eval
        world.toWorld .java = some (.int 102) := rfl
      have h2 : (Expr.intLit .dec (py! "3")).eval world.toWorld .java = some (.int 3) := rfl
      rw [h1] at hx
      rw [h2] at hy
      cases hx
      cases hy
      decide
    all_goals rcases h with h | h <;> cases h

/-- The expression has a value, so its text has this value in Python. -/
example : expression.eval world.toWorld .java = some (.int (4 - 7)) ∧
    ∃ t, Derives 0 (expression.format signature names) t ∧ t.eval world = .ok (.int (-3)) := by
  obtain ⟨h1, h2, h3, h4, h5⟩ := hypotheses
  have hv : expression.eval world.toWorld .java = some (.int (4 - 7)) := rfl
  obtain ⟨t, ht, _⟩ := C67_syntax typed agrees expression .int h1 h2 h3 h4
  exact ⟨hv, t, ht, C67_value_partial typed agrees expression .int h1 h2 h3 h4 h5 t ht _ hv⟩

/- What is false. -/

/-- the tree of a name with one attribute -/
theorem derives_symbol (id : Nat) : Derives 12 ((Expr.symbol id).format signature names) (dottedTree (names.head id) (names.attributes id)) :=
  dotted_derives _ _

/-- **C67.** Comparing the result of a comparison is false of the code: `flag == done == done` is `(flag == done) == done` in the schema
language, but Python compares `flag` with `done` and `done` with `done`. -/
theorem C67_chained_comparison :
    ∃ e : Expr, e.type signature = some .bool ∧ e.Parsed ∧ e.Literals ∧ e.NaturalDivisions world.toWorld ∧
      e.eval world.toWorld .java = some (.bool true) ∧
      ∀ t, Derives 0 (e.format signature names) t → t.eval world = .ok (.bool false) := by
  refine ⟨.binary .eq (.binary .eq (.symbol 2) (.symbol 3)) (.symbol 3), by decide +kernel, ?_, ?_, ?_, rfl, fun t ht => ?_⟩
  · simp [Expr.Parsed, Expr.level, BinOp.level]
  · simp [Expr.Literals]
  · simp [Expr.NaturalDivisions]
  · have hd : Derives 4 ((Expr.binary .eq (.binary .eq (.symbol 2) (.symbol 3)) (.symbol 3)).format signature names)
        (.compare (dottedTree (names.head 2) (names.attributes 2))
          (.more .eq (dottedTree (names.head 3) (names.attributes 3)) (.last .eq (dottedTree (names.head 3) (names.attributes 3))))) :=
      .compare (ts := (Expr.symbol 2).format signature names) ((derives_symbol 2).weaken (by omega) (by omega))
        (.more (k := .eq) rfl ((derives_symbol 3).weaken (by omega) (by omega))
          (.last (k := .eq) rfl ((derives_symbol 3).weaken (by omega) (by omega))))
    rw [ht.tree_unique (hd.weaken (by omega) (by omega))]
    rfl

/-- **C67.** The same with `<`: `n < 0 == flag` is true in the schema language, but Python compares `n` with 0 and 0 with `flag`. -/
theorem C67_chained_less :
    ∃ e : Expr, e.type signature = some .bool ∧ e.Parsed ∧ e.Literals ∧ e.NaturalDivisions world.toWorld ∧
      e.eval world.toWorld .java = some (.bool true) ∧
      ∀ t, Derives 0 (e.format signature names) t → t.eval world = .ok (.bool false) := by
  refine ⟨.binary .eq (.binary .lt (.symbol 4) (.intLit .dec (py! "0"))) (.symbol 2), by decide +kernel, ?_, ?_, ?_, rfl, fun t ht => ?_⟩
  · simp [Expr.Parsed, Expr.level, BinOp.level]
  · simp [Expr.Literals, Base.isDigit, digitValue, Base.radix]
  · simp [Expr.NaturalDivisions]
  · have hd : Derives 4 ((Expr.binary .eq (.binary .lt (.symbol 4) (.intLit .dec (py! "0"))) (.symbol 2)).format signature names)
        (.compare (dottedTree (names.head 4) (names.attributes 4))
          (.more .lt (.number (py! "0")) (.last .eq (dottedTree (names.head 2) (names.attributes 2))))) :=
      .compare (ts := (Expr.symbol 4).format signature names) ((derives_symbol 4).weaken (by omega) (by omega))
        (.more (k := .lt) (ts := [.number (py! "0")]) rfl ((Derives.atom .number).weaken (by omega) (by omega))
          (.last (k := .eq) rfl ((derives_symbol 2).weaken (by omega) (by omega))))
    rw [ht.tree_unique (hd.weaken (by omega) (by omega))]
    rfl

theorem peel {n : Nat} {ts : List Tok} {t : PyExpr} (h : Derives n ts t) (hn : n ≤ 2) (hc : ∀ k ∈ ts, k.cont ≠ some n) : Derives (n + 1) ts t := by
  cases h with
  | test h => exact h
  | cond _ _ _ => exact absurd rfl (hc .kIf (by simp))
  | ops _ h1 h2 =>
    cases h2 with
    | nil => rwa [List.append_nil]
    | cons hk _ _ => exact absurd (cont_binary hk) (hc _ (by simp))
  | _ => omega

/-- **C67.** Comparing with a negation is false of the code: the text for `flag == !done` is `self.flag == not self.done`, which is a
syntax error in Python. -/
theorem C67_syntax_error :
    ∃ e : Expr, e.type signature = some .bool ∧ e.Parsed ∧ e.Literals ∧ e.NaturalDivisions world.toWorld ∧
      e.eval world.toWorld .java = some (.bool true) ∧ ¬ ∃ t, Derives 0 (e.format signature names) t := by
  refine ⟨.binary .eq (.symbol 2) (.unary .bang (.symbol 3)), by decide +kernel, ?_, ?_, ?_, rfl, ?_⟩
  · simp [Expr.Parsed, Expr.level, BinOp.level]
  · simp [Expr.Literals]
  · simp [Expr.NaturalDivisions]
  · rintro ⟨t, ht⟩
    have htok : (Expr.binary .eq (.symbol 2) (.unary .bang (.symbol 3))).format signature names =
        [.name (py! "self"), .dot, .name (py! "flag"), .eq, .kNot, .name (py! "self"), .dot, .name (py! "done")] := by decide +kernel
    have h5 : Derives 5 [.name (py! "self"), .dot, .name (py! "flag")] (dottedTree (py! "self") [py! "flag"]) :=
      (derives_symbol 2).weaken (by omega) (by omega)
    rw [htok] at ht
    have h3 := peel (peel (peel ht (by omega) (by decide)) (by omega) (by decide)) (by omega) (by decide)
    generalize hts : [Tok.name (py! "self"), .dot, .name (py! "flag"), .eq, .kNot, .name (py! "self"), .dot, .name (py! "done")] = ts at h3
    cases h3 with
    | ops hn => simp at hn
    | not _ => simp at hts
    | notTest h4 =>
      cases h4 with
      | ops hn => simp at hn
      | comparison h =>
        subst hts
        have := (Derives.unique (r := [.eq, .kNot, .name (py! "self"), .dot, .name (py! "done")]) (r' := []) h5 h rfl
          (Stop.cons fun m hm => by cases hm; omega) Stop.nil).1
        exact absurd this (by decide)
      | compare h hch =>
        obtain ⟨rfl, -⟩ := Derives.unique (r := [.eq, .kNot, .name (py! "self"), .dot, .name (py! "done")]) h5 h hts
          (Stop.cons fun m hm => by cases hm; omega) (by have := hch.stop (r := []); rwa [List.append_nil] at this)
        have hrest := List.append_cancel_left (as := [Tok.name (py! "self"), .dot, .name (py! "flag")])
          (bs := [.eq, .kNot, .name (py! "self"), .dot, .name (py! "done")]) hts
        subst hrest
        generalize hr : [Tok.eq, .kNot, .name (py! "self"), .dot, .name (py! "done")] = r at hch
        cases hch with
        | last hk hb =>
          obtain ⟨k, tl, rfl, _, hnot, _⟩ := hb.head
          simp only [List.cons.injEq] at hr
          exact hnot (by omega) hr.2.1.symm
        | more hk hb _ =>
          obtain ⟨k, tl, rfl, _, hnot, _⟩ := hb.head
          simp only [List.cons_append, List.cons.injEq] at hr
          exact hnot (by omega) hr.2.1.symm

/-- **C67.** `valueof` of a conditional expression with enumeration items is false of the code: the text for
`valueof(flag ? Color.RED : Color.BLUE)` is `(Color.RED) if (self.flag) else (Color.BLUE).value`, whose value is not the number of the
item but the item. -/
theorem C67_valueof_conditional :
    ∃ e : Expr, e.type signature = some .int ∧ e.Parsed ∧ e.Literals ∧ e.NaturalDivisions world.toWorld ∧
      e.eval world.toWorld .java = some (.int 10) ∧
      ∀ t, Derives 0 (e.format signature names) t → t.eval world = .ok (.enum 0 10) := by
  refine ⟨.valueof (.cond (.symbol 2) (.symbol 7) (.symbol 8)), by decide +kernel, ?_, ?_, ?_, rfl, fun t ht => ?_⟩
  · simp [Expr.Parsed, Expr.level, BinOp.level]
  · simp [Expr.Literals]
  · simp [Expr.NaturalDivisions]
  · have hp := fun id => (derives_symbol id).paren (n := 12) (by omega)
    have hd := Derives.cond ((hp 7).weaken (n := 1) (by omega) (by omega)) ((hp 2).weaken (n := 1) (by omega) (by omega))
      (((hp 8).trailers (.attr (s := py! "value") .nil)).weaken (n := 0) (by omega) (by omega))
    have htok : (Expr.valueof (.cond (.symbol 2) (.symbol 7) (.symbol 8))).format signature names =
      (.lpar :: ((Expr.symbol 7).format signature names ++ [.rpar]) ++ .kIf :: (.lpar :: ((Expr.symbol 2).format signature names ++ [.rpar]) ++ .kElse ::
        (.lpar :: ((Expr.symbol 8).format signature names ++ [.rpar]) ++ [.dot, .name (py! "value")]))) := by decide +kernel
    rw [htok] at ht
    rw [ht.tree_unique hd]
    rfl

/-- **C67.** Dividing negative numbers is false of the code: `n / 2` and `n % 2` of `n == -7` are -3 and -1 as in Java, but -4 and 1 in
Python. -/
theorem C67_negative_division (op : BinOp) (hop : op = .div ∨ op = .mod) :
    ∃ e : Expr, e = .binary op (.symbol 4) (.intLit .dec (py! "2")) ∧ e.type signature = some .int ∧ e.Parsed ∧ e.Parenthesised signature ∧ e.Literals ∧
      e.eval world.toWorld .java = some (.int (if op = .div then -3 else -1)) ∧
      ∀ t, Derives 0 (e.format signature names) t → t.eval world = .ok (.int (if op = .div then -4 else 1)) := by
  rcases hop with rfl | rfl
  all_goals
    refine ⟨_, rfl, by decide +kernel, ?_, ?_, ?_, rfl, fun t ht => ?_⟩
    · simp [Expr.Parsed, Expr.level, BinOp.level]
    · simp [Expr.Parenthesised]
    · simp [Expr.Literals, Base.isDigit, digitValue, Base.radix]
    · refine C67_floor_partial typed agrees _ .int (by decide +kernel) ?_ ?_ ?_ t ht _ rfl
      · simp [Expr.Parsed, Expr.level, BinOp.level]
      · simp [Expr.Parenthesised]
      · simp [Expr.Literals, Base.isDigit, digitValue, Base.radix]

end Demo

end Zserio.Expression
