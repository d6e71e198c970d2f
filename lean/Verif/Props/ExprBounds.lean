import Verif.Lemmas.ExprBounds
import Verif.Props.SchemaCheck
import Verif.Props.Expression
/-
**C86** What the compiler concludes about an integer expression, its value or its bounds, holds for the value which the expression has
at run time.

`info` is what the compiler finds out (Model/ExprBounds.lean), `Expr.eval` the value of an expression (Spec/Expression.lean),
`Known.Has` and the conditions are defined in Spec/ExprBounds.lean.
-/
namespace Zserio.ExprBounds
open Zserio.Expression
open Zserio.ConstEval (lowerBound upperBound intValue shiftLeft CompileError)

variable {O : Type}

/-- The number of an integer expression, an item or a bitmask has the value and is within the bounds the compiler knows, if operators
are used as `Safe` says.  What is missing are the other uses; for these the claim is false, see below. -/
theorem C86_bounds_partial {W : World O} {Γ : Signature} {N : Names} {T : O → Ty → Prop} (hW : W.Typed Γ T) (hN : N.Describe W T)
    (e : Expression.Expr) (t : Ty) (i : Info) (v : Value O) (x : Int) (ht : e.type Γ = some t) (hi : info Γ N e = .ok i)
    (h : e.eval W .java = some v) (hx : number v = some x) (hs : Safe Γ N e) (hz : Sized W e) (hp : PlainTexts W e) : i.known.Has x :=
  (info_describes hW hN e ht hi h hs hz hp).known x hx

/-- The same for the value which the generated Python code computes, if only natural numbers are divided (Python rounds the quotients
of others in another way, C67). -/
theorem C86_python_partial {W : World O} {Γ : Signature} {N : Names} {T : O → Ty → Prop} (hW : W.Typed Γ T) (hN : N.Describe W T)
    (e : Expression.Expr) (t : Ty) (i : Info) (v : Value O) (x : Int) (ht : e.type Γ = some t) (hi : info Γ N e = .ok i)
    (h : e.eval W .floor = some v) (hx : number v = some x) (hs : Safe Γ N e) (hz : Sized W e) (hp : PlainTexts W e)
    (hd : e.NaturalDivisions W) : i.known.Has x :=
  C86_bounds_partial hW hN e t i v x ht hi ((natural_eval e hd).trans h) hx hs hz hp

/-- The bounds of the integer types are right and cannot be narrower: a number fits into the type if and only if it is within the
bounds. -/
theorem C86_types (k : IntKind) (hk : ConstEval.ValidKind k) (x : Int) :
    (Known.range (lowerBound k) (upperBound k)).Has x ↔ k.InRange x := by
  rw [Known.has_range]
  refine ⟨fun h => ConstEval.bounds_inRange hk h.1 h.2, fun h => ?_⟩
  cases k with
  | bitField n =>
    obtain ⟨_, h1, h2⟩ := h
    simp only [lowerBound, upperBound, BitmaskDef.lowerBound, BitmaskDef.upperBound]
    omega
  | signedBitField n =>
    obtain ⟨_, h1, h2⟩ := h
    simp only [lowerBound, upperBound, BitmaskDef.lowerBound, BitmaskDef.upperBound]
    omega
  | var t =>
    cases t <;> simp only [IntKind.InRange, VarType.InRange, VarType.lo, VarType.hi] at h <;>
      simp [lowerBound, upperBound, BitmaskDef.lowerBound, BitmaskDef.upperBound] <;> omega

/-- The bounds of a bit field whose number of bits is an expression contain every number which it holds, if what is known of the
expression holds. -/
theorem C86_dynamic (signed : Bool) (length k : Known) (n : Nat) (x : Int) (hk : dynamicKnown signed length = .ok k) (hn : length.Has n)
    (hr : (if signed then IntKind.signedBitField n else IntKind.bitField n).InRange x) : k.Has x := by
  have hn1 : 1 ≤ n ∧ n ≤ 64 := by
    cases signed
    · exact hr.1
    · exact hr.1
  unfold dynamicKnown at hk
  obtain ⟨m, hm, hk⟩ := ConstEval.bind_ok_inv hk
  have hnm : (n : Int) ≤ m := by
    unfold maxBitSize at hm
    split at hm
    · next v e =>
      have := hn.1 _ e
      subst this
      rw [ConstEval.intValue_small (by omega) (by omega)] at hm
      split at hm
      · cases hm
      · cases hm; omega
    · split at hm
      · next u e =>
        have := hn.2.2 _ e
        split at hm
        · cases hm; omega
        · rw [ConstEval.intValue_small (by omega) (by omega)] at hm
          cases hm; omega
      · cases hm; omega
  cases signed
  · simp only [Bool.false_eq_true, if_false, Except.ok.injEq] at hk
    subst hk
    obtain ⟨_, h1, h2⟩ := hr
    rw [shiftLeft, if_neg (by omega), Known.has_range]
    have : (2 : Int) ^ n ≤ 2 ^ m.toNat := pow_le_pow_right₀ (by omega) (by omega)
    omega
  · simp only [if_true, Except.ok.injEq] at hk
    subst hk
    obtain ⟨_, h1, h2⟩ := hr
    rw [shiftLeft, if_neg (by omega), Known.has_range]
    have : (2 : Int) ^ (n - 1) ≤ 2 ^ (m - 1).toNat := pow_le_pow_right₀ (by omega) (by omega)
    omega

/-! #### Sample -/

namespace ExprBoundsDemo

/-- `int8 x; uint8 y; bit:3 n; uint16 a[5]; string s; Color.RED (= 7); const string T = "abc"; Inner inner; function int32 f()` -/
inductive Obj where
  | array
  | inner
  | function
  deriving DecidableEq

def objType : Obj → Ty → Prop
  | .array, .array .int => True
  | .inner, .compound 0 => True
  | .function, .func .int => True
  | _, _ => False

def signature : Signature where
  symbol
    | 0 | 1 | 2 => some .int
    | 3 => some (.array .int)
    | 4 => some .str
    | 5 => some (.enum 0)
    | 6 => some .str
    | 7 => some (.compound 0)
    | 8 => some (.func .int)
    | 9 => some (.bitmask 0)
    | _ => none
  member
    | 0, 0 => some .int
    | _, _ => none

/-- what the compiler knows of these names -/
def names : Names where
  symbol
    | 0 => { known := .range (-128) 127 }
    | 1 => { known := .range 0 255 }
    | 2 => { known := .range 0 7 }
    | 3 => { length := some 5, element := .range 0 65535 }
    | 5 => { known := .exact 7 }
    | 6 => { text := some (py! "abc") }
    | 8 => { result := .range (-10) 10 }
    | 9 => { known := .exact 1 }
    | _ => {}
  member _ _ := { known := .range 1 31 }

/-- the values of the names; `x`, `y`, `n` are given -/
def world (x y n : Int) : World Obj where
  symbol
    | 0 => some (.int x)
    | 1 => some (.int y)
    | 2 => some (.int n)
    | 3 => some (.other .array)
    | 4 => some (.str (py! "hello"))
    | 5 => some (.enum 0 7)
    | 6 => some (.str (py! "abc"))
    | 7 => some (.other .inner)
    | 8 => some (.other .function)
    | 9 => some (.bitmask 0 1)
    | _ => none
  index := none
  member
    | .inner, 0 => some (.int 9)
    | _, _ => none
  element
    | .array, j => if j < 5 then some (.int (1000 * j)) else none
    | _, _ => none
  length
    | .array => some 5
    | _ => none
  result
    | .function => some (.int (-3))
    | _ => none
  equal a b := a = b
  width _ := 8
  floatText _ := 0
  stringText := ConstEval.stripStringLiteral
  floatMinus x := x
  floatArith _ _ _ := none
  floatLess _ _ := false

theorem typed (x y n : Int) : (world x y n).Typed signature objType where
  symbol id v t h ht := by
    simp only [world, signature] at h ht
    split at h <;> simp_all <;> (subst h; subst ht; simp [Value.HasType, objType])
  member o c m v t _ h ht := by
    simp only [world, signature] at h ht
    split at h <;> simp_all
    split at ht <;> simp_all
    subst h; subst ht; simp [Value.HasType]
  element o t i v ho h := by
    simp only [world] at h
    split at h
    · split at h
      · cases h
        cases t <;> simp_all [objType, Value.HasType]
      · cases h
    · cases h
  result o t v ho h := by
    simp only [world] at h
    split at h
    · cases h
      cases t <;> simp_all [objType, Value.HasType]
    · cases h

theorem describe {x y n : Int} (hx : -128 ≤ x ∧ x ≤ 127) (hy : 0 ≤ y ∧ y ≤ 255) (hn : 0 ≤ n ∧ n ≤ 7) :
    names.Describe (world x y n) objType where
  symbol id v h := by
    simp only [world] at h
    split at h
    · cases h; exact describes_known fun z hz => by cases hz; exact Known.has_range.2 hx
    · cases h; exact describes_known fun z hz => by cases hz; exact Known.has_range.2 hy
    · cases h; exact describes_known fun z hz => by cases hz; exact Known.has_range.2 hn
    · cases h
      exact {
        known := by simp [number]
        text := by simp [names]
        length := by intro o n k ho hl hk; cases ho; cases hl; cases hk; rfl
        element := by
          intro o j w x ho hw hx
          cases ho
          simp only [world] at hw
          split at hw
          · cases hw; cases hx; exact Known.has_range.2 (by omega)
          · cases hw
        result := by intro o w x ho hw; cases ho; simp [world] at hw
        resultText := by simp [names] }
    · cases h; exact describes_unknown _
    · cases h; exact describes_known fun z hz => by cases hz; exact Known.has_exact rfl
    · cases h
      exact {
        known := by simp [number]
        text := by intro s t hs ht; cases hs; cases ht; rfl
        length := by simp
        element := by simp
        result := by simp
        resultText := by simp }
    · cases h; exact describes_unknown _
    · cases h
      exact {
        known := by simp [number]
        text := by simp [names]
        length := by simp [names]
        element := by intro o j w x ho hw; cases ho; simp [world] at hw
        result := by intro o w x ho hw hx; cases ho; cases hw; cases hx; exact Known.has_range.2 (by omega)
        resultText := by simp [names] }
    · cases h; exact describes_known fun z hz => by cases hz; exact Known.has_exact rfl
    · cases h
  member o c m v _ h := by
    simp only [world] at h
    split at h
    · cases h; exact describes_known fun z hz => by cases hz; exact Known.has_range.2 (by omega)
    · cases h

/-- `d` as a decimal literal -/
def lit (d : Nat) : Expression.Expr := .intLit .dec [ch! '0' + d]

/-- `(x * y) / numbits(inner.a) + (n < 4 ? a[2] << 3 : lengthof(T)) - f() * valueof(Color.RED)` -/
def expression : Expression.Expr :=
  .binary .sub
    (.binary .add (.binary .div (.paren (.binary .mul (.symbol 0) (.symbol 1))) (.numbits (.member (.symbol 7) 0)))
      (.paren (.cond (.binary .lt (.symbol 2) (lit 4)) (.binary .shl (.element (.symbol 3) (lit 2)) (lit 3)) (.lengthof (.symbol 6)))))
    (.binary .mul (.call (.symbol 8)) (.valueof (.symbol 5)))

theorem expression_safe : Safe signature names expression := by
  have hn : Safe signature names (.numbits (.member (.symbol 7) 0)) := by
    refine ⟨trivial, fun i hi x hx => ?_⟩
    cases hi
    exact hx.2.1 1 rfl
  have hshl : Safe signature names (.binary .shl (.element (.symbol 3) (lit 2)) (lit 3)) := by
    refine ⟨⟨trivial, trivial⟩, trivial, fun i j hi hj => ⟨fun _ => .inl ?_, by simp⟩⟩
    cases hj
    exact ⟨3, by decide, by decide⟩
  refine ⟨⟨⟨⟨trivial, trivial, fun _ _ _ _ => ⟨by simp, by simp⟩⟩, hn, fun _ _ _ _ => ⟨by simp, by simp⟩⟩,
    ⟨⟨trivial, trivial, fun _ _ _ _ => ⟨by simp, by simp⟩⟩, hshl, trivial⟩, fun _ _ _ _ => ⟨by simp, by simp⟩⟩,
    ⟨trivial, trivial, fun _ _ _ _ => ⟨by simp, by simp⟩⟩, fun _ _ _ _ => ⟨by simp, by simp⟩⟩

end ExprBoundsDemo

open ExprBoundsDemo

/-- The hypotheses are met by an expression with most operators, for all values of its fields.  The compiler knows that its value is
between -32710 and 556735. -/
example (x y n : Int) (hx : -128 ≤ x ∧ x ≤ 127) (hy : 0 ≤ y ∧ y ≤ 255) (hn : 0 ≤ n ∧ n ≤ 7) :
    (world x y n).Typed signature objType ∧ names.Describe (world x y n) objType ∧ expression.type signature = some .int ∧
    info signature names expression = .ok { known := .range (-32710) 556735 } ∧ Safe signature names expression ∧
    Sized (world x y n) expression ∧ PlainTexts (world x y n) expression :=
  ⟨typed x y n, describe hx hy hn, by decide +kernel, by decide +kernel, expression_safe, by
    refine ⟨⟨⟨⟨trivial, trivial⟩, trivial⟩, ⟨trivial, trivial⟩, ⟨⟨trivial, trivial⟩, trivial⟩, trivial, ?_⟩, trivial, trivial⟩
    intro m hm
    have : (Expression.Expr.lengthof (.symbol 6)).eval (world x y n) .java = some (.int 3) := rfl
    rw [this] at hm
    cases hm
    decide, by simp [expression, PlainTexts, lit]⟩

/-- a value of it -/
example : (match expression.eval (world (-128) 255 4) .java with
    | some (.int x) => some x
    | _ => none) = some (-8136) := by decide +kernel

/-- bounds of types, and of `bit<n>` and `int<n>` with `n` between 0 and 7 -/
example : ConstEval.ValidKind (.signedBitField 8) ∧ (IntKind.signedBitField 8).InRange (-128) ∧
    dynamicKnown false (.range 0 7) = .ok (.range 0 127) ∧ dynamicKnown true (.range 0 7) = .ok (.range (-64) 63) ∧
    (Known.range 0 7).Has (5 : Nat) := by
  refine ⟨by simp [ConstEval.ValidKind], by simp [IntKind.InRange], by decide, by decide, Known.has_range.2 (by decide)⟩

/-! #### Deviations -/

/-- **Deviation.** The bounds of `-x` are exchanged: for `int8 x` the compiler concludes that `-x` is at least 128 and at most -127, which
no number is. -/
theorem C86_minus_deviates :
    info signature names (.unary .minus (.symbol 0)) = .ok { known := .range 128 (-127) } ∧
    ∀ x y n, (Expression.Expr.unary .minus (.symbol 0)).eval (world x y n) .java = some (.int (-x)) ∧
      ¬ (Known.range 128 (-127)).Has (-x) :=
  ⟨rfl, fun x y n => ⟨rfl, fun h => by have := Known.has_range.1 h; omega⟩⟩

/-- **Deviation.** For `uint8 y; bit:3 n` the compiler concludes that `y >> n` is at most 1, but it is `y` if `n` is 0. -/
theorem C86_shiftRight_deviates :
    info signature names (.binary .shr (.symbol 1) (.symbol 2)) = .ok { known := .range 0 1 } ∧
    (∀ x y, (Expression.Expr.binary .shr (.symbol 1) (.symbol 2)).eval (world x y 0) .java = some (.int y)) ∧
    ¬ (Known.range 0 1).Has 200 := by
  refine ⟨by decide +kernel, fun x y => ?_, fun h => by have := Known.has_range.1 h; omega⟩
  simp [Expr.eval, BinOp.apply, BinOp.compareInt, BinOp.arithInt, world]

/-- **Deviation.** For `int8 x; bit:3 n` the compiler concludes that `x << n` is at least -128, but it may be -16384. -/
theorem C86_shiftLeft_deviates :
    info signature names (.binary .shl (.symbol 0) (.symbol 2)) = .ok { known := .range (-128) 16256 } ∧
    (∀ y, (Expression.Expr.binary .shl (.symbol 0) (.symbol 2)).eval (world (-128) y 7) .java = some (.int (-16384))) ∧
    ¬ (Known.range (-128) 16256).Has (-16384) := by
  refine ⟨by decide +kernel, fun y => rfl, fun h => by have := Known.has_range.1 h; omega⟩

/-- **Deviation.** For `uint8 y` the compiler concludes that `numbits(y)` is at least 1, but at run time `numbits(0)` is 0. -/
theorem C86_numbits_deviates :
    info signature names (.numbits (.symbol 1)) = .ok { known := .range 1 8 } ∧
    (∀ x n, (Expression.Expr.numbits (.symbol 1)).eval (world x 0 n) .java = some (.int 0)) ∧
    ¬ (Known.range 1 8).Has 0 := by
  refine ⟨by decide +kernel, fun x n => ?_, fun h => by have := Known.has_range.1 h; omega⟩
  simp [Expr.eval, world, numBits]

/-- **Deviation.** `~Mask.X` has the known value -2 in the compiler, and 254 at run time if the bitmask has 8 bits. -/
theorem C86_tilde_deviates :
    info signature names (.valueof (.paren (.unary .tilde (.symbol 9)))) = .ok { known := .exact (-2) } ∧
    (∀ x y n, (Expression.Expr.valueof (.paren (.unary .tilde (.symbol 9)))).eval (world x y n) .java = some (.int 254)) := by
  refine ⟨by decide +kernel, fun x y n => rfl⟩

/-- **Deviation.** Of the number of bits only the low 32 bits are looked at: `bit<4294967297>` is accepted as a field of one bit. -/
theorem C86_dynamic_deviates : dynamicKnown false (.exact (2 ^ 32 + 1)) = .ok (.range 0 1) := by decide +kernel

/-- **Deviation.** Because of the exchanged bounds `struct Tree { int8 x; Tree children[-x]; };` is refused, although its objects can be
built and written: a tree without children. -/
theorem C86_tree_deviates :
    let minus : Zserio.Expr Int := fun env => do let v ← Demo.field 0 env; .ok (-v)
    let tree : Zserio.Schema := fun a => if a = 0 then
      .struct [{ type := .int (.signedBitField 8) }, { type := .compound 0 [], array := some ⟨.fixed minus, false⟩ }] else .struct []
    let lower : FieldDef → Option Int := fun _ => match info signature names (.unary .minus (.symbol 0)) with
      | .ok i => i.known.lower
      | .error _ => none
    SchemaCheck.compile false tree lower 2 [0] = some (.error .directRecursion) ∧
    (∀ x y n, ¬ (Known.range 128 (-127)).Has (-x) ∧ (Expression.Expr.unary .minus (.symbol 0)).eval (world x y n) .java = some (.int (-x))) ∧
    serialize (tree.codec 1 0) (SchemaCheckDemo.obj [.int 0, .arr []]) = .ok (⟨[0], 8⟩, SchemaCheckDemo.obj [.int 0, .arr []]) := by
  refine ⟨rfl, fun x y n => ⟨fun h => by have := Known.has_range.1 h; omega, rfl⟩, ?_⟩
  decide +kernel

end Zserio.ExprBounds
