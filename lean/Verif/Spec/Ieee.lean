import Mathlib.Data.Rat.Defs
import Mathlib.Algebra.Field.Rat
import Mathlib.Algebra.Order.Ring.Rat
import Mathlib.Algebra.Order.Ring.Abs
import Mathlib.Tactic.NormNum
/-
IEEE 754 binary interchange formats: what a bit pattern denotes.  This is the specification the float properties refer to; it
does not mention the zserio code.
-/
namespace Zserio

/-- What a floating point bit pattern denotes.  `num` carries the sign separately, so that -0 and +0 differ. -/
inductive FVal where
  | num (negative : Bool) (value : ℚ)
  | inf (negative : Bool)
  | nan
  deriving DecidableEq

/-- The value of a pattern with `eb` exponent bits and `mb` trailing significand bits (IEEE 754-2019, 3.4). -/
def ieee (eb mb p : Nat) : FVal :=
  let s : Bool := p / 2 ^ (eb + mb) % 2 = 1
  let e := p / 2 ^ mb % 2 ^ eb
  let m := p % 2 ^ mb
  let bias : Int := 2 ^ (eb - 1) - 1
  let sgn : ℚ := if s then -1 else 1
  if e = 2 ^ eb - 1 then
    if m = 0 then .inf s else .nan
  else if e = 0 then .num s (sgn * m * (2 : ℚ) ^ (1 - bias - mb))
  else .num s (sgn * (2 ^ mb + m : ℕ) * (2 : ℚ) ^ ((e : Int) - bias - mb))

/-- binary16 -/
def half (p : Nat) : FVal := ieee 5 10 p
/-- binary32 -/
def single (p : Nat) : FVal := ieee 8 23 p
/-- binary64 -/
def double (p : Nat) : FVal := ieee 11 52 p

/-- A signalling NaN of binary16: exponent all ones, significand non-zero with leading bit clear. -/
def isSignalingHalf (p : Nat) : Bool := p / 1024 % 32 = 31 ∧ p % 1024 ≠ 0 ∧ p % 1024 < 512

example : half 0x3C00 = .num false 1 := by
  simp [half, ieee]; norm_num
example : half 0xFBFF = .num true (-65504) := by
  simp [half, ieee]; norm_num
example : half 0x0001 = .num false (1 / 2 ^ 24) := by
  simp [half, ieee]
example : half 0x8000 = .num true 0 ∧ half 0x7C00 = .inf false ∧ half 0x7E00 = .nan := by
  simp [half, ieee]
example : single 0x3F800000 = .num false 1 ∧ double 0x3FF0000000000000 = .num false 1 := by
  constructor <;> (simp [single, double, ieee]; norm_num)

end Zserio
