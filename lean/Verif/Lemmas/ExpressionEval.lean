import Verif.Spec.PyExpression
import Verif.Props.Bitmask
import Verif.Props.Position
/-
The operators of Python have the values which the schema language gives them.
-/
set_option linter.unusedSimpArgs false
namespace Zserio.Expression

variable {O : Type}

/-- the Python operator for a comparison -/
def BinOp.cmp : BinOp → Option CmpOp
  | .lt => some .lt
  | .le => some .le
  | .gt => some .gt
  | .ge => some .ge
  | .eq => some .eq
  | .ne => some .ne
  | _ => none

/-- the Python operator for an arithmetic operator -/
def BinOp.arith (isInt : Bool) : BinOp → Option ArithOp
  | .mul => some .mul
  | .div => some (if isInt then .floordiv else .div)
  | .mod => some .mod
  | .add => some .add
  | .sub => some .sub
  | .shl => some .shl
  | .shr => some .shr
  | .band => some .band
  | .bxor => some .bxor
  | .bor => some .bor
  | _ => none

theorem compare_apply {W : PyWorld O} {D : Division} {op : BinOp} {c : CmpOp} {x y v : Value O} (hc : op.cmp = some c)
    (h : op.apply W.toWorld D x y = some v) : ∃ b, v = .bool b ∧ pyCompare W c x y = .ok b := by
  cases op <;> simp only [BinOp.cmp, Option.some.injEq, reduceCtorEq] at hc <;> subst hc <;>
  cases x <;> cases y <;>
    simp only [BinOp.apply, BinOp.compareInt, BinOp.equality, Option.some.injEq, Option.map_some, Option.map_none, reduceCtorEq, if_false, if_true] at h <;>
    first
      | (subst h; rename_i p q; cases p <;> cases q <;> (first | exact ⟨_, rfl, rfl⟩) ; done)
      | (subst h; exact ⟨_, rfl, by simp [pyCompare, pyEq, Value.asInt, Except.map]⟩)
      | (split at h
         · rename_i hh
           simp only [Option.some.injEq] at h
           subst h
           exact ⟨_, rfl, by simp [pyCompare, pyEq, Except.map, hh]⟩
         · cases h)
      | (split at h <;> cases h)

theorem mask_nat {W : PyWorld O} {names : Names} (hA : Agrees W names) {c : Nat} {x : Int} (h : W.inMask c x = true) :
    ∃ n : Nat, x = n ∧ n < 2 ^ W.width c ∧ (W.bitmaskDef c).width = some (W.width c) := by
  unfold World.inMask at h
  simp only [Bool.and_eq_true, decide_eq_true_eq] at h
  refine ⟨x.toNat, by omega, ?_, hA.width c⟩
  have : (x.toNat : Int) < 2 ^ W.width c := by rw [Int.toNat_of_nonneg h.1]; exact h.2
  exact_mod_cast this

theorem mask_arith {W : PyWorld O} {names : Names} (hA : Agrees W names) {op : BinOp} {i : Bool} {a : ArithOp} {c : Nat} {x y : Int} {v : Value O}
    (ha : op.arith i = some a) (h : op.apply W.toWorld .floor (.bitmask c x) (.bitmask c y) = some v) :
    pyArith W a (.bitmask c x) (.bitmask c y) = .ok v := by
  simp only [BinOp.apply, true_and] at h
  split at h
  · rename_i hm
    obtain ⟨n, rfl, hn, hw⟩ := mask_nat hA hm.1
    obtain ⟨m, rfl, hm', _⟩ := mask_nat hA hm.2
    cases op <;> simp only [BinOp.arith, Option.some.injEq, reduceCtorEq, BinOp.equality, Option.map_none] at ha h
    · subst ha; subst h
      have := Bitmask.fromValue_nat hw (Nat.and_lt_two_pow n hm')
      simp only [pyArith, if_true, Bitmask.and]
      exact (congrArg (Except.map _) this).trans rfl
    · subst ha; subst h
      have := Bitmask.fromValue_nat hw (Nat.xor_lt_two_pow hn hm')
      simp only [pyArith, if_true, Bitmask.xor]
      exact (congrArg (Except.map _) this).trans rfl
    · subst ha; subst h
      have := Bitmask.fromValue_nat hw (Nat.or_lt_two_pow hn hm')
      simp only [pyArith, if_true, Bitmask.or]
      exact (congrArg (Except.map _) this).trans rfl
  · cases h

theorem arith_apply {W : PyWorld O} {names : Names} (hA : Agrees W names) {op : BinOp} {i : Bool} {a : ArithOp} {x y v : Value O}
    (ha : op.arith i = some a) (hi : op = .div → (i = true ↔ (∃ m, x = .int m) ∧ ∃ n, y = .int n))
    (h : op.apply W.toWorld .floor x y = some v) : pyArith W a x y = .ok v := by
  by_cases hmask : ∃ c p c' q, x = .bitmask c p ∧ y = .bitmask c' q
  · obtain ⟨c, p, c', q, rfl, rfl⟩ := hmask
    by_cases hc : c = c'
    · subst hc; exact mask_arith hA ha h
    · simp [BinOp.apply, hc] at h
  cases x <;> cases y <;> first | exact absurd ⟨_, _, _, _, rfl, rfl⟩ hmask | skip
  all_goals
    first
      | (simp only [BinOp.apply, reduceCtorEq] at h; done)
      | (cases op <;> simp only [BinOp.arith, Option.some.injEq, reduceCtorEq] at ha <;>
          simp only [BinOp.apply, BinOp.compareInt, BinOp.arithInt, BinOp.equality, Option.map_some, Option.map_none, Option.some.injEq, reduceCtorEq, if_false, if_true] at h <;>
          (try subst ha) <;>
          first
            | (subst h; rfl)
            | (have := (hi rfl).2 ⟨⟨_, rfl⟩, ⟨_, rfl⟩⟩; subst this
               split at h
               · cases h
               · rename_i hy
                 cases h
                 simp [pyArith, pyArithInt, Value.asInt, hy, Except.map, Division.floor])
            | (split at h
               · cases h
               · rename_i hy
                 cases h
                 simp [pyArith, pyArithInt, Value.asInt, hy, Except.map, Division.floor])
            | (have : i = false := by
                 cases i with
                 | false => rfl
                 | true =>
                   obtain ⟨⟨_, h1⟩, ⟨_, h2⟩⟩ := (hi rfl).1 rfl
                   cases h1 <;> cases h2
               subst this
               obtain ⟨z, hz, rfl⟩ := Option.map_eq_some_iff.1 h
               simp [pyArith, ArithOp.float, hz])
            | (obtain ⟨z, hz, rfl⟩ := Option.map_eq_some_iff.1 h
               simp [pyArith, ArithOp.float, hz])
            | (split at h <;> cases h))

/-- the Python operator for a sign -/
def UnOp.sign : UnOp → Option SignOp
  | .plus => some .plus
  | .minus => some .minus
  | .tilde => some .tilde
  | .bang => none

theorem land_mask (n w : Nat) (h : n < 2 ^ w) : Nat.ldiff (2 ^ w - 1) n = 2 ^ w - 1 - n := by
  apply Nat.eq_of_testBit_eq
  intro i
  rw [Nat.testBit_ldiff, Nat.testBit_two_pow_sub_one]
  have : 2 ^ w - 1 - n = 2 ^ w - (n + 1) := by omega
  rw [this, Nat.testBit_two_pow_sub_succ h]

theorem sign_apply {W : PyWorld O} {names : Names} (hA : Agrees W names) {op : UnOp} {s : SignOp} {x v : Value O} (hs : op.sign = some s)
    (h : op.apply W.toWorld x = some v) : pySign W s x = .ok v := by
  cases op <;> simp only [UnOp.sign, Option.some.injEq, reduceCtorEq] at hs <;> subst hs <;> cases x <;>
    simp only [UnOp.apply, Option.some.injEq, reduceCtorEq] at h <;> (try subst h) <;> (try rfl)
  · simp only [pySign, Value.asInt, Except.ok.injEq, Value.int.injEq]
    rename_i z
    cases z with
    | ofNat n => simp [Int.lnot, Int.negSucc_eq]; omega
    | negSucc n => simp [Int.lnot, Int.negSucc_eq]
  · rename_i c z
    split at h
    · rename_i hm
      obtain ⟨n, rfl, hn, hw⟩ := mask_nat hA hm
      simp only [Option.some.injEq] at h
      subst h
      have := Bitmask.invert_nat hw n
      simp only [pySign]
      refine (congrArg (Except.map _) this).trans ?_
      rw [land_mask n _ hn]
      have h1 : ((2 ^ W.width c - 1 - n : Nat) : Int) = 2 ^ W.width c - 1 - n := by
        rw [Nat.cast_sub (by omega), Nat.cast_sub Nat.one_le_two_pow]; push_cast; rfl
      simp [Except.map, h1]
    · cases h

theorem bang_apply {W : World O} {x v : Value O} (h : UnOp.bang.apply W x = some v) : ∃ b, x = .bool b ∧ v = .bool !b := by
  cases x <;> simp only [UnOp.apply, Option.some.injEq, reduceCtorEq] at h
  exact ⟨_, rfl, h.symm⟩

theorem numbits_clog (n : Nat) : numbits n = numBits n := by
  unfold numBits
  rcases Nat.lt_or_ge n 2 with h | h
  · have : n = 0 ∨ n = 1 := by omega
    rcases this with rfl | rfl
    · simp [numbits]
    · rfl
  · rw [if_neg (by omega)]
    obtain ⟨h1, h2⟩ := C20_numbits n h
    apply Nat.le_antisymm
    · exact h2 _ (Nat.le_pow_clog (by omega) n)
    · exact Nat.clog_le_of_le_pow h1

theorem pyNumber_dec {digits : PyStr} (h0 : digits ≠ []) (h : ∀ c ∈ digits, Base.dec.isDigit c) (hd : digits.head? = some 48 → digits = [48]) :
    pyNumber digits = some ((Base.dec.value digits : Nat) : Int) := by
  have key : digits ≠ [] ∧ digits.all Base.dec.isDigit ∧ (digits.head? = some 48 → digits.all (· == 48)) :=
    ⟨h0, List.all_eq_true.2 h, fun h => by rw [hd h]; rfl⟩
  unfold pyNumber
  split
  · have := h 98 (by simp)
    exact absurd this (by decide)
  · have := h 111 (by simp)
    exact absurd this (by decide)
  · have := h 120 (by simp)
    exact absurd this (by decide)
  · rw [if_pos key]

theorem pyNumber_literal {b : Base} {digits : PyStr} (h0 : digits ≠ []) (h : ∀ c ∈ digits, b.isDigit c)
    (hd : b = .dec → digits.head? = some (ch! '0') → digits = [ch! '0']) :
    pyNumber (b.prefix ++ digits) = some ((b.value digits : Nat) : Int) := by
  cases b with
  | dec => exact pyNumber_dec h0 h (hd rfl)
  | bin =>
    show (if digits ≠ [] ∧ digits.all Base.bin.isDigit then _ else _) = _
    rw [if_pos ⟨h0, List.all_eq_true.2 h⟩]; rfl
  | oct =>
    show (if digits ≠ [] ∧ digits.all Base.oct.isDigit then _ else _) = _
    rw [if_pos ⟨h0, List.all_eq_true.2 h⟩]; rfl
  | hex =>
    show (if digits ≠ [] ∧ digits.all Base.hex.isDigit then _ else _) = _
    rw [if_pos ⟨h0, List.all_eq_true.2 h⟩]; rfl

end Zserio.Expression
