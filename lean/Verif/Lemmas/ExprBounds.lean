import Verif.Spec.ExprBounds
import Verif.Lemmas.ConstEvalSem
import Verif.Lemmas.Expression
set_option linter.unusedSimpArgs false
set_option linter.unusedVariables false
namespace Zserio.ExprBounds
open Zserio.Expression
open Zserio.ConstEval (CompileError intValue shiftLeft shiftRight getNumBits arith stripStringLiteral intValue_small getNumBits_right)

namespace Known

theorem has_unknown (x : Int) : Known.Has {} x := ⟨by simp, by simp, by simp⟩

theorem has_exact {v x : Int} (h : x = v) : (exact v).Has x := by
  subst h
  exact ⟨by simp [exact], by simp [exact], by simp [exact]⟩

theorem exact_has {v x : Int} (h : (exact v).Has x) : x = v := h.1 v rfl

theorem has_range {l u x : Int} : (range l u).Has x ↔ l ≤ x ∧ x ≤ u :=
  ⟨fun h => ⟨h.2.1 l rfl, h.2.2 u rfl⟩, fun h => ⟨by simp [range], by simpa [range] using h.1, by simpa [range] using h.2⟩⟩

theorem has_minMax {x : Int} {a : Int} {as : List Int} (h1 : ∃ b ∈ a :: as, b ≤ x) (h2 : ∃ b ∈ a :: as, x ≤ b) : (minMax a as).Has x := by
  have hmin : ∀ (as : List Int) (a b : Int), b ∈ a :: as → as.foldl min a ≤ b := by
    intro as
    induction as with
    | nil => intro a b hb; simp at hb; simp [hb]
    | cons c cs ih =>
      intro a b hb
      have hself := ih (min a c) (min a c) (by simp)
      simp only [List.mem_cons] at hb
      simp only [List.foldl_cons]
      rcases hb with rfl | rfl | hb
      · omega
      · omega
      · exact ih _ _ (by simp [hb])
  have hmax : ∀ (as : List Int) (a b : Int), b ∈ a :: as → b ≤ as.foldl max a := by
    intro as
    induction as with
    | nil => intro a b hb; simp at hb; simp [hb]
    | cons c cs ih =>
      intro a b hb
      have hself := ih (max a c) (max a c) (by simp)
      simp only [List.mem_cons] at hb
      simp only [List.foldl_cons]
      rcases hb with rfl | rfl | hb
      · omega
      · omega
      · exact ih _ _ (by simp [hb])
  obtain ⟨b, hb, hbx⟩ := h1
  obtain ⟨c, hc, hxc⟩ := h2
  exact has_range.2 ⟨(hmin as a b hb).trans hbx, hxc.trans (hmax as a c hc)⟩

/-- a product lies between the products of the bounds -/
theorem mul_corner {l u x y : Int} (h1 : l ≤ x) (h2 : x ≤ u) : (l * y ≤ x * y ∧ x * y ≤ u * y) ∨ (u * y ≤ x * y ∧ x * y ≤ l * y) := by
  rcases le_total 0 y with hy | hy
  · exact .inl ⟨Int.mul_le_mul_of_nonneg_right h1 hy, Int.mul_le_mul_of_nonneg_right h2 hy⟩
  · exact .inr ⟨Int.mul_le_mul_of_nonpos_right h2 hy, Int.mul_le_mul_of_nonpos_right h1 hy⟩

theorem multiply_has {l1 u1 l2 u2 x y : Int} (h1 : l1 ≤ x) (h2 : x ≤ u1) (h3 : l2 ≤ y) (h4 : y ≤ u2) :
    (multiplyBounds l1 u1 l2 u2).Has (x * y) := by
  have hl := mul_corner (y := l1) h3 h4
  have hu := mul_corner (y := u1) h3 h4
  rw [Int.mul_comm l2, Int.mul_comm u2, Int.mul_comm y] at hl hu
  have hx := mul_corner (y := y) h1 h2
  unfold multiplyBounds
  apply has_minMax <;> simp only [List.mem_cons, List.not_mem_nil, or_false, exists_eq_or_imp, exists_eq_left] <;> omega

theorem tdiv_corner {l u x y : Int} (h1 : l ≤ x) (h2 : x ≤ u) (hy : y ≠ 0) :
    (l.tdiv y ≤ x.tdiv y ∧ x.tdiv y ≤ u.tdiv y) ∨ (u.tdiv y ≤ x.tdiv y ∧ x.tdiv y ≤ l.tdiv y) := by
  rcases lt_or_gt_of_ne hy with hy | hy
  · refine .inr ?_
    have e : ∀ a : Int, a.tdiv y = -(a.tdiv (-y)) := fun a => by rw [Int.tdiv_neg, Int.neg_neg]
    rw [e l, e u, e x]
    have := Int.tdiv_le_tdiv (show 0 < -y by omega) h1
    have := Int.tdiv_le_tdiv (show 0 < -y by omega) h2
    omega
  · exact .inl ⟨Int.tdiv_le_tdiv hy h1, Int.tdiv_le_tdiv hy h2⟩

theorem tdiv_antitone {a y z : Int} (ha : 0 ≤ a) (hy : 0 < y) (h : y ≤ z) : a.tdiv z ≤ a.tdiv y := by
  rw [Int.tdiv_eq_ediv_of_nonneg ha, Int.tdiv_eq_ediv_of_nonneg ha]
  have hz : 0 < z := by omega
  rw [Int.le_ediv_iff_mul_le hy]
  have h1 : a / z * z ≤ a := Int.ediv_mul_le a (by omega)
  have h2 : 0 ≤ a / z := Int.ediv_nonneg ha (by omega)
  have h3 : a / z * y ≤ a / z * z := Int.mul_le_mul_of_nonneg_left h h2
  omega

theorem tdiv_denominator {a l u y : Int} (hl : 0 < l) (h1 : l ≤ y) (h2 : y ≤ u) :
    (a.tdiv u ≤ a.tdiv y ∧ a.tdiv y ≤ a.tdiv l) ∨ (a.tdiv l ≤ a.tdiv y ∧ a.tdiv y ≤ a.tdiv u) := by
  rcases le_total 0 a with ha | ha
  · exact .inl ⟨tdiv_antitone ha (by omega) h2, tdiv_antitone ha hl h1⟩
  · have e : ∀ b : Int, a.tdiv b = -((-a).tdiv b) := fun b => by rw [Int.neg_tdiv, Int.neg_neg]
    rw [e u, e y, e l]
    have := tdiv_antitone (show 0 ≤ -a by omega) (by omega) h2
    have := tdiv_antitone (show 0 ≤ -a by omega) hl h1
    omega

/-- a quotient with a positive divisor lies between the quotients of the bounds -/
theorem tdiv_between {l1 u1 l2 u2 x y : Int} (h1 : l1 ≤ x) (h2 : x ≤ u1) (hp : 0 < l2) (h3 : l2 ≤ y) (h4 : y ≤ u2) :
    (∃ b ∈ [l1.tdiv l2, l1.tdiv u2, u1.tdiv l2, u1.tdiv u2], b ≤ x.tdiv y) ∧
    (∃ b ∈ [l1.tdiv l2, l1.tdiv u2, u1.tdiv l2, u1.tdiv u2], x.tdiv y ≤ b) := by
  have hl := tdiv_denominator (a := l1) hp h3 h4
  have hu := tdiv_denominator (a := u1) hp h3 h4
  have hx := tdiv_corner (y := y) h1 h2 (by omega)
  simp only [List.mem_cons, List.not_mem_nil, or_false, exists_eq_or_imp, exists_eq_left]
  omega

theorem divide_has {l1 u1 l2 u2 x y : Int} (h1 : l1 ≤ x) (h2 : x ≤ u1) (h3 : l2 ≤ y) (h4 : y ≤ u2) (hy : y ≠ 0) :
    (divideBounds l1 u1 l2 u2).Has (x.tdiv y) := by
  unfold divideBounds
  rw [if_pos (by omega)]
  simp only
  generalize hlo : (if l2 = 0 then (1 : Int) else l2) = lo
  generalize hhi : (if u2 = 0 then (-1 : Int) else u2) = hi
  have hlo0 : lo ≠ 0 := by split at hlo <;> omega
  have hhi0 : hi ≠ 0 := by split at hhi <;> omega
  have hneg : ∀ a b : Int, a.tdiv b = -(a.tdiv (-b)) := fun a b => by rw [Int.tdiv_neg, Int.neg_neg]
  rcases lt_or_gt_of_ne hy with hy | hy
  · -- the divisor is negative
    have hloy : lo ≤ y := by split at hlo <;> omega
    have hyhi : y ≤ hi := by split at hhi <;> omega
    by_cases hh : hi < 0
    · have hb := tdiv_between h1 h2 (show 0 < -hi by omega) (show -hi ≤ -y by omega) (show -y ≤ -lo by omega)
      apply has_minMax
      · obtain ⟨_, b, hb, hle⟩ := hb
        rw [hneg x y]
        simp only [Int.tdiv_neg, List.mem_cons, List.not_mem_nil, or_false] at hb hle ⊢
        exact ⟨-b, by rcases hb with rfl | rfl | rfl | rfl <;> simp, by omega⟩
      · obtain ⟨⟨b, hb, hle⟩, _⟩ := hb
        rw [hneg x y]
        simp only [Int.tdiv_neg, List.mem_cons, List.not_mem_nil, or_false] at hb hle ⊢
        exact ⟨-b, by rcases hb with rfl | rfl | rfl | rfl <;> simp, by omega⟩
    · rw [if_pos (by omega)]
      have hb := tdiv_between h1 h2 (show (0 : Int) < 1 by omega) (show 1 ≤ -y by omega) (show -y ≤ -lo by omega)
      simp only [Int.tdiv_one] at hb
      apply has_minMax
      · obtain ⟨_, b, hb, hle⟩ := hb
        rw [hneg x y]
        simp only [Int.tdiv_neg, List.mem_cons, List.not_mem_nil, or_false] at hb hle ⊢
        exact ⟨-b, by rcases hb with rfl | rfl | rfl | rfl <;> simp, by omega⟩
      · obtain ⟨⟨b, hb, hle⟩, _⟩ := hb
        rw [hneg x y]
        simp only [Int.tdiv_neg, List.mem_cons, List.not_mem_nil, or_false] at hb hle ⊢
        exact ⟨-b, by rcases hb with rfl | rfl | rfl | rfl <;> simp, by omega⟩
  · have hloy : lo ≤ y := by split at hlo <;> omega
    have hyhi : y ≤ hi := by split at hhi <;> omega
    by_cases hl : 0 < lo
    · have hb := tdiv_between h1 h2 hl hloy hyhi
      apply has_minMax
      · obtain ⟨⟨b, hb, hle⟩, _⟩ := hb
        exact ⟨b, by simp only [List.mem_cons, List.not_mem_nil, or_false] at hb; rcases hb with rfl | rfl | rfl | rfl <;> simp, hle⟩
      · obtain ⟨_, b, hb, hle⟩ := hb
        exact ⟨b, by simp only [List.mem_cons, List.not_mem_nil, or_false] at hb; rcases hb with rfl | rfl | rfl | rfl <;> simp, hle⟩
    · rw [if_pos (by omega)]
      have hb := tdiv_between h1 h2 (show (0 : Int) < 1 by omega) (show 1 ≤ y by omega) hyhi
      simp only [Int.tdiv_one] at hb
      apply has_minMax
      · obtain ⟨⟨b, hb, hle⟩, _⟩ := hb
        exact ⟨b, by simp only [List.mem_cons, List.not_mem_nil, or_false] at hb; rcases hb with rfl | rfl | rfl | rfl <;> simp, hle⟩
      · obtain ⟨_, b, hb, hle⟩ := hb
        exact ⟨b, by simp only [List.mem_cons, List.not_mem_nil, or_false] at hb; rcases hb with rfl | rfl | rfl | rfl <;> simp, hle⟩

theorem land_nonneg {x y : Int} (hy : 0 ≤ y) : 0 ≤ Int.land x y ∧ Int.land x y ≤ y := by
  obtain ⟨m, rfl⟩ := Int.eq_ofNat_of_zero_le hy
  cases x with
  | ofNat n =>
    show 0 ≤ ((n &&& m : Nat) : Int) ∧ ((n &&& m : Nat) : Int) ≤ (m : Int)
    exact ⟨Int.natCast_nonneg _, by exact_mod_cast Nat.and_le_right⟩
  | negSucc n =>
    show 0 ≤ ((Nat.ldiff m n : Nat) : Int) ∧ ((Nat.ldiff m n : Nat) : Int) ≤ (m : Int)
    refine ⟨Int.natCast_nonneg _, ?_⟩
    have : Nat.ldiff m n ≤ m := by
      apply Nat.le_of_testBit
      intro i hi
      rw [Nat.testBit_ldiff] at hi
      simp only [Bool.and_eq_true] at hi
      exact hi.1
    exact_mod_cast this

/-- what is safe to conclude about shifts -/
def ShiftSafe (op : BinOp) (a b : Known) : Prop := (op = .shl → b.Amount ∨ a.NaturalShift b) ∧ (op = .shr → b.Amount)

theorem ShiftSafe.amount {op : BinOp} {a b : Known} {y : Int} (h : ShiftSafe op a b) (hb : b.Has y) (hop : op = .shl ∨ op = .shr) :
    0 ≤ y ∧ y < 2 ^ 31 := by
  have hA : b.Amount → 0 ≤ y ∧ y < 2 ^ 31 := by
    rintro ⟨n, rfl, hn⟩
    have := exact_has hb
    omega
  rcases hop with rfl | rfl
  · rcases h.1 rfl with h | ⟨l1, l2, u2, _, hl2, hu2, _, h0, h31⟩
    · exact hA h
    · have := hb.2.1 _ hl2
      have := hb.2.2 _ hu2
      omega
  · exact hA (h.2 rfl)

theorem bounds_has {op : BinOp} {a b : Known} {x y z : Int} (ha : a.Has x) (hb : b.Has y) (hs : ShiftSafe op a b)
    (h : op.arithInt .java x y = some z) : (bounds op a b).Has z := by
  cases op
  case mod =>
    simp only [bounds]
    split
    · next l1 l2 e1 e2 =>
      split
      · next hc =>
        have hx := ha.2.1 _ e1
        have hy := hb.2.1 _ e2
        simp only [BinOp.arithInt] at h
        rw [if_neg (by omega)] at h
        cases h
        simp only [Division.java]
        rw [Int.tmod_eq_emod_of_nonneg (by omega)]
        have hlt := Int.emod_lt_of_pos x (show 0 < y by omega)
        refine ⟨by simp, by simpa using Int.emod_nonneg x (by omega), ?_⟩
        intro u hu
        obtain ⟨u', hu', rfl⟩ := Option.map_eq_some_iff.1 hu
        have := hb.2.2 _ hu'
        omega
      · exact has_unknown _
    · exact has_unknown _
  case band =>
    simp only [bounds]
    split
    · next l2 e2 =>
      split
      · have hy := hb.2.1 _ e2
        simp only [BinOp.arithInt, Option.some.injEq] at h
        subst h
        have := land_nonneg (x := x) (y := y) (by omega)
        refine ⟨by simp, by simpa using this.1, ?_⟩
        intro u hu
        have := hb.2.2 _ hu
        omega
      · exact has_unknown _
    · exact has_unknown _
  case shl =>
    simp only [bounds]
    split
    · next l1 u1 l2 u2 e1 e2 e3 e4 =>
      have h1 := ha.2.1 _ e1
      have h2 := ha.2.2 _ e2
      have h3 := hb.2.1 _ e3
      have h4 := hb.2.2 _ e4
      simp only [BinOp.arithInt] at h
      have hy := hs.amount hb (.inl rfl)
      rw [if_neg (by omega), Option.some.injEq] at h
      subst h
      rcases hs.1 rfl with ⟨n, rfl, hn⟩ | ⟨l1', l2', u2', q1, q2, q3, p1, p2, p3⟩
      · have := exact_has hb
        cases e3
        cases e4
        subst this
        rw [intValue_small (by omega) (by omega), shiftLeft, shiftLeft, if_neg (by omega), if_neg (by omega)]
        exact has_range.2 ⟨Int.mul_le_mul_of_nonneg_right h1 (by positivity), Int.mul_le_mul_of_nonneg_right h2 (by positivity)⟩
      · rw [e1] at q1; cases q1
        rw [e3] at q2; cases q2
        rw [e4] at q3; cases q3
        rw [intValue_small (by omega) (by omega), intValue_small (by omega) (by omega), shiftLeft, shiftLeft, if_neg (by omega), if_neg (by omega)]
        have g1 : (2 : Int) ^ l2.toNat ≤ 2 ^ y.toNat := pow_le_pow_right₀ (by omega) (by omega)
        have g2 : (2 : Int) ^ y.toNat ≤ 2 ^ u2.toNat := pow_le_pow_right₀ (by omega) (by omega)
        exact has_range.2 ⟨Int.mul_le_mul h1 g1 (by positivity) (by omega), Int.mul_le_mul h2 g2 (by positivity) (by omega)⟩
    · exact has_unknown _
  case shr =>
    simp only [bounds]
    split
    · next l1 u1 l2 u2 e1 e2 e3 e4 =>
      have h1 := ha.2.1 _ e1
      have h2 := ha.2.2 _ e2
      have h3 := hb.2.1 _ e3
      have h4 := hb.2.2 _ e4
      simp only [BinOp.arithInt] at h
      have hy := hs.amount hb (.inr rfl)
      rw [if_neg (by omega), Option.some.injEq] at h
      subst h
      obtain ⟨n, rfl, hn⟩ := hs.2 rfl
      have := exact_has hb
      cases e3
      cases e4
      subst this
      rw [intValue_small (by omega) (by omega), shiftRight, shiftRight, if_neg (by omega), if_neg (by omega)]
      exact has_range.2 ⟨Int.ediv_le_ediv (by positivity) h1, Int.ediv_le_ediv (by positivity) h2⟩
    · exact has_unknown _
  all_goals
    simp only [bounds]
    split
    · next l1 u1 l2 u2 e1 e2 e3 e4 =>
      have h1 := ha.2.1 _ e1
      have h2 := ha.2.2 _ e2
      have h3 := hb.2.1 _ e3
      have h4 := hb.2.2 _ e4
      first
      | exact has_unknown _
      | (simp only [BinOp.arithInt, Option.some.injEq] at h
         subst h
         exact has_range.2 (by omega))
      | (simp only [BinOp.arithInt, Option.some.injEq] at h
         subst h
         exact multiply_has h1 h2 h3 h4)
      | (simp only [BinOp.arithInt] at h
         split at h
         · cases h
         · cases h
           exact divide_has h1 h2 h3 h4 ‹_›)
    · exact has_unknown _

theorem binary_has {op : BinOp} {a b k : Known} {x y z : Int} (hk : binary op a b = .ok k) (ha : a.Has x) (hb : b.Has y)
    (hs : ShiftSafe op a b) (h : op.arithInt .java x y = some z) : k.Has z := by
  unfold binary at hk
  obtain ⟨v, hv, hk⟩ := ConstEval.bind_ok_inv hk
  cases v with
  | none => cases hk; exact bounds_has ha hb hs h
  | some v =>
    cases hk
    obtain ⟨x', y', e1, e2⟩ := ConstEval.arith_some hv
    rw [e1, e2] at hv
    cases ha.1 _ e1
    cases hb.1 _ e2
    have := ConstEval.arith_right hv (fun hop => hs.amount hb hop)
    rw [h] at this
    cases this
    exact has_exact rfl

theorem negate_has {a : Known} {x : Int} (ha : a.Has x) (hs : a.value.isSome ∨ a.lower = none ∨ a.upper = none) : a.negate.Has (-x) := by
  unfold negate
  split
  · next v e => exact has_exact (by rw [ha.1 _ e])
  · next e =>
    split
    · next e1 e2 => simp [e, e1, e2] at hs
    · exact has_unknown _

theorem not_has {a : Known} {x : Int} (ha : a.Has x) : a.not.Has (-x - 1) := by
  unfold not
  split
  · next v e => exact has_exact (by rw [ha.1 _ e])
  · exact has_unknown _

theorem getNumBits_mono {x y : Int} (h : x ≤ y) : getNumBits x ≤ getNumBits y := by
  unfold getNumBits
  split
  · split
    · omega
    · have : 0 < Nat.size (y - 1).toNat := Nat.size_pos.2 (by omega)
      omega
  · rw [if_neg (by omega)]
    exact_mod_cast Nat.size_le_size (by omega)

theorem numbits_has {a : Known} {x : Int} (ha : a.Has x) (hx : 1 ≤ x) : a.numbits.Has (numBits x.toNat) := by
  rw [← getNumBits_right (by omega)]
  unfold numbits
  split
  · next v e => exact has_exact (by rw [ha.1 _ e])
  · split
    · next l u e1 e2 => exact has_range.2 ⟨getNumBits_mono (ha.2.1 _ e1), getNumBits_mono (ha.2.2 _ e2)⟩
    · exact has_unknown _

theorem conditional_has {a b : Known} {x : Int} (h : a.Has x ∨ b.Has x) : (a.conditional b).Has x := by
  unfold conditional
  split
  · next v w e1 e2 =>
    refine has_range.2 ?_
    rcases h with h | h
    · have := h.1 _ e1; omega
    · have := h.1 _ e2; omega
  · split
    · next l1 u1 l2 u2 e1 e2 e3 e4 =>
      refine has_range.2 ?_
      rcases h with h | h
      · have := h.2.1 _ e1; have := h.2.2 _ e2; omega
      · have := h.2.1 _ e3; have := h.2.2 _ e4; omega
    · exact has_unknown _

end Known

variable {O : Type} {W : World O} {T : O → Ty → Prop}

theorem describes_known {k : Known} {v : Value O} (h : ∀ x, number v = some x → k.Has x) : Info.Describes W { known := k } v where
  known := h
  text := by simp
  length := by simp
  element := by intro _ _ _ _ _ _ _; exact Known.has_unknown _
  result := by intro _ _ _ _ _ _; exact Known.has_unknown _
  resultText := by simp

theorem describes_unknown (v : Value O) : Info.Describes W {} v := describes_known fun _ _ => Known.has_unknown _

theorem apply_int {op : BinOp} {x y : Int} {v : Value O} {z : Int} (h : op.apply W .java (.int x) (.int y) = some v)
    (hz : number v = some z) : op.arithInt .java x y = some z := by
  simp only [BinOp.apply] at h
  split at h
  · cases h; simp [number] at hz
  · obtain ⟨w, hw, rfl⟩ := Option.map_eq_some_iff.1 h
    simp only [number, Option.some.injEq] at hz
    rw [hw, hz]

theorem apply_bitmask {op : BinOp} {c c' : Nat} {x y : Int} {v : Value O} {z : Int}
    (h : op.apply W .java (.bitmask c x) (.bitmask c' y) = some v) (hz : number v = some z) : op.arithInt .java x y = some z := by
  simp only [BinOp.apply] at h
  split at h
  · split at h
    · cases h; simpa [number, BinOp.arithInt] using hz
    · cases h; simpa [number, BinOp.arithInt] using hz
    · cases h; simpa [number, BinOp.arithInt] using hz
    · obtain ⟨w, hw, rfl⟩ := Option.map_eq_some_iff.1 h
      simp [number] at hz
  · cases h

theorem binaryOf_describes {op : BinOp} {ta tb : Ty} {i j r : Info} {x y v : Value O} (hr : binaryOf op (some ta) (some tb) i j = .ok r)
    (htx : x.HasType T ta) (hty : y.HasType T tb) (hi : i.Describes W x) (hj : j.Describes W y) (hs : Known.ShiftSafe op i.known j.known)
    (h : op.apply W .java x y = some v) : r.Describes W v := by
  unfold binaryOf at hr
  split at hr
  · next e1 e2 =>
    cases e1
    cases e2
    obtain ⟨a, rfl⟩ := hasType_int htx
    obtain ⟨b, rfl⟩ := hasType_int hty
    split at hr
    all_goals first
      | (cases hr; exact describes_unknown _)
      | (obtain ⟨k, hk, hr⟩ := ConstEval.bind_ok_inv hr
         cases hr
         exact describes_known fun z hz => Known.binary_has hk (hi.known _ rfl) (hj.known _ rfl) hs (apply_int h hz))
  · next e1 e2 =>
    cases e1
    cases e2
    obtain ⟨a, rfl⟩ := hasType_bitmask htx
    obtain ⟨b, rfl⟩ := hasType_bitmask hty
    split at hr
    all_goals first
      | (cases hr; exact describes_unknown _)
      | (obtain ⟨k, hk, hr⟩ := ConstEval.bind_ok_inv hr
         cases hr
         exact describes_known fun z hz => Known.binary_has hk (hi.known _ rfl) (hj.known _ rfl) hs (apply_bitmask h hz))
  · next e1 e2 =>
    cases e1
    cases e2
    obtain ⟨a, rfl⟩ := hasType_str htx
    obtain ⟨b, rfl⟩ := hasType_str hty
    split at hr
    · next s t e3 e4 =>
      split at hr
      · next hop =>
        cases hr
        subst hop
        simp only [BinOp.apply, if_true, Option.some.injEq] at h
        subst h
        exact {
          known := by simp [number]
          text := by
            intro s' t' hs' ht'
            cases hs'
            cases ht'
            rw [hi.text _ _ rfl e3, hj.text _ _ rfl e4]
          length := by simp
          element := by simp
          result := by simp
          resultText := by simp }
      · cases hr; exact describes_unknown _
    · split at hr
      · cases hr
      · cases hr; exact describes_unknown _
  · cases hr; exact describes_unknown _

theorem unaryOf_describes {op : UnOp} {t t' : Ty} {i : Info} {x v : Value O} (hty : op.type t = some t') (htx : x.HasType T t) (hi : i.Describes W x)
    (hm : op = .minus → t = .int → i.known.value.isSome ∨ i.known.lower = none ∨ i.known.upper = none)
    (hn : op = .tilde → t ≠ .int → i.known.value = none) (h : op.apply W x = some v) : (unaryOf op (some t) i).Describes W v := by
  unfold unaryOf
  split
  · next e =>
    cases e
    obtain ⟨a, rfl⟩ := hasType_int htx
    cases h
    exact describes_known fun z hz => hi.known _ hz
  · next e =>
    cases e
    obtain ⟨a, rfl⟩ := hasType_int htx
    cases h
    refine describes_known fun z hz => ?_
    cases hz
    exact Known.negate_has (hi.known _ rfl) (hm rfl rfl)
  · refine describes_known fun z hz => ?_
    cases t <;> simp only [UnOp.type, reduceCtorEq] at hty
    · obtain ⟨a, rfl⟩ := hasType_int htx
      cases h
      cases hz
      exact Known.not_has (hi.known _ rfl)
    · rw [Known.not, hn rfl (by simp)]
      exact Known.has_unknown _
  · exact describes_unknown _

theorem lengthOf_describes {t : Ty} {i : Info} {k : Known} {x : Value O} {n : Int} (hk : lengthOf (some t) i = .ok k) (htx : x.HasType T t)
    (hi : i.Describes W x) (hmax : n ≤ 2 ^ 31 - 1)
    (h : (match x with
      | .other o => (W.length o).map fun (n : Nat) => (.int (n : Int) : Value O)
      | .str s => match utf8Encode s with
        | .ok bs => some (.int bs.length)
        | .error _ => none
      | .bytes bs => some (.int bs.length)
      | _ => none) = some (.int n)) : k.Has n := by
  have hn : 0 ≤ n := by
    split at h
    · obtain ⟨m, _, hm⟩ := Option.map_eq_some_iff.1 h
      cases hm
      omega
    · split at h
      · cases h; omega
      · cases h
    · cases h; omega
    · cases h
  have hv : Known.varsize.Has n := Known.has_range.2 ⟨hn, hmax⟩
  unfold lengthOf at hk
  split at hk
  · next e =>
    cases e
    obtain ⟨o, rfl, _⟩ := hasType_array htx
    split at hk
    · next v e =>
      cases hk
      simp only at h
      obtain ⟨m, hm, e2⟩ := Option.map_eq_some_iff.1 h
      cases e2
      exact Known.has_exact (hi.length o m v rfl hm e)
    · cases hk; exact hv
  · next e =>
    cases e
    obtain ⟨s, rfl⟩ := hasType_str htx
    split at hk
    · next t e =>
      cases hi.text s t rfl e
      simp only at h
      split at hk
      · next bs hb =>
        cases hk
        rw [hb] at h
        simp only [Option.some.injEq, Value.int.injEq] at h
        exact Known.has_exact h.symm
      · cases hk
    · cases hk; exact hv
  · cases hk; exact hv

theorem logic_types {op : BinOp} {ta tb t : Ty} (hop : op = .land ∨ op = .lor) (h : op.type ta tb = some t) : ta = .bool ∧ tb = .bool := by
  rcases hop with rfl | rfl
  · cases ta <;> cases tb <;> simp [BinOp.type] at h ⊢
  · cases ta <;> cases tb <;> simp [BinOp.type] at h ⊢

theorem info_describes {Γ : Signature} {N : Names} (hW : W.Typed Γ T) (hN : N.Describe W T) (e : Expression.Expr) :
    ∀ {t : Ty} {i : Info} {v : Value O}, e.type Γ = some t → info Γ N e = .ok i → e.eval W .java = some v → Safe Γ N e → Sized W e →
      PlainTexts W e → i.Describes W v := by
  induction e with
  | intLit b digits =>
    intro t i v ht hi h hs hz hp
    cases hi
    cases h
    exact describes_known fun z hz => Known.has_exact (by simpa [number] using hz.symm)
  | floatLit text => intro t i v ht hi h hs hz hp; cases hi; exact describes_unknown _
  | strLit text =>
    intro t i v ht hi h hs hz hp
    cases hi
    cases h
    exact {
      known := by simp [number]
      text := by intro s t hs ht; cases hs; cases ht; exact hp
      length := by simp
      element := by simp
      result := by simp
      resultText := by simp }
  | boolLit b => intro t i v ht hi h hs hz hp; cases hi; exact describes_unknown _
  | index => intro t i v ht hi h hs hz hp; cases hi; exact describes_unknown _
  | symbol id => intro t i v ht hi h hs hz hp; cases hi; exact hN.symbol id v h
  | paren e ih => intro t i v ht hi h hs hz hp; exact ih ht hi h hs hz hp
  | call e ih =>
    intro t r v ht hi h hs hz hp
    simp only [info] at hi
    obtain ⟨i, hi', hr⟩ := ConstEval.bind_ok_inv hi
    cases hr
    simp only [Expr.type, Expr.eval] at ht h
    split at ht
    · next ht' =>
      split at h
      · next o h' =>
        have := ih ht' hi' h' hs hz hp
        exact {
          known := fun x hx => this.result o v x rfl h hx
          text := fun s t hs ht => this.resultText o v s t rfl h hs ht
          length := by simp
          element := by intro _ _ _ _ _ _ _; exact Known.has_unknown _
          result := by intro _ _ _ _ _ _; exact Known.has_unknown _
          resultText := by simp }
      · cases h
    · cases ht
  | element e j ih ihj =>
    intro t r v ht hi h hs hz hp
    simp only [info] at hi
    obtain ⟨i, hi', hr⟩ := ConstEval.bind_ok_inv hi
    obtain ⟨_, _, hr⟩ := ConstEval.bind_ok_inv hr
    cases hr
    simp only [Expr.type, Expr.eval] at ht h
    split at ht
    · next ht' _ =>
      split at h
      · next o m h' _ =>
        split at h
        · cases h
        · exact describes_known fun x hx => (ih ht' hi' h' hs.1 hz.1 hp.1).element o _ v x rfl h hx
      · cases h
    · cases ht
  | member e id ih =>
    intro t r v ht hi h hs hz hp
    simp only [info] at hi
    obtain ⟨i, hi', hr⟩ := ConstEval.bind_ok_inv hi
    simp only [Expr.type, Expr.eval] at ht h
    split at ht
    · next c ht' =>
      rw [ht'] at hr
      cases hr
      split at h
      · next o h' => exact hN.member o c id v (type_sound hW .java e ht' h') h
      · cases h
    · cases ht
  | isset a b _ _ =>
    intro t r v ht hi h hs hz hp
    simp only [info] at hi
    obtain ⟨_, _, hr⟩ := ConstEval.bind_ok_inv hi
    obtain ⟨_, _, hr⟩ := ConstEval.bind_ok_inv hr
    cases hr
    exact describes_unknown _
  | lengthof e ih =>
    intro t r v ht hi h hs hz hp
    simp only [info] at hi
    obtain ⟨i, hi', hr⟩ := ConstEval.bind_ok_inv hi
    obtain ⟨k, hk, hr⟩ := ConstEval.bind_ok_inv hr
    cases hr
    have hint : t = .int := by simp only [Expr.type] at ht; split at ht <;> cases ht <;> rfl
    subst hint
    obtain ⟨n, rfl⟩ := hasType_int (type_sound hW .java (.lengthof e) ht h)
    have hmax := hz.2 n h
    simp only [Expr.type, Expr.eval] at ht h
    cases hte : e.type Γ with
    | none => rw [hte] at ht; cases ht
    | some te =>
      rw [hte] at hk
      cases hx : e.eval W .java with
      | none => rw [hx] at h; cases h
      | some x =>
        refine describes_known fun z hz' => ?_
        cases hz'
        refine lengthOf_describes hk (type_sound hW .java e hte hx) (ih hte hi' hx hs hz.1 hp) hmax ?_
        rw [hx] at h
        cases x <;> exact h
  | valueof e ih =>
    intro t r v ht hi h hs hz hp
    simp only [info] at hi
    obtain ⟨i, hi', hr⟩ := ConstEval.bind_ok_inv hi
    cases hr
    simp only [Expr.type, Expr.eval] at ht h
    cases hte : e.type Γ with
    | none => rw [hte] at ht; cases ht
    | some te =>
      refine describes_known fun z hz' => ?_
      split at h
      · next x h' => cases h; cases hz'; exact (ih hte hi' h' hs hz hp).known _ rfl
      · next x h' => cases h; cases hz'; exact (ih hte hi' h' hs hz hp).known _ rfl
      · cases h
  | numbits e ih =>
    intro t r v ht hi h hs hz hp
    simp only [info] at hi
    obtain ⟨i, hi', hr⟩ := ConstEval.bind_ok_inv hi
    cases hr
    simp only [Expr.type, Expr.eval] at ht h
    split at ht
    · next hte =>
      split at h
      · next x h' =>
        have hx := (ih hte hi' h' hs.1 hz hp).known _ rfl
        split at h
        · cases h
        · cases h
          refine describes_known fun z hz' => ?_
          cases hz'
          exact Known.numbits_has hx (hs.2 i hi' x hx)
      · cases h
    · cases ht
  | unary op e ih =>
    intro t r v ht hi h hs hz hp
    simp only [info] at hi
    obtain ⟨i, hi', hr⟩ := ConstEval.bind_ok_inv hi
    cases hr
    simp only [Expr.type, Expr.eval] at ht h
    cases hte : e.type Γ with
    | none => rw [hte] at ht; cases ht
    | some te =>
      rw [hte] at ht
      split at h
      · next x h' =>
        have hs2 := hs.2 i hi'
        rw [hte] at hs2
        exact unaryOf_describes ht (type_sound hW .java e hte h') (ih hte hi' h' hs.1 hz hp) (fun h1 h2 => hs2.1 h1 (by rw [h2]))
          (fun h1 h2 => hs2.2 h1 (by simpa using h2)) h
      · cases h
  | binary op a b iha ihb =>
    intro t r v ht hi h hs hz hp
    simp only [info] at hi
    obtain ⟨i, hi', hr⟩ := ConstEval.bind_ok_inv hi
    obtain ⟨j, hj, hr⟩ := ConstEval.bind_ok_inv hr
    have htype := ht
    simp only [Expr.type] at ht
    cases hta : a.type Γ with
    | none => rw [hta] at ht; cases ht
    | some ta =>
      cases htb : b.type Γ with
      | none => rw [hta, htb] at ht; cases ht
      | some tb =>
        rw [hta, htb] at hr ht
        by_cases hop : op = .land ∨ op = .lor
        · obtain ⟨rfl, rfl⟩ := logic_types hop ht
          cases hr
          exact describes_unknown _
        · obtain ⟨x, y, hx, hy, hv⟩ := eval_binary (fun h => hop (.inl h)) (fun h => hop (.inr h)) h
          exact binaryOf_describes hr (type_sound hW .java a hta hx) (type_sound hW .java b htb hy) (iha hta hi' hx hs.1 hz.1 hp.1)
            (ihb htb hj hy hs.2.1 hz.2 hp.2) (hs.2.2 i j hi' hj) hv
  | cond c a b _ iha ihb =>
    intro t r v ht hi h hs hz hp
    simp only [info] at hi
    obtain ⟨_, _, hr⟩ := ConstEval.bind_ok_inv hi
    obtain ⟨i, hi', hr⟩ := ConstEval.bind_ok_inv hr
    obtain ⟨j, hj, hr⟩ := ConstEval.bind_ok_inv hr
    simp only [Expr.type] at ht
    split at ht
    · next hte =>
      simp only [Expr.eval] at h
      split at hr
      · cases hr
        refine describes_known fun z hz' => Known.conditional_has ?_
        split at h
        · exact .inl ((iha ht hi' h hs.2.1 hz.2.1 hp.2.1).known _ hz')
        · exact .inr ((ihb (hte.2 ▸ ht) hj h hs.2.2 hz.2.2 hp.2.2).known _ hz')
        · cases h
      · cases hr; exact describes_unknown _
    · cases ht

end Zserio.ExprBounds
