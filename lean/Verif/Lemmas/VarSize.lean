import Verif.Lemmas.Writer
import Verif.Model.VarDispatch
set_option linter.unusedSimpArgs false
namespace Zserio

theorem find_cons_if {α : Type} (p : α → Prop) [DecidablePred p] (a : α) (l : List α) :
    ((a :: l).find? (fun x => decide (p x))) = if p a then some a else l.find? (fun x => decide (p x)) := by
  rw [List.find?_cons]
  split <;> simp_all

/-- The table loop finds the first length whose capacity suffices. -/
theorem bitsizeofVarnumLoop_eq (c : Nat → Nat) (a : Nat) (i k : Nat) :
    bitsizeofVarnumLoop a i ((List.range' (i + 1) k).map (fun n => 2 ^ c n - 1)) =
      match (List.range' (i + 1) k).find? (fun n => decide (a < 2 ^ c n)) with
      | some n => .ok (8 * n)
      | none => .error .varRange := by
  induction k generalizing i with
  | zero => rfl
  | succ k ih =>
    rw [List.range'_succ, List.map_cons, bitsizeofVarnumLoop, find_cons_if]
    have hp : 0 < 2 ^ c (i + 1) := by positivity
    by_cases h : a < 2 ^ c (i + 1)
    · rw [if_pos (by omega), if_pos h]
      simp [Nat.mul_comm]
    · rw [if_neg (by omega), if_neg h]
      exact ih (i + 1)

theorem numBytes_def (t : VarType) (v : Int) :
    t.numBytes v = ((List.range' 1 t.maxBytes).find? (fun n => decide (v.natAbs < 2 ^ t.capacity n))).getD 0 := by
  unfold VarType.numBytes
  congr 2
  cases t <;> rfl

theorem find_isSome_iff (t : VarType) (a : Nat) :
    ((List.range' 1 t.maxBytes).find? (fun n => decide (a < 2 ^ t.capacity n))).isSome ↔
      a < 2 ^ t.capacity t.maxBytes := by
  rw [List.find?_isSome]
  constructor
  · rintro ⟨n, hn, h⟩
    simp only [decide_eq_true_eq] at h
    refine lt_of_lt_of_le h (Nat.pow_le_pow_right (by omega) ?_)
    rw [List.mem_range'_1] at hn
    unfold VarType.capacity
    generalize (if t.signed = true then 1 else 0) = s
    split_ifs <;> omega
  · intro h
    refine ⟨t.maxBytes, ?_, by simpa using h⟩
    rw [List.mem_range'_1]
    cases t <;> simp [VarType.maxBytes]

/-- Loop over a table of the shape used for all types. -/
theorem bitsizeofVarnum_table (t : VarType) (a : Nat) (l : List Nat)
    (hl : l = (List.range' 1 t.maxBytes).map (fun n => 2 ^ t.capacity n - 1)) (v : Int) (hv : v.natAbs = a) :
    bitsizeofVarnum (a : Int) l =
      if a < 2 ^ t.capacity t.maxBytes then .ok (8 * t.numBytes v) else .error .varRange := by
  subst hl hv
  rw [bitsizeofVarnum, if_pos (by omega), Int.natAbs_natCast, numBytes_def]
  have := bitsizeofVarnumLoop_eq t.capacity v.natAbs 0 t.maxBytes
  rw [Nat.zero_add] at this
  rw [this]
  have hs := find_isSome_iff t v.natAbs
  split
  · rename_i n hn
    rw [hn] at hs
    rw [if_pos (hs.mp rfl), hn, Option.getD_some]
  · rename_i hn
    rw [hn] at hs
    rw [if_neg (fun h => by simpa using hs.mpr h)]

theorem bitsizeofVar_eq (t : VarType) (v : Int) :
    bitsizeofVar t v =
      if t.InRange v then .ok (8 * if t = .varint ∧ v = -(2 ^ 63) then 1 else t.numBytes v) else .error .varRange := by
  have signedCase : ∀ (t : VarType) (l : List Nat), t.lo = -t.hi → t ≠ .varint →
      l = (List.range' 1 t.maxBytes).map (fun n => 2 ^ t.capacity n - 1) →
      (t.hi = 2 ^ t.capacity t.maxBytes - 1) →
      bitsizeofVarnum v.natAbs l = if t.InRange v then
        .ok (8 * if t = .varint ∧ v = -(2 ^ 63) then 1 else t.numBytes v) else .error .varRange := by
    intro t l h1 h2 h3 h4
    rw [bitsizeofVarnum_table t v.natAbs l h3 v rfl]
    have : (v.natAbs < 2 ^ t.capacity t.maxBytes) ↔ t.InRange v := by
      rw [VarType.InRange, h1, h4]
      generalize t.capacity t.maxBytes = c
      have : ((2 ^ c : Nat) : Int) = 2 ^ c := by push_cast; rfl
      rw [← this]
      omega
    simp [this, h2]
  have unsignedCase : ∀ (t : VarType) (l : List Nat), t.lo = 0 → t ≠ .varint →
      l = (List.range' 1 t.maxBytes).map (fun n => 2 ^ t.capacity n - 1) →
      (t.hi = 2 ^ t.capacity t.maxBytes - 1) →
      bitsizeofVarnum v l = if t.InRange v then
        .ok (8 * if t = .varint ∧ v = -(2 ^ 63) then 1 else t.numBytes v) else .error .varRange := by
    intro t l h1 h2 h3 h4
    by_cases hv : 0 ≤ v
    · have hva : ((v.natAbs : Nat) : Int) = v := by omega
      conv => lhs; rw [← hva]
      rw [bitsizeofVarnum_table t v.natAbs l h3 v rfl]
      have : (v.natAbs < 2 ^ t.capacity t.maxBytes) ↔ t.InRange v := by
        rw [VarType.InRange, h1, h4]
        generalize t.capacity t.maxBytes = c
        have : ((2 ^ c : Nat) : Int) = 2 ^ c := by push_cast; rfl
        rw [← this]
        omega
      simp [this, h2]
    · rw [bitsizeofVarnum, if_neg hv, if_neg]
      rw [VarType.InRange, h1]
      omega
  cases t with
  | varint16 => exact signedCase .varint16 _ rfl (by decide) rfl rfl
  | varint32 => exact signedCase .varint32 _ rfl (by decide) rfl rfl
  | varint64 => exact signedCase .varint64 _ rfl (by decide) rfl rfl
  | varint =>
    simp only [bitsizeofVar, bitsizeofVarint]
    have hI : INT64_MIN = -(2 ^ 63) := rfl
    by_cases hv : v = INT64_MIN
    · rw [if_pos hv, hv]; rfl
    · rw [if_neg hv]
      rw [hI] at hv
      rw [bitsizeofVarnum_table .varint v.natAbs VARINT_MAX_VALUES rfl v rfl]
      have : (v.natAbs < 2 ^ VarType.varint.capacity VarType.varint.maxBytes) ↔ VarType.varint.InRange v := by
        simp only [VarType.InRange, VarType.capacity, VarType.maxBytes, VarType.signed, VarType.lo, VarType.hi]
        norm_num
        omega
      simp only [this, hv, and_false, if_false]
  | varuint16 => exact unsignedCase .varuint16 _ rfl (by decide) rfl rfl
  | varuint32 => exact unsignedCase .varuint32 _ rfl (by decide) rfl rfl
  | varuint64 => exact unsignedCase .varuint64 _ rfl (by decide) rfl rfl
  | varuint => exact unsignedCase .varuint _ rfl (by decide) rfl rfl
  | varsize =>
    simp only [bitsizeofVar, bitsizeofVarsize, bitsizeofVarnum, VARSIZE_MAX_VALUES, bitsizeofVarnumLoop,
      VarType.InRange, VarType.lo, VarType.hi, numBytes_def, VarType.maxBytes, VarType.capacity, VarType.signed,
      List.range'_succ, List.range'_zero, find_cons_if, List.find?_nil, reduceCtorEq, false_and, if_false,
      Bool.false_eq_true]
    norm_num
    by_cases h0 : 0 ≤ v
    · by_cases h1 : v ≤ 2147483647
      · simp only [h0, h1, and_self, if_true]
        by_cases a1 : v.natAbs ≤ 127
        · simp [a1, show v.natAbs < 128 by omega]
        by_cases a2 : v.natAbs ≤ 16383
        · simp [a1, a2, show v.natAbs < 16384 by omega, show ¬ v.natAbs < 128 by omega]
        by_cases a3 : v.natAbs ≤ 2097151
        · simp [a1, a2, a3, show v.natAbs < 2097152 by omega, show ¬ v.natAbs < 16384 by omega,
            show ¬ v.natAbs < 128 by omega]
        by_cases a4 : v.natAbs ≤ 268435455
        · simp [a1, a2, a3, a4, show v.natAbs < 268435456 by omega, show ¬ v.natAbs < 2097152 by omega,
            show ¬ v.natAbs < 16384 by omega, show ¬ v.natAbs < 128 by omega]
        · simp [a1, a2, a3, a4, show ¬ v.natAbs < 268435456 by omega, show ¬ v.natAbs < 2097152 by omega,
            show ¬ v.natAbs < 16384 by omega, show ¬ v.natAbs < 128 by omega, show v.natAbs < 68719476736 by omega,
            show v.natAbs ≤ 2147483647 by omega]
      · simp only [h0, h1, if_true, if_false, and_false]
        simp [show ¬ v.natAbs ≤ 127 by omega, show ¬ v.natAbs ≤ 16383 by omega, show ¬ v.natAbs ≤ 2097151 by omega,
          show ¬ v.natAbs ≤ 268435455 by omega, show ¬ v.natAbs ≤ 2147483647 by omega]
    · simp [h0]

end Zserio
