import Verif.Lemmas.Rewrite
set_option linter.unusedSimpArgs false
/-
The range check of generated code.
-/
namespace Zserio
namespace FieldDef
variable {f : FieldDef} {env : Env} {v : Val}

/-- the bounds of the compiler are those of the types -/
theorem inRange_bounds {k : IntKind} {x : Int} (h : k.InRange x) : lowest k ≤ x ∧ x ≤ highest k := by
  cases k with
  | bitField n => simp only [lowest, highest]; exact ⟨h.2.1, by have := h.2.2; omega⟩
  | signedBitField n => simp only [lowest, highest]; exact ⟨h.2.1, by have := h.2.2; omega⟩
  | var t =>
    have h1 := h.1
    have h2 := h.2
    cases t <;> simp [lowest, highest, VarType.lo, VarType.hi] at h1 h2 ⊢ <;> omega

/-- the bounds a range check uses -/
theorem rangeBounds_dyn {signed : Bool} {length : Expr Int} {n : Int} {k : IntKind} {x : Int} (ha : f.array = none)
    (ht : f.type = .dynBits signed length) (hl : length env = .ok n) (hk : dynKind signed n = .ok k) (hx : k.InRange x) :
    f.rangeBounds env = .ok (some (lowest k, highest k)) := by
  unfold dynKind at hk
  split at hk
  · cases hk
  · next hn =>
    simp only [Except.ok.injEq] at hk
    subst hk
    have hlen : checkBitfieldLength n = .ok () := by
      unfold checkBitfieldLength MAX_BITFIELD_BITS
      rw [if_neg]
      cases signed
      · have := hx.1; omega
      · have := hx.1; omega
    have hpred : (n - 1).toNat = n.toNat - 1 := by omega
    unfold rangeBounds
    rw [ha, ht]
    cases signed <;>
      simp [hl, ok_bind, dynBounds, bitfieldLowerbound, bitfieldUpperbound, signedBitfieldLowerbound, signedBitfieldUpperbound, hlen, lowest,
        highest, hpred]

theorem checkRange_ok (h1 : ∀ k, f.array = none → f.type = .int k → ∃ x, v = .int x ∧ k.InRange x)
    (h2 : ∀ signed length, f.array = none → f.type = .dynBits signed length →
      ∃ n k x, length env = .ok n ∧ dynKind signed n = .ok k ∧ v = .int x ∧ k.InRange x) : f.checkRange env v = .ok () := by
  unfold checkRange
  split
  · rcases ha : f.array with _ | a
    · rcases ht : f.type with k | b | ⟨signed, length⟩ | e | k | ⟨id, args⟩
      case int =>
        obtain ⟨x, rfl, hx⟩ := h1 k ha ht
        have := inRange_bounds hx
        simp only [rangeBounds, ha, ht, ok_bind, Val.asInt]
        rw [if_neg (by omega)]
      case dynBits =>
        obtain ⟨n, k, x, g1, g2, rfl, hx⟩ := h2 signed length ha ht
        have := inRange_bounds hx
        rw [rangeBounds_dyn ha ht g1 g2 hx]
        simp only [ok_bind, Val.asInt]
        rw [if_neg (by omega)]
      all_goals simp only [rangeBounds, ha, ht, ok_bind]
    · simp only [rangeBounds, ha, ok_bind]
  · rfl

end FieldDef

/-- integral values that have been read are in the range of their type -/
theorem methods_read_range {codecs : Nat → Codec} {ty : ElemType} {env : Env} {m : Methods} (hm : ty.methods codecs env = .ok m)
    {c c' : Ctx} {i : Nat} {v : Val} {r r' : Reader} (hr : r.WF) (h : m.read none c i r = (.ok (v, c'), r')) :
    (∀ k, ty = .int k → ∃ x, v = .int x ∧ k.InRange x) ∧
    ∀ signed length, ty = .dynBits signed length →
      ∃ n k x, length env = .ok n ∧ dynKind signed n = .ok k ∧ v = .int x ∧ k.InRange x := by
  constructor
  · rintro k rfl
    simp only [ElemType.methods, Except.ok.injEq] at hm; subst hm
    obtain ⟨⟨x, c1⟩, r1, h1, h2⟩ := M.bind_inv h
    simp only [M.pure_apply, Prod.mk.injEq, Except.ok.injEq] at h2
    obtain ⟨⟨rfl, rfl⟩, -⟩ := h2
    obtain ⟨rfl, hx⟩ := intRead_inv hr h1
    exact ⟨x, rfl, hx⟩
  · rintro signed length rfl
    simp only [ElemType.methods] at hm
    obtain ⟨n, hn, hm⟩ := except_bind_ok hm
    obtain ⟨k, hk, hm⟩ := except_bind_ok hm
    cases hm
    obtain ⟨⟨x, c1⟩, r1, h1, h2⟩ := M.bind_inv h
    simp only [M.pure_apply, Prod.mk.injEq, Except.ok.injEq] at h2
    obtain ⟨⟨rfl, rfl⟩, -⟩ := h2
    obtain ⟨rfl, hx⟩ := intRead_inv hr h1
    exact ⟨n, k, x, hn, hk, rfl, hx⟩

end Zserio
