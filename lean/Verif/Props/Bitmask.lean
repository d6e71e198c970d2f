import Verif.Spec.Bitmask
import Verif.Props.RoundTrip
import Verif.Props.PackedArray
import Verif.Lemmas.CompoundEq
/-
Property C38: bitmasks are sets of bits.

`d.width = some w` says that `d` is a bitmask type the compiler accepts and that it has `w` bits.
-/
namespace Zserio
open Writer

namespace Bitmask
variable {d : BitmaskDef} {w : Nat}

theorem width_bounds (h : d.width = some w) : d.lowerBound = 0 ∧ d.upperBound = 2 ^ w - 1 ∧
    (∀ v, d.underlying.InRange v ↔ 0 ≤ v ∧ v < 2 ^ w) := by
  unfold BitmaskDef.width at h
  unfold BitmaskDef.lowerBound BitmaskDef.upperBound
  rcases hu : d.underlying with n | n | t
  · rw [hu] at h
    simp only at h
    split at h
    · rename_i hn
      simp only [Option.some.injEq] at h
      subst h
      refine ⟨rfl, rfl, fun v => ?_⟩
      simp only [IntKind.InRange]
      exact ⟨fun h => h.2, fun h => ⟨hn, h⟩⟩
    · cases h
  · rw [hu] at h; cases h
  · rw [hu] at h
    cases t <;> simp only [Option.some.injEq, reduceCtorEq] at h <;> subst h <;>
      refine ⟨rfl, rfl, fun v => ?_⟩ <;>
      simp only [IntKind.InRange, VarType.InRange, VarType.lo, VarType.hi] <;> omega

theorem fromValue_eq (h : d.width = some w) (v : Int) :
    fromValue (d := d) v = if 0 ≤ v ∧ v < 2 ^ w then .ok ⟨v⟩ else .error .bitmaskBounds := by
  obtain ⟨h1, h2, _⟩ := width_bounds h
  unfold fromValue
  rw [h1, h2]
  by_cases hv : 0 ≤ v ∧ v < 2 ^ w
  · rw [if_neg (by omega), if_pos hv]
  · rw [if_pos (by omega), if_neg hv]

theorem nat_of_valid (h : d.width = some w) {a : Bitmask d} (ha : a.Valid) :
    ∃ x : Nat, a = ⟨(x : Int)⟩ ∧ x < 2 ^ w := by
  obtain ⟨_, _, h3⟩ := width_bounds h
  obtain ⟨h4, h5⟩ := (h3 _).1 ha
  refine ⟨a.value.toNat, ?_, ?_⟩
  · cases a; simp only [mk.injEq] at *; omega
  · have : (a.value.toNat : Int) < 2 ^ w := by rw [Int.toNat_of_nonneg h4]; exact h5
    exact_mod_cast this

theorem fromValue_nat (h : d.width = some w) {x : Nat} (hx : x < 2 ^ w) :
    fromValue (d := d) (x : Int) = .ok ⟨(x : Int)⟩ := by
  rw [fromValue_eq h, if_pos]
  exact ⟨Int.natCast_nonneg x, by exact_mod_cast hx⟩

theorem valid_nat (h : d.width = some w) {x : Nat} (hx : x < 2 ^ w) : (⟨(x : Int)⟩ : Bitmask d).Valid := by
  obtain ⟨_, _, h3⟩ := width_bounds h
  exact (h3 _).2 ⟨Int.natCast_nonneg x, by show (x : Int) < 2 ^ w; exact_mod_cast hx⟩

theorem has_nat (x : Nat) (i : Nat) : (⟨(x : Int)⟩ : Bitmask d).Has i ↔ x.testBit i = true := by
  show (x : Int) / 2 ^ i % 2 = 1 ↔ _
  rw [Nat.testBit_eq_decide_div_mod_eq, decide_eq_true_iff]
  norm_cast

theorem invert_nat (h : d.width = some w) (x : Nat) :
    invert (⟨(x : Int)⟩ : Bitmask d) = .ok ⟨(Nat.ldiff (2 ^ w - 1) x : Nat)⟩ := by
  unfold invert
  rw [(width_bounds h).2.1]
  have : ((2 : Int) ^ w - 1) = ((2 ^ w - 1 : Nat) : Int) := by
    rw [Nat.cast_sub (Nat.one_le_two_pow)]; push_cast; rfl
  rw [this]
  refine fromValue_nat h (Nat.lt_pow_two_of_testBit _ fun i hi => ?_)
  rw [Nat.testBit_ldiff, Nat.testBit_two_pow_sub_one]
  simp [hi]

end Bitmask

open Bitmask

/-- **C38.** `from_value` accepts exactly the values of the underlying type, and keeps them; every other integer is
refused. -/
theorem C38_from_value (d : BitmaskDef) (w : Nat) (hd : d.width = some w) (v : Int) :
    (d.underlying.InRange v → ∃ a : Bitmask d, fromValue v = .ok a ∧ a.value = v ∧ a.Valid) ∧
    (¬ d.underlying.InRange v → fromValue (d := d) v = .error .bitmaskBounds) := by
  obtain ⟨_, _, h3⟩ := width_bounds hd
  rw [h3, fromValue_eq hd]
  refine ⟨fun h => ⟨⟨v⟩, by rw [if_pos h], rfl, (h3 v).2 h⟩, fun h => by rw [if_neg h]⟩

/-- **C38.** A valid bitmask has no bits above its width, and is determined by its bits. -/
theorem C38_bits (d : BitmaskDef) (w : Nat) (hd : d.width = some w) (a b : Bitmask d) (ha : a.Valid) (hb : b.Valid) :
    (∀ i, a.Has i → i < w) ∧ ((∀ i, a.Has i ↔ b.Has i) → a = b) := by
  obtain ⟨x, rfl, hx⟩ := nat_of_valid hd ha
  obtain ⟨y, rfl, hy⟩ := nat_of_valid hd hb
  simp only [has_nat]
  constructor
  · intro i hi
    by_contra hc
    rw [Nat.testBit_lt_two_pow (lt_of_lt_of_le hx (Nat.pow_le_pow_right (by omega) (by omega)))] at hi
    cases hi
  · intro h
    have : x = y := Nat.eq_of_testBit_eq fun i => by
      have := h i
      cases h1 : x.testBit i <;> cases h2 : y.testBit i <;> simp_all
    rw [this]

/-- **C38.** `|` is the union. -/
theorem C38_or (d : BitmaskDef) (w : Nat) (hd : d.width = some w) (a b : Bitmask d) (ha : a.Valid) (hb : b.Valid) :
    ∃ c : Bitmask d, a.or b = .ok c ∧ c.Valid ∧ ∀ i, c.Has i ↔ a.Has i ∨ b.Has i := by
  obtain ⟨x, rfl, hx⟩ := nat_of_valid hd ha
  obtain ⟨y, rfl, hy⟩ := nat_of_valid hd hb
  refine ⟨⟨(x ||| y : Nat)⟩, fromValue_nat hd (Nat.or_lt_two_pow hx hy), valid_nat hd (Nat.or_lt_two_pow hx hy), fun i => ?_⟩
  simp [has_nat]

/-- **C38.** `&` is the intersection. -/
theorem C38_and (d : BitmaskDef) (w : Nat) (hd : d.width = some w) (a b : Bitmask d) (ha : a.Valid) (hb : b.Valid) :
    ∃ c : Bitmask d, a.and b = .ok c ∧ c.Valid ∧ ∀ i, c.Has i ↔ a.Has i ∧ b.Has i := by
  obtain ⟨x, rfl, hx⟩ := nat_of_valid hd ha
  obtain ⟨y, rfl, hy⟩ := nat_of_valid hd hb
  have h := Nat.and_lt_two_pow x hy
  refine ⟨⟨(x &&& y : Nat)⟩, fromValue_nat hd h, valid_nat hd h, fun i => ?_⟩
  simp [has_nat]

/-- **C38.** `^` is the symmetric difference. -/
theorem C38_xor (d : BitmaskDef) (w : Nat) (hd : d.width = some w) (a b : Bitmask d) (ha : a.Valid) (hb : b.Valid) :
    ∃ c : Bitmask d, a.xor b = .ok c ∧ c.Valid ∧ ∀ i, c.Has i ↔ ¬ (a.Has i ↔ b.Has i) := by
  obtain ⟨x, rfl, hx⟩ := nat_of_valid hd ha
  obtain ⟨y, rfl, hy⟩ := nat_of_valid hd hb
  have h := Nat.xor_lt_two_pow hx hy
  refine ⟨⟨(x ^^^ y : Nat)⟩, fromValue_nat hd h, valid_nat hd h, fun i => ?_⟩
  simp only [has_nat, Nat.testBit_xor]
  cases x.testBit i <;> cases y.testBit i <;> simp

/-- **C38.** `~` is the complement within the bits of the type. -/
theorem C38_invert (d : BitmaskDef) (w : Nat) (hd : d.width = some w) (a : Bitmask d) (ha : a.Valid) :
    ∃ c : Bitmask d, a.invert = .ok c ∧ c.Valid ∧ ∀ i, c.Has i ↔ i < w ∧ ¬ a.Has i := by
  obtain ⟨x, rfl, hx⟩ := nat_of_valid hd ha
  refine ⟨_, invert_nat hd x, valid_nat hd (Nat.lt_pow_two_of_testBit _ fun i hi => ?_), fun i => ?_⟩
  · rw [Nat.testBit_ldiff, Nat.testBit_two_pow_sub_one]; simp [hi]
  · simp only [has_nat, Nat.testBit_ldiff, Nat.testBit_two_pow_sub_one]
    simp

/-- **C38.** `~~x == x`. -/
theorem C38_invert_invert (d : BitmaskDef) (w : Nat) (hd : d.width = some w) (a : Bitmask d) (ha : a.Valid) :
    ∃ b c : Bitmask d, a.invert = .ok b ∧ b.invert = .ok c ∧ c.eq a = true := by
  obtain ⟨b, h1, h2, h3⟩ := C38_invert d w hd a ha
  obtain ⟨c, h4, h5, h6⟩ := C38_invert d w hd b h2
  refine ⟨b, c, h1, h4, ?_⟩
  have : c = a := (C38_bits d w hd c a h5 ha).2 fun i => by
    rw [h6, h3]
    have := (C38_bits d w hd a a ha ha).1 i
    constructor
    · rintro ⟨h, h'⟩; by_contra hc; exact h' ⟨h, hc⟩
    · intro h; exact ⟨this h, fun h' => h'.2 h⟩
  subst this
  simp [eq, same]

/-- **C38.** `~(x | y) == ~x & ~y`. -/
theorem C38_de_morgan (d : BitmaskDef) (w : Nat) (hd : d.width = some w) (a b : Bitmask d) (ha : a.Valid) (hb : b.Valid) :
    ∃ c c' a' b' e : Bitmask d, a.or b = .ok c ∧ c.invert = .ok c' ∧ a.invert = .ok a' ∧ b.invert = .ok b' ∧
      a'.and b' = .ok e ∧ c'.eq e = true := by
  obtain ⟨c, h1, h2, h3⟩ := C38_or d w hd a b ha hb
  obtain ⟨c', h4, h5, h6⟩ := C38_invert d w hd c h2
  obtain ⟨a', g1, g2, g3⟩ := C38_invert d w hd a ha
  obtain ⟨b', k1, k2, k3⟩ := C38_invert d w hd b hb
  obtain ⟨e, l1, l2, l3⟩ := C38_and d w hd a' b' g2 k2
  refine ⟨c, c', a', b', e, h1, h4, g1, k1, l1, ?_⟩
  have : c' = e := (C38_bits d w hd c' e h5 l2).2 fun i => by rw [h6, l3, g3, k3, h3]; tauto
  subst this
  simp [eq, same]

/-- **C38.** `==` holds exactly for bitmasks with the same value; equal bitmasks hash alike and the hash is a 32-bit number. -/
theorem C38_eq_hash (d : BitmaskDef) (a b : Bitmask d) :
    (a.eq b = true ↔ a.value = b.value) ∧ (a.eq b = true → a.hash = b.hash) ∧ 0 ≤ a.hash ∧ a.hash < 2 ^ 32 := by
  have h1 : a.eq b = true ↔ a.value = b.value := by simp [eq, same]
  refine ⟨h1, fun h => by unfold Bitmask.hash; rw [h1.1 h], ?_⟩
  have hs : (hashIntegral d.underlying.wide HASH_SEED (some a.value)) = a.hash := rfl
  rw [← hs]
  exact hashIntegral_is32 _ _ _

/-- **C38.** Every valid bitmask can be written at any position of any stream, takes the announced number of bits, and
whatever is written behind it, is read back as an equal bitmask. -/
theorem C38_round_trip (d : BitmaskDef) (w : Nat) (_hd : d.width = some w) (a : Bitmask d) (ha : a.Valid)
    (w0 : Writer) (hw0 : w0.Reachable) :
    ∃ n w1, a.bitsizeof w0.pos = .ok n ∧ a.initializeOffsets w0.pos = .ok (w0.pos + n) ∧
      a.write w0 = (.ok (), w1) ∧ w1.pos = w0.pos + n ∧
      ∀ later r, ReadsAt r (w1.runAll later).bytes w0.pos w1.pos →
        Bitmask.fromReader d r = (.ok a, { r with pos := w0.pos + n }) := by
  obtain ⟨b0, rfl⟩ := hw0.eq_ofBits
  obtain ⟨bs, hbs⟩ := d.underlying.runs_of_inRange a.value ha b0
  have hsize := (d.underlying.sizeExact a.value b0 bs hbs).1
  have hpos : (Writer.ofBits b0).pos = b0.length := rfl
  refine ⟨bs.length, Writer.ofBits (b0 ++ bs), hsize, ?_, hbs, by simp [Writer.ofBits], ?_⟩
  · unfold initializeOffsets bitsizeof
    rw [hpos, hsize]; rfl
  rintro later r ⟨h1, h2, h3, h4⟩
  refine read_after (mr := Bitmask.fromReader d)
    (P := fun r x => x = (.ok a, { r with pos := (Writer.ofBits b0).pos + bs.length })) ?_ later r h1 h2 h3 h4
  intro s r' hwf hp' hs
  have hp := d.underlying.readsTo 0 a.value b0 bs hbs s r' hwf hp' hs
  unfold Bitmask.fromReader
  rw [M.bind_ok hp, M.pure_apply, Reader.advance, hp', hpos]

/-- **C38.** Whatever the stream contains: a bitmask read from it is valid. -/
theorem C38_read_valid (d : BitmaskDef) (r r' : Reader) (hr : r.WF) (a : Bitmask d)
    (h : Bitmask.fromReader d r = (.ok a, r')) : a.Valid := by
  unfold Bitmask.fromReader at h
  rcases hv : d.underlying.traits.read 0 r with ⟨x, r1⟩
  cases x with
  | error e => rw [M.bind_error hv] at h; cases h
  | ok v =>
    rw [M.bind_ok hv, M.pure_apply] at h
    simp only [Prod.mk.injEq, Except.ok.injEq] at h
    obtain ⟨rfl, _⟩ := h
    exact (read_inRange _ _ _ _ hr _ hv).1

/-- What C38 does not say: a bitmask read from a *packed* array is not checked against the bounds.  Here the second element
of a packed array over `uint8` comes out as 256, a bitmask on which every operator raises. -/
theorem C38_packed_unchecked :
    let d : BitmaskDef := ⟨.bitField 8, []⟩
    let r : Reader := ⟨[0x83, 0xFE, 0x80], 24, 0⟩
    ∃ (a b : Bitmask d) (c c' : DeltaContext) (r1 r2 : Reader), Bitmask.fromReaderPacked d {} r = (.ok (a, c), r1) ∧
      Bitmask.fromReaderPacked d c r1 = (.ok (b, c'), r2) ∧ ¬ b.Valid ∧ b.or b = .error .bitmaskBounds := by
  refine ⟨_, _, _, _, _, _, rfl, rfl, ?_, by decide +kernel⟩
  show ¬ IntKind.InRange (.bitField 8) 256
  decide

/-! Non-trivial instances of the hypotheses. -/

/-- `bitmask bit:3 Access { READ = 1, WRITE = 2, ALL = 7 }` -/
def Access : BitmaskDef := ⟨.bitField 3, [([0x52], 1), ([0x57], 2), ([0x41], 7)]⟩

example : Access.width = some 3 ∧ (⟨5⟩ : Bitmask Access).Valid ∧ (⟨6⟩ : Bitmask Access).Valid ∧
    (⟨5⟩ : Bitmask Access).invert = .ok ⟨2⟩ ∧ (⟨5⟩ : Bitmask Access).or ⟨6⟩ = .ok ⟨7⟩ ∧
    (⟨5⟩ : Bitmask Access).and ⟨6⟩ = .ok ⟨4⟩ ∧ (⟨5⟩ : Bitmask Access).xor ⟨6⟩ = .ok ⟨3⟩ ∧
    fromValue (d := Access) 8 = .error .bitmaskBounds := by
  refine ⟨rfl, ?_, ?_, by decide +kernel, by decide +kernel, by decide +kernel, by decide +kernel, by decide +kernel⟩
  · show IntKind.InRange (.bitField 3) 5
    decide
  · show IntKind.InRange (.bitField 3) 6
    decide

example : (BitmaskDef.mk (.var .varuint64) []).width = some 57 ∧
    (⟨2 ^ 57 - 1⟩ : Bitmask ⟨.var .varuint64, []⟩).Valid ∧ (Writer.init.runAll [.bool true]).Reachable := by
  refine ⟨rfl, ?_, ⟨_, rfl⟩⟩
  show IntKind.InRange (.var .varuint64) (2 ^ 57 - 1)
  decide +kernel

example : ∃ r', Bitmask.fromReader Access ⟨[0xb0], 8, 1⟩ = (.ok ⟨3⟩, r') ∧ (⟨[0xb0], 8, 1⟩ : Reader).WF :=
  ⟨⟨[0xb0], 8, 4⟩, by rfl, by constructor <;> decide⟩

end Zserio
