import Verif.Spec.Version
import Verif.Lemmas.JsonNames
import Verif.Lemmas.JsonText
/-
Property C101: versions are compared as users expect, the compatibility version of a schema is one which the compiler supports, and code
whose binary format has changed since the compatibility version is not generated.
-/
set_option linter.unusedSimpArgs false
namespace Zserio.Version

/-! ### the order -/

theorem toInt32_small {x : Int} (h0 : -(2 ^ 31) ≤ x) (h1 : x < 2 ^ 31) : toInt32 x = x := by
  unfold toInt32
  exact Int.bmod_eq_of_le (by omega) (by omega)

theorem comparePreRelease_sign (p q : Option Int) :
    (comparePreRelease p q < 0 ↔ PreBefore p q) ∧ (comparePreRelease p q = 0 ↔ p = q) ∧ (comparePreRelease p q > 0 ↔ PreBefore q p) := by
  cases p with
  | none => cases q <;> simp [comparePreRelease, PreBefore]
  | some a =>
    cases q with
    | none => simp [comparePreRelease, PreBefore]
    | some b =>
      simp only [comparePreRelease, PreBefore, compareInteger, Option.some.injEq]
      split
      · omega
      · split <;> omega

/-- **C101.** Versions are compared by their numbers from left to right, and pre-releases come before the release; the subtractions of the
code do not overflow. -/
theorem C101_order {a b : Version} (ha : Valid a) (hb : Valid b) :
    (compareTo a b < 0 ↔ Before a b) ∧ (compareTo a b = 0 ↔ a = b) ∧ (compareTo a b > 0 ↔ Before b a) := by
  obtain ⟨⟨a1, a2⟩, ⟨a3, a4⟩, ⟨a5, a6⟩, _⟩ := ha
  obtain ⟨⟨b1, b2⟩, ⟨b3, b4⟩, ⟨b5, b6⟩, _⟩ := hb
  have he : a = b ↔ a.major = b.major ∧ a.minor = b.minor ∧ a.revision = b.revision ∧ a.preRelease = b.preRelease := by
    cases a; cases b; simp
  rw [he]
  unfold compareTo Before
  have hp := comparePreRelease_sign a.preRelease b.preRelease
  by_cases h1 : a.major = b.major
  · by_cases h2 : a.minor = b.minor
    · by_cases h3 : a.revision = b.revision
      · simp only [h1, h2, h3, ne_eq, not_true_eq_false, if_false, lt_irrefl, false_or, true_and]
        exact hp
      · simp only [h1, h2, h3, ne_eq, not_true_eq_false, not_false_eq_true, if_false, if_true]
        rw [toInt32_small (by omega) (by omega)]
        refine ⟨?_, ?_, ?_⟩ <;> constructor <;> intro h <;> simp_all <;> omega
    · simp only [h1, h2, ne_eq, not_true_eq_false, not_false_eq_true, if_false, if_true]
      rw [toInt32_small (by omega) (by omega)]
      refine ⟨?_, ?_, ?_⟩ <;> constructor <;> intro h <;> simp_all <;> omega
  · simp only [h1, ne_eq, not_false_eq_true, if_true]
    rw [toInt32_small (by omega) (by omega)]
    refine ⟨?_, ?_, ?_⟩ <;> constructor <;> intro h <;> simp_all <;> omega

theorem preBefore_trans {p q r : Option Int} (h : PreBefore p q) (h' : PreBefore q r) : PreBefore p r := by
  cases p <;> cases q <;> cases r <;> simp_all [PreBefore]
  omega

theorem preBefore_irrefl (p : Option Int) : ¬ PreBefore p p := by cases p <;> simp [PreBefore]

/-- **C101.** Being older is a strict order. -/
theorem C101_strict (a b c : Version) : ¬ Before a a ∧ (Before a b → Before b c → Before a c) := by
  constructor
  · unfold Before
    have := preBefore_irrefl a.preRelease
    simp [this]
  · unfold Before
    intro h1 h2
    rcases h1 with h1 | ⟨h1, h1'⟩
    · rcases h2 with h2 | ⟨h2, _⟩ <;> left <;> omega
    · rcases h2 with h2 | ⟨h2, h2'⟩
      · left; omega
      · refine .inr ⟨by omega, ?_⟩
        rcases h1' with h | ⟨h, h1''⟩
        · rcases h2' with g | ⟨g, _⟩ <;> left <;> omega
        · rcases h2' with g | ⟨g, h2''⟩
          · left; omega
          · refine .inr ⟨by omega, ?_⟩
            rcases h1'' with k | ⟨k, h1p⟩
            · rcases h2'' with l | ⟨l, _⟩ <;> left <;> omega
            · rcases h2'' with l | ⟨l, h2p⟩
              · left; omega
              · exact .inr ⟨by omega, preBefore_trans h1p h2p⟩

/-! ### texts -/

theorem isDigit_iff (c : Nat) : isDigit c = true ↔ 48 ≤ c ∧ c ≤ 57 := by
  simp [isDigit]

theorem number_nonneg (s : PyStr) : (0 : Int) ≤ number s := by omega

theorem parseInt_digits {s : PyStr} (h0 : s ≠ []) (h : ∀ c ∈ s, 48 ≤ c ∧ c ≤ 57) :
    parseInt s = if (number s : Int) < 2 ^ 31 then some (number s : Int) else none := by
  obtain ⟨c, cs, rfl⟩ := List.exists_cons_of_ne_nil h0
  have hc := h c (by simp)
  have hall : (c :: cs).all isDigit = true := List.all_eq_true.mpr fun x hx => (isDigit_iff x).mpr (h x hx)
  unfold parseInt
  simp only [show c ≠ ch! '-' by omega, show c ≠ ch! '+' by omega, if_false, hall, not_true_eq_false, or_false, reduceCtorEq]
  have hn := number_nonneg (c :: cs)
  by_cases hlt : (number (c :: cs) : Int) < 2 ^ 31
  · rw [if_neg (by omega), if_pos hlt]
  · rw [if_pos (by omega), if_neg hlt]

theorem parseInt_number {s : PyStr} (h0 : s ≠ []) (h : ∀ c ∈ s, 48 ≤ c ∧ c ≤ 57) (x : Int) : parseInt s = some x ↔ Number s x := by
  rw [parseInt_digits h0 h]
  unfold Number
  constructor
  · intro hx
    split at hx
    · rename_i hl
      cases hx
      exact ⟨h0, h, rfl, hl⟩
    · cases hx
  · rintro ⟨_, _, rfl, hl⟩
    rw [if_pos hl]

/-- `Integer.parseInt` -/
theorem parseInt_iff (s : PyStr) (x : Int) : parseInt s = some x ↔ SignedNumber s x := by
  cases s with
  | nil =>
    constructor
    · intro h; simp [parseInt] at h
    · rintro (⟨h, _⟩ | ⟨t, h, _⟩ | ⟨t, h, _⟩)
      · exact absurd rfl h
      · cases h
      · cases h
  | cons c cs =>
    by_cases hm : c = ch! '-'
    · subst hm
      unfold parseInt
      simp only [if_true]
      by_cases hd : cs = [] ∨ ¬ cs.all isDigit = true
      · simp only [hd, if_true, reduceCtorEq, false_iff]
        rintro (⟨_, h, _⟩ | ⟨t, h, _⟩ | ⟨t, h, h0, ht, _⟩)
        · have := h (ch! '-') (by simp)
          omega
        · simp at h
        · simp only [List.cons.injEq, true_and] at h
          subst h
          rcases hd with hd | hd
          · exact h0 hd
          · exact hd (List.all_eq_true.mpr fun y hy => (isDigit_iff y).mpr (ht y hy))
      · simp only [hd, if_false]
        simp only [not_or, not_not] at hd
        have hn := number_nonneg cs
        constructor
        · intro h
          split at h
          · cases h
          · rename_i hr
            cases h
            exact .inr (.inr ⟨cs, rfl, hd.1, fun y hy => (isDigit_iff y).mp (List.all_eq_true.mp hd.2 y hy), rfl, by omega⟩)
        · rintro (⟨_, h, _⟩ | ⟨t, h, _⟩ | ⟨t, h, h0, ht, rfl, hl⟩)
          · have := h (ch! '-') (by simp)
            omega
          · simp at h
          · simp only [List.cons.injEq, true_and] at h
            subst h
            rw [if_neg (by omega)]
    · by_cases hp : c = ch! '+'
      · subst hp
        have hcs : parseInt ((ch! '+') :: cs) = if cs = [] ∨ ¬ cs.all isDigit = true then none else
            if (number cs : Int) < 2 ^ 31 then some (number cs : Int) else none := by
          unfold parseInt
          simp only [show (ch! '+') ≠ ch! '-' by decide, if_false, if_true, Bool.false_eq_true]
          have hn := number_nonneg cs
          split
          · rfl
          · by_cases hl : (number cs : Int) < 2 ^ 31
            · rw [if_neg (by omega), if_pos hl]
            · rw [if_pos (by omega), if_neg hl]
        rw [hcs]
        constructor
        · intro h
          split at h
          · cases h
          · rename_i hd
            simp only [not_or, not_not] at hd
            split at h
            · rename_i hl
              cases h
              exact .inr (.inl ⟨cs, rfl, hd.1, fun y hy => (isDigit_iff y).mp (List.all_eq_true.mp hd.2 y hy), rfl, hl⟩)
            · cases h
        · rintro (⟨_, h, _⟩ | ⟨t, h, h0, ht, rfl, hl⟩ | ⟨t, h, _⟩)
          · have := h (ch! '+') (by simp)
            omega
          · simp only [List.cons.injEq, true_and] at h
            subst h
            rw [if_neg, if_pos hl]
            simp only [not_or, not_not]
            exact ⟨h0, List.all_eq_true.mpr fun y hy => (isDigit_iff y).mpr (ht y hy)⟩
          · simp at h
      · by_cases hall : ∀ y ∈ c :: cs, 48 ≤ y ∧ y ≤ 57
        · rw [parseInt_number (by simp) hall]
          constructor
          · exact .inl
          · rintro (h | ⟨t, h, _⟩ | ⟨t, h, _⟩)
            · exact h
            · simp only [List.cons.injEq] at h; exact absurd h.1 hp
            · simp only [List.cons.injEq] at h; exact absurd h.1 hm
        · have hnall : (c :: cs).all isDigit ≠ true := fun h => hall fun y hy => (isDigit_iff y).mp (List.all_eq_true.mp h y hy)
          unfold parseInt
          simp only [hm, hp, if_false, hnall, Bool.not_eq_true, not_false_eq_true, or_true, if_true, reduceCtorEq, false_iff]
          rintro (⟨_, h, _⟩ | ⟨t, h, _⟩ | ⟨t, h, _⟩)
          · exact hall h
          · simp only [List.cons.injEq] at h; exact hp h.1
          · simp only [List.cons.injEq] at h; exact hm h.1

theorem takeDigits_append {a s : PyStr} (h : ∀ c ∈ a, 48 ≤ c ∧ c ≤ 57) (hs : ∀ c, s.head? = some c → ¬ (48 ≤ c ∧ c ≤ 57)) :
    takeDigits (a ++ s) = (a, s) := by
  unfold takeDigits
  have h' : ∀ c ∈ a, isDigit c = true := fun c hc => (isDigit_iff c).mpr (h c hc)
  rw [List.takeWhile_append_of_pos h', List.dropWhile_append_of_pos h']
  cases s with
  | nil => simp
  | cons c cs =>
    have hc : isDigit c = false := by
      rw [Bool.eq_false_iff]
      exact fun hd => hs c rfl ((isDigit_iff c).mp hd)
    simp [List.takeWhile_cons, List.dropWhile_cons, hc]

theorem takeDigits_spec {s d r : PyStr} (h : takeDigits s = (d, r)) : s = d ++ r ∧ ∀ c ∈ d, 48 ≤ c ∧ c ≤ 57 := by
  unfold takeDigits at h
  cases h
  refine ⟨(List.takeWhile_append_dropWhile).symm, fun c hc => (isDigit_iff c).mp ?_⟩
  have := List.all_takeWhile (l := s) (p := isDigit)
  exact List.all_eq_true.mp this c hc

theorem chomp_same {s : PyStr} (h : ∀ c ∈ s, isTerminator c = false) : chomp s = s := by
  unfold chomp
  split
  · rename_i r hr
    have := h 10 (by rw [← List.mem_reverse, hr]; simp)
    simp [isTerminator] at this
  · rename_i c r _ hr
    rw [h c (by rw [← List.mem_reverse, hr]; simp)]
    simp
  · rfl

/-- the text of the pre-release -/
def suffix : Option PyStr → PyStr
  | none => []
  | some t => py! "-pre" ++ t

theorem matchVersion_some {s a b c : PyStr} {p : Option PyStr} (hm : matchVersion s = some (a, b, c, p)) :
    (a ≠ [] ∧ ∀ x ∈ a, 48 ≤ x ∧ x ≤ 57) ∧ (b ≠ [] ∧ ∀ x ∈ b, 48 ≤ x ∧ x ≤ 57) ∧ (c ≠ [] ∧ ∀ x ∈ c, 48 ≤ x ∧ x ≤ 57) ∧
      chomp s = a ++ (ch! '.') :: b ++ (ch! '.') :: c ++ suffix p := by
  unfold matchVersion at hm
  cases h1 : takeDigits (chomp s) with
  | mk a' s₁ =>
    rw [h1] at hm
    simp only at hm
    split at hm
    · rename_i s₁'
      cases h2 : takeDigits s₁' with
      | mk b' s₂ =>
        rw [h2] at hm
        simp only at hm
        split at hm
        · rename_i s₂'
          cases h3 : takeDigits s₂' with
          | mk c' s₃ =>
            rw [h3] at hm
            simp only at hm
            have h1 := takeDigits_spec h1
            have h2 := takeDigits_spec h2
            have h3 := takeDigits_spec h3
            split at hm
            · cases hm
            · rename_i hne
              simp only [not_or] at hne
              split at hm
              · rename_i he
                subst he
                cases hm
                refine ⟨⟨hne.1, h1.2⟩, ⟨hne.2.1, h2.2⟩, ⟨hne.2.2, h3.2⟩, ?_⟩
                rw [h1.1, h2.1, h3.1]
                simp [suffix]
              · split at hm
                · rename_i hp
                  cases hm
                  refine ⟨⟨hne.1, h1.2⟩, ⟨hne.2.1, h2.2⟩, ⟨hne.2.2, h3.2⟩, ?_⟩
                  obtain ⟨t, ht⟩ := List.isPrefixOf_iff_prefix.mp hp.1
                  rw [h1.1, h2.1, h3.1, ← ht]
                  simp [suffix]
                · cases hm
        · cases hm
    · cases hm

/-- the regular expression, for texts without line terminators -/
theorem matchVersion_iff {s : PyStr} (h : ∀ c ∈ s, isTerminator c = false) (a b c : PyStr) (p : Option PyStr) :
    matchVersion s = some (a, b, c, p) ↔
      (a ≠ [] ∧ ∀ x ∈ a, 48 ≤ x ∧ x ≤ 57) ∧ (b ≠ [] ∧ ∀ x ∈ b, 48 ≤ x ∧ x ≤ 57) ∧ (c ≠ [] ∧ ∀ x ∈ c, 48 ≤ x ∧ x ≤ 57) ∧
      s = a ++ (ch! '.') :: b ++ (ch! '.') :: c ++ suffix p := by
  constructor
  · intro hm
    rw [← chomp_same h]
    exact matchVersion_some hm
  · rintro ⟨⟨ha, ha'⟩, ⟨hb, hb'⟩, ⟨hc, hc'⟩, hs⟩
    unfold matchVersion
    rw [chomp_same h]
    have hdot : ∀ x, some (46 : Nat) = some x → ¬ (48 ≤ x ∧ x ≤ 57) := by
      intro x hx; cases hx; omega
    cases p with
    | none =>
      have e1 : s = a ++ (46 :: (b ++ (46 :: (c ++ [])))) := by rw [hs]; simp [suffix]
      rw [e1, takeDigits_append ha' (by simpa using hdot)]
      simp only
      rw [takeDigits_append hb' (by simpa using hdot)]
      simp only
      rw [takeDigits_append hc' (by simp)]
      simp [ha, hb, hc]
    | some t =>
      have e1 : s = a ++ (46 :: (b ++ (46 :: (c ++ (py! "-pre" ++ t))))) := by rw [hs]; simp [suffix]
      have ht : t.any isTerminator = false := by
        rw [List.any_eq_false]
        intro x hx
        have := h x (by rw [e1]; simp [hx])
        simp [this]
      rw [e1, takeDigits_append ha' (by simpa using hdot)]
      simp only
      rw [takeDigits_append hb' (by simpa using hdot)]
      simp only
      rw [takeDigits_append hc' (by intro x hx; simp at hx; omega)]
      simp [ha, hb, hc, ht]

/-- **C101.** A text (without line terminators) is parsed to a version exactly if it is a text of this version. -/
theorem C101_parse {s : PyStr} (h : ∀ c ∈ s, isTerminator c = false) (v : Version) : parseVersion s = some v ↔ Text s v := by
  unfold parseVersion Text
  constructor
  · intro hp
    cases hm : matchVersion s with
    | none => rw [hm] at hp; cases hp
    | some m =>
      obtain ⟨a, b, c, p⟩ := m
      obtain ⟨⟨ha, ha'⟩, ⟨hb, hb'⟩, ⟨hc, hc'⟩, hs⟩ := (matchVersion_iff h a b c p).mp hm
      rw [hm] at hp
      simp only [Option.bind_eq_bind, Option.bind_some] at hp
      have hrest : ∀ pre : Option Int, ((parseInt a).bind fun major => (parseInt b).bind fun minor => (parseInt c).bind fun revision =>
          (some (⟨major, minor, revision, pre⟩ : Version))) = some v →
          Number a v.major ∧ Number b v.minor ∧ Number c v.revision ∧ v.preRelease = pre := by
        intro pre hp
        simp only [Option.bind_eq_some_iff] at hp
        obtain ⟨x, hx, y, hy, z, hz, hv⟩ := hp
        cases hv
        exact ⟨(parseInt_number ha ha' _).mp hx, (parseInt_number hb hb' _).mp hy, (parseInt_number hc hc' _).mp hz, rfl⟩
      cases p with
      | none =>
        obtain ⟨h1, h2, h3, h4⟩ := hrest none hp
        refine ⟨a, b, c, h1, h2, h3, ?_⟩
        rw [h4]
        simpa [suffix] using hs
      | some t =>
        cases ht : parseInt t with
        | none => simp [ht] at hp
        | some x =>
          simp only [ht, Option.map_some, Option.bind_some] at hp
          obtain ⟨h1, h2, h3, h4⟩ := hrest (some x) hp
          refine ⟨a, b, c, h1, h2, h3, ?_⟩
          rw [h4]
          exact ⟨t, (parseInt_iff t x).mp ht, by simpa [suffix] using hs⟩
  · rintro ⟨a, b, c, ha, hb, hc, hpre⟩
    have pa := (parseInt_number ha.1 ha.2.1 _).mpr ha
    have pb := (parseInt_number hb.1 hb.2.1 _).mpr hb
    have pc := (parseInt_number hc.1 hc.2.1 _).mpr hc
    cases hv : v.preRelease with
    | none =>
      rw [hv] at hpre
      have hm := (matchVersion_iff h a b c none).mpr ⟨⟨ha.1, ha.2.1⟩, ⟨hb.1, hb.2.1⟩, ⟨hc.1, hc.2.1⟩, by simpa [suffix] using hpre⟩
      rw [hm]
      simp only [Option.bind_eq_bind, Option.bind_some, pa, pb, pc, ← hv]
      rfl
    | some x =>
      rw [hv] at hpre
      obtain ⟨t, ht, hs⟩ := hpre
      have hm := (matchVersion_iff h a b c (some t)).mpr ⟨⟨ha.1, ha.2.1⟩, ⟨hb.1, hb.2.1⟩, ⟨hc.1, hc.2.1⟩, by simpa [suffix] using hs⟩
      rw [hm]
      simp only [Option.bind_eq_bind, Option.bind_some, (parseInt_iff t x).mpr ht, Option.map_some, pa, pb, pc]
      rw [← hv]
      rfl

theorem parsed_valid {s : PyStr} {v : Version} (hp : parseVersion s = some v) : Valid v := by
  have hr : ∀ {t : PyStr} {x : Int}, parseInt t = some x → -(2 ^ 31) ≤ x ∧ x < 2 ^ 31 := by
    intro t x h
    rcases (parseInt_iff t x).mp h with ⟨_, _, rfl, h⟩ | ⟨t, _, _, _, rfl, h⟩ | ⟨t, _, _, _, rfl, h⟩
    · exact ⟨by omega, h⟩
    · exact ⟨by omega, h⟩
    · exact ⟨h, by omega⟩
  have hpos : ∀ {t : PyStr} {x : Int}, t ≠ [] → (∀ c ∈ t, 48 ≤ c ∧ c ≤ 57) → parseInt t = some x → 0 ≤ x ∧ x < 2 ^ 31 := by
    intro t x h0 h h'
    obtain ⟨_, _, rfl, h⟩ := (parseInt_number h0 h x).mp h'
    exact ⟨by omega, h⟩
  unfold parseVersion at hp
  cases hm : matchVersion s with
  | none => rw [hm] at hp; cases hp
  | some m =>
    obtain ⟨a, b, c, p⟩ := m
    rw [hm] at hp
    obtain ⟨⟨ha, ha'⟩, ⟨hb, hb'⟩, ⟨hc, hc'⟩, _⟩ := matchVersion_some hm
    obtain ⟨pre, hpre, x, hx, y, hy, z, hz, hv⟩ : ∃ pre, (match p with
        | none => some none
        | some t => (parseInt t).map some) = some pre ∧ ∃ x, parseInt a = some x ∧ ∃ y, parseInt b = some y ∧ ∃ z,
          parseInt c = some z ∧ (⟨x, y, z, pre⟩ : Version) = v := by
      cases p with
      | none =>
        simp only [Option.bind_eq_bind, Option.bind_some, Option.bind_eq_some_iff] at hp
        obtain ⟨x, hx, y, hy, z, hz, hv⟩ := hp
        exact ⟨none, rfl, x, hx, y, hy, z, hz, by cases hv; rfl⟩
      | some t =>
        simp only [Option.bind_eq_bind, Option.bind_some, Option.bind_eq_some_iff] at hp
        obtain ⟨q, hq, x, hx, y, hy, z, hz, hv⟩ := hp
        exact ⟨q, hq, x, hx, y, hy, z, hz, by cases hv; rfl⟩
    subst hv
    refine ⟨hpos ha ha' hx, hpos hb hb' hy, hpos hc hc' hz, ?_⟩
    intro q hq
    cases p with
    | none => cases hpre; cases hq
    | some t =>
      simp only [Option.map_eq_some_iff] at hpre
      obtain ⟨w, hw, rfl⟩ := hpre
      cases hq
      exact hr hw

/-! ### printed texts -/

theorem number_decimalNat (n : Nat) : number (Json.decimalNat n) = n := by
  unfold number Json.decimalNat
  by_cases h : n = 0
  · subst h; simp
  · rw [if_neg h, List.foldl_map]
    simp only [Nat.add_sub_cancel_left]
    have := Json.foldl_reverse_digits (Nat.digits 10 n)
    rw [Nat.ofDigits_digits] at this
    exact this

theorem decimalNat_number {n : Nat} (h : n < 2 ^ 31) : Number (Json.decimalNat n) n := by
  have ha := Json.decimalNat_ascii n
  refine ⟨ha.2.1, fun c hc => ?_, by rw [number_decimalNat], by omega⟩
  have := ha.1 c hc
  simpa [Json.isAsciiDigit] using this

theorem intText_number {x : Int} (h0 : 0 ≤ x) (h : x < 2 ^ 31) : Number (intText x) x := by
  unfold intText Json.decimalInt
  rw [if_neg (by omega)]
  have := decimalNat_number (n := x.natAbs) (by omega)
  rwa [Int.natAbs_of_nonneg h0] at this

theorem intText_signed {x : Int} (h0 : -(2 ^ 31) ≤ x) (h : x < 2 ^ 31) : SignedNumber (intText x) x := by
  by_cases hn : 0 ≤ x
  · exact .inl (intText_number hn h)
  · unfold intText Json.decimalInt
    rw [if_pos (by omega)]
    have ha := Json.decimalNat_ascii x.natAbs
    refine .inr (.inr ⟨_, rfl, ha.2.1, fun c hc => ?_, ?_, h0⟩)
    · simpa [Json.isAsciiDigit] using ha.1 c hc
    · rw [number_decimalNat]; omega

theorem toText_text {v : Version} (h : Valid v) : Text (toText v) v := by
  obtain ⟨h1, h2, h3, h4⟩ := h
  refine ⟨_, _, _, intText_number h1.1 h1.2, intText_number h2.1 h2.2, intText_number h3.1 h3.2, ?_⟩
  cases hp : v.preRelease with
  | none => simp [toText, hp]
  | some p => exact ⟨_, intText_signed (h4 p hp).1 (h4 p hp).2, by simp [toText, hp]⟩

theorem text_terminator {s : PyStr} {v : Version} (h : Text s v) : ∀ c ∈ s, isTerminator c = false := by
  have hd : ∀ c : Nat, 48 ≤ c ∧ c ≤ 57 → isTerminator c = false := by
    intro c hc
    simp [isTerminator]
    omega
  have hs : ∀ {p : PyStr} {x : Int}, SignedNumber p x → ∀ c ∈ p, isTerminator c = false := by
    rintro p x (⟨_, h, _⟩ | ⟨t, rfl, _, h, _⟩ | ⟨t, rfl, _, h, _⟩) c hc
    · exact hd c (h c hc)
    · rcases List.mem_cons.mp hc with rfl | hc
      · decide
      · exact hd c (h c hc)
    · rcases List.mem_cons.mp hc with rfl | hc
      · decide
      · exact hd c (h c hc)
  obtain ⟨a, b, c, ha, hb, hc, hp⟩ := h
  have key : ∀ x ∈ a ++ (ch! '.') :: b ++ (ch! '.') :: c, isTerminator x = false := by
    intro x hx
    simp only [List.mem_append, List.mem_cons] at hx
    rcases hx with (hx | rfl | hx) | rfl | hx
    · exact hd x (ha.2.1 x hx)
    · decide
    · exact hd x (hb.2.1 x hx)
    · decide
    · exact hd x (hc.2.1 x hx)
  intro x hx
  cases hv : v.preRelease with
  | none => rw [hv] at hp; subst hp; exact key x hx
  | some q =>
    rw [hv] at hp
    obtain ⟨p, hp, rfl⟩ := hp
    rcases List.mem_append.mp hx with hx | hx
    · rcases List.mem_append.mp hx with hx | hx
      · exact key x hx
      · exact (by decide : ∀ y ∈ py! "-pre", isTerminator y = false) x hx
    · exact hs hp x hx

/-- **C101.** The text of a version is parsed back to the version. -/
theorem C101_printed {v : Version} (h : Valid v) : parseVersion (toText v) = some v :=
  (C101_parse (text_terminator (toText_text h)) v).mpr (toText_text h)

/-! ### compatibility -/

/-- **C101.** A schema can ask for compatibility exactly with the versions from 2.4.0 to that of the compiler. -/
theorem C101_compatibility {s : PyStr} (h : ∀ c ∈ s, isTerminator c = false) (v : Version) :
    compatibilityVersion s = some v ↔ Text s v ∧ ¬ Before v ⟨2, 4, 0, none⟩ ∧ ¬ Before ⟨2, 18, 2, none⟩ v := by
  rw [← C101_parse h]
  unfold compatibilityVersion
  have hc : Valid currentVersion := by simp [Valid, currentVersion]
  have hm : Valid minimumVersion := by simp [Valid, minimumVersion]
  cases hp : parseVersion s with
  | none => simp
  | some w =>
    have hw := parsed_valid hp
    have o1 := (C101_order hw hc).2.2
    have o2 := (C101_order hw hm).1
    simp only [Option.bind_eq_bind, Option.bind_some, Option.some.injEq]
    by_cases h1 : compareTo w currentVersion > 0
    · simp only [h1, if_true, reduceCtorEq, false_iff]
      rintro ⟨rfl, _, h⟩
      exact h (o1.mp h1)
    · by_cases h2 : compareTo w minimumVersion < 0
      · simp only [h1, h2, if_false, if_true, reduceCtorEq, false_iff]
        rintro ⟨rfl, h, _⟩
        exact h (o2.mp h2)
      · simp only [h1, h2, if_false]
        constructor
        · intro h
          cases h
          exact ⟨rfl, fun h => h2 (o2.mpr h), fun h => h1 (o1.mpr h)⟩
        · rintro ⟨rfl, _⟩
          rfl

/-- **C101.** An extension is accepted exactly if its major and minor version are those of the compiler, and it is not newer. -/
theorem C101_extension {core extension : PyStr} {c e : Version} (hc : parseVersion core = some c) (he : parseVersion extension = some e) :
    matchExtension core extension = true ↔ c.major = e.major ∧ c.minor = e.minor ∧ ¬ Before c e := by
  unfold matchExtension
  rw [hc, he]
  have ho := (C101_order (parsed_valid hc) (parsed_valid he)).1
  simp only [Bool.and_eq_true, decide_eq_true_eq, and_assoc]
  rw [← ho]
  simp

/-- **C101 (partial: only the version of the root package).** If the root package asks for compatibility with a version before 2.5.0, then code is generated exactly if there are no packed
arrays in any package; otherwise always. -/
theorem C101_packed_partial {root : Package} (h : ∀ v, root.version = some v → Valid v) (packages : List Package) :
    checkSchema root packages = true ↔
      ∀ v, root.version = some v → Before v ⟨2, 5, 0, none⟩ → ∀ p ∈ packages, ∀ fields ∈ p.compounds, true ∉ fields := by
  have hm : Valid packedVersion := by simp [Valid, packedVersion]
  unfold checkSchema checkCompound
  simp only [List.all_eq_true]
  cases hv : root.version with
  | none => simp
  | some v =>
    have ho := (C101_order (h v hv) hm).1
    simp only [Option.some.injEq, forall_eq']
    by_cases hb : compareTo v packedVersion < 0
    · simp only [hb, if_true]
      have hb' := ho.mp hb
      constructor
      · intro h' _ p hp fields hf ht
        have := h' p hp fields hf
        simp only [Bool.not_eq_true', List.any_eq_false] at this
        exact this true ht rfl
      · intro h' p hp fields hf
        have := h' hb' p hp fields hf
        simp only [Bool.not_eq_true', List.any_eq_false]
        intro x hx hxt
        cases x
        · cases hxt
        · exact this hx
    · simp only [hb, if_false, implies_true, true_iff]
      intro hb'
      exact absurd (ho.mpr hb') hb

/-- **C101.** There is a warning for a package exactly if it asks for compatibility with another version than the root package. -/
theorem C101_warning {root p : Package} (h : ∀ v, root.version = some v → Valid v) (h' : ∀ v, p.version = some v → Valid v) :
    warnPackage root p = true ↔ p.version ≠ none ∧ p.version ≠ root.version := by
  unfold warnPackage
  cases hp : p.version with
  | none => simp
  | some v =>
    cases hr : root.version with
    | none => simp
    | some r =>
      have := (C101_order (h' v hp) (h r hr)).2.1
      simp [this]

namespace Demo

def library : Package := ⟨some ⟨2, 4, 2, none⟩, [[false, true]]⟩

example : parseVersion (py! "2.5.0-pre3") = some ⟨2, 5, 0, some 3⟩ := by decide +kernel
example : Valid ⟨2, 5, 0, some 3⟩ := by simp [Valid]
example : toText ⟨2, 5, 0, some 3⟩ = py! "2.5.0-pre3" := by decide +kernel
example : Before ⟨2, 5, 0, some 3⟩ ⟨2, 5, 0, none⟩ ∧ Before ⟨2, 4, 7, none⟩ ⟨2, 5, 0, some 3⟩ := by simp [Before, PreBefore]
example : compatibilityVersion (py! "2.4.0") = some ⟨2, 4, 0, none⟩ ∧ compatibilityVersion (py! "2.3.9") = none ∧
    compatibilityVersion (py! "2.18.2") = some ⟨2, 18, 2, none⟩ ∧ compatibilityVersion (py! "2.19.0") = none := by decide +kernel
example : matchExtension (py! "2.18.2") (py! "2.18.1") = true ∧ matchExtension (py! "2.18.2") (py! "2.18.3") = false ∧
    matchExtension (py! "2.18.2") (py! "2.17.2") = false := by decide +kernel
example : checkSchema ⟨some ⟨2, 4, 2, none⟩, []⟩ [library] = false := by decide +kernel

end Demo

/-- The compatibility version of a package which is not the root is not enforced: a package which asks for compatibility with 2.4.2 and has
packed arrays, whose encoding has changed in 2.5.0, is accepted with a warning. -/
theorem C101_packed_deviates : Demo.library.version = some ⟨2, 4, 2, none⟩ ∧ Before ⟨2, 4, 2, none⟩ ⟨2, 5, 0, none⟩ ∧
    (∃ fields ∈ Demo.library.compounds, true ∈ fields) ∧ checkSchema ⟨none, []⟩ [Demo.library] = true ∧
    warnPackage ⟨none, []⟩ Demo.library = true := by
  refine ⟨rfl, by simp [Before], ⟨[false, true], by simp [Demo.library], by simp⟩, by decide +kernel, by decide +kernel⟩

/-- Versions are texts in several ways: leading zeros and a sign of the pre-release are accepted, also negative pre-releases. -/
theorem C101_text_deviates : compatibilityVersion (py! "02.005.0") = compatibilityVersion (py! "2.5.0") ∧
    compatibilityVersion (py! "2.5.0-pre+1") = compatibilityVersion (py! "2.5.0-pre1") ∧
    compatibilityVersion (py! "2.5.0-pre-1") = some ⟨2, 5, 0, some (-1)⟩ := by decide +kernel

end Zserio.Version
