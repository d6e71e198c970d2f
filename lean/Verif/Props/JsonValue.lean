import Verif.Lemmas.JsonValue
import Verif.Lemmas.JsonText
/-
C56: exactly which texts are values for the JSON parser, and which values they are.
-/
set_option linter.unusedSimpArgs false
namespace Zserio
open Json
variable {t : PyText}

/-- The texts of strings. -/
theorem C56_string (ht : t.Lawful) (k s : PyStr) :
    ValueText t (.str k) s ↔ ∃ body, s = ch! '"' :: (body ++ [ch! '"']) ∧ StringBody body k := by
  rw [valueText_iff ht]
  constructor
  · rintro ⟨hne, h⟩
    rcases decodeValue_cases ht h with ⟨_, h⟩ | ⟨_, h⟩ | ⟨_, h⟩ | ⟨_, h⟩ | ⟨_, h⟩ | ⟨_, h⟩ | ⟨body, k', h1, h2, h3⟩ | ⟨h1, _, h2⟩
    · simp at h
    · simp at h
    · simp at h
    · simp at h
    · simp at h
    · simp at h
    · simp only [Val.str.injEq] at h3
      rw [h3]
      exact ⟨body, h1, h2⟩
    · rcases decodeNumber_cases ht h1 h2 with ⟨_, h, _⟩ | ⟨_, h, _⟩ <;> simp at h
  · rintro ⟨body, rfl, hb⟩
    refine ⟨by simp, ?_⟩
    rw [decodeValue.eq_def]
    simp only [Nat.reduceEqDiff, if_false, if_true, decodeString, List.tail_cons]
    rw [decodeStringLoop_body hb [] 1 []]
    simp [success]; omega

/-- The texts of integers: an optional minus and digits (also superfluous zeros). -/
theorem C56_int (ht : t.Lawful) (n : Int) (s : PyStr) :
    ValueText t (.int n) s ↔ ∃ (negative : Bool) (digits : PyStr) (ds : List Nat),
      s = (if negative then [ch! '-'] else []) ++ digits ∧ digits ≠ [] ∧ Digits t digits ∧ DigitValues t digits ds ∧
      n = (if negative then -1 else 1) * ((Nat.ofDigits 10 ds.reverse : Nat) : Int) := by
  have hval : ∀ ds : List Nat, ds.foldl (fun a d => a * 10 + d) 0 = Nat.ofDigits 10 ds.reverse := by
    intro ds
    have := foldl_reverse_digits ds.reverse
    rwa [List.reverse_reverse] at this
  rw [valueText_iff ht]
  constructor
  · rintro ⟨hne, h⟩
    rcases decodeValue_cases ht h with ⟨_, h⟩ | ⟨_, h⟩ | ⟨_, h⟩ | ⟨_, h⟩ | ⟨_, h⟩ | ⟨_, h⟩ | ⟨_, _, _, _, h⟩ | ⟨h1, hm, h2⟩
    · simp at h
    · simp at h
    · simp at h
    · simp at h
    · simp at h
    · simp at h
    · simp at h
    · rcases decodeNumber_cases ht h1 h2 with ⟨_, h, _⟩ | ⟨n', hn, hx, hp⟩
      · simp at h
      simp only [Val.int.injEq] at hn
      subst hn
      obtain ⟨sign, int, frac, exp, rfl, hsign, hd, _, _, hf⟩ := (extractNumber_iff ht h1).1 hx
      have hfe : frac = [] ∧ exp = [] := by
        simp only [Bool.false_eq_true, false_iff, not_or, ne_eq, not_not] at hf
        exact hf
      obtain ⟨rfl, rfl⟩ := hfe
      simp only [List.append_nil] at h1 hm hp ⊢
      rcases hsign with rfl | rfl
      · rw [List.nil_append] at h1 hp ⊢
        obtain ⟨c, r, hc⟩ := List.exists_cons_of_ne_nil h1
        have hc45 : c ≠ 45 := (digit_head ht (hd c (by rw [hc]; simp))).2.1
        rw [hc] at hp
        simp only [parseInt, if_neg hc45] at hp
        rw [← hc] at hp
        simp only [Option.map_eq_some_iff] at hp
        obtain ⟨m, h3, rfl⟩ := hp
        obtain ⟨ds, h4, rfl⟩ := (parseDigits_iff _ _ _).1 h3
        exact ⟨false, int, ds, by simp, h1, hd, h4, by simp [hval]⟩
      · have hint : int ≠ [] := by rintro rfl; simp at hm
        simp only [List.singleton_append, parseInt, if_true, if_neg hint, Option.map_eq_some_iff] at hp
        obtain ⟨m, h3, rfl⟩ := hp
        obtain ⟨ds, h4, rfl⟩ := (parseDigits_iff _ _ _).1 h3
        exact ⟨true, int, ds, by simp, hint, hd, h4, by simp [hval]⟩
  · rintro ⟨negative, digits, ds, rfl, hne, hd, hv, hn⟩
    have hs : (if negative then [45] else []) ++ digits ≠ [] := by cases negative <;> simp [hne]
    have hx : extractNumber t ((if negative then [45] else []) ++ digits) = ((if negative then [45] else []) ++ digits, false) := by
      rw [extractNumber_iff ht hs]
      exact ⟨if negative then [45] else [], digits, [], [], by simp, by cases negative <;> simp, hd, .inl rfl, .inl rfl, by simp⟩
    have hm : (if negative then [45] else []) ++ digits ≠ [45] := by
      cases negative with
      | true => simpa using hne
      | false =>
        rintro h
        simp only [Bool.false_eq_true, if_false, List.nil_append] at h
        have := digit_head ht (hd 45 (by rw [h]; simp))
        omega
    refine ⟨hs, ?_⟩
    rw [decodeValue_number ht hs hm hx, decodeNumber, hx]
    simp only
    rw [if_neg (by simpa using hs)]
    simp only [Bool.false_eq_true, if_false]
    have hp : parseInt t ((if negative then [45] else []) ++ digits) = some n := by
      have h3 := (parseDigits_iff digits 0 (ds.foldl (fun a d => a * 10 + d) 0)).2 ⟨ds, hv, rfl⟩
      cases negative with
      | true => simp only [if_true, List.singleton_append, parseInt, if_neg hne, h3]; rw [hn, hval]; simp
      | false =>
        obtain ⟨c, r, rfl⟩ := List.exists_cons_of_ne_nil hne
        have hc45 : c ≠ 45 := (digit_head ht (hd c (by simp))).2.1
        simp only [Bool.false_eq_true, if_false, List.nil_append, parseInt, if_neg hc45, h3]; rw [hn, hval]; simp
    rw [hp]

/-- The texts of floats: what `float()` accepts of the texts with a fraction or an exponent, and three names. -/
theorem C56_float (ht : t.Lawful) (x : PyFloat) (s : PyStr) :
    ValueText t (.float x) s ↔ (FloatLike t s ∧ t.floatParse s = some x) ∨ (s = py! "NaN" ∧ x = Json.nan) ∨
      (s = py! "Infinity" ∧ x = Json.inf) ∨ (s = py! "-Infinity" ∧ x = Json.negInf) := by
  rw [valueText_iff ht]
  constructor
  · rintro ⟨hne, h⟩
    rcases decodeValue_cases ht h with ⟨_, h⟩ | ⟨_, h⟩ | ⟨_, h⟩ | ⟨h0, h⟩ | ⟨h0, h⟩ | ⟨h0, h⟩ | ⟨_, _, _, _, h⟩ | ⟨h1, _, h2⟩
    · simp at h
    · simp at h
    · simp at h
    · simp only [Val.float.injEq] at h; exact .inr (.inl ⟨h0, h⟩)
    · simp only [Val.float.injEq] at h; exact .inr (.inr (.inl ⟨h0, h⟩))
    · simp only [Val.float.injEq] at h; exact .inr (.inr (.inr ⟨h0, h⟩))
    · simp at h
    · rcases decodeNumber_cases ht h1 h2 with ⟨x', hx', hx, hp⟩ | ⟨_, h, _⟩
      · simp only [Val.float.injEq] at hx'
        subst hx'
        obtain ⟨sign, int, frac, exp, he, hsign, hd, hfr, hex, hf⟩ := (extractNumber_iff ht h1).1 hx
        exact .inl ⟨⟨sign, int, frac, exp, he, hsign, hd, hfr, hex, hf.1 rfl⟩, hp⟩
      · simp at h
  · rintro (⟨⟨sign, int, frac, exp, rfl, hsign, hd, hfr, hex, hone⟩, hp⟩ | ⟨rfl, rfl⟩ | ⟨rfl, rfl⟩ | ⟨rfl, rfl⟩)
    · have hs : sign ++ int ++ frac ++ exp ≠ [] := by
        intro h
        simp only [List.append_eq_nil_iff] at h
        rcases hone with h' | h'
        · exact h' h.1.2
        · exact h' h.2
      have hx : extractNumber t (sign ++ int ++ frac ++ exp) = (sign ++ int ++ frac ++ exp, true) := by
        rw [extractNumber_iff ht hs]
        exact ⟨sign, int, frac, exp, rfl, hsign, hd, hfr, hex, by simpa using hone⟩
      have hm : sign ++ int ++ frac ++ exp ≠ [45] := by
        intro h
        have hmem : 45 ∈ int ∨ 45 ∈ frac ++ exp ∨ sign = [45] := by
          rcases hsign with rfl | rfl
          · have : 45 ∈ [] ++ int ++ frac ++ exp := by rw [h]; simp
            simp only [List.nil_append, List.append_assoc, List.mem_append] at this
            simp only [List.mem_append]
            tauto
          · simp
        rcases hmem with hm | hm | rfl
        · exact (digit_head ht (hd 45 hm)).2.1 rfl
        · have hlen : (sign ++ int ++ frac ++ exp).length = 1 := by rw [h]; rfl
          simp only [List.length_append] at hlen
          rcases hfr with rfl | ⟨ds, rfl, hds⟩
          · rcases hex with rfl | ⟨e, sg, ds, rfl, he, _⟩
            · simp at hm
            · simp only [List.length_cons, List.length_append, List.length_nil] at hlen
              obtain rfl : sg = [] := List.length_eq_zero_iff.1 (by omega)
              obtain rfl : ds = [] := List.length_eq_zero_iff.1 (by omega)
              simp at hm
              omega
          · simp only [List.length_cons] at hlen
            obtain rfl : ds = [] := List.length_eq_zero_iff.1 (by omega)
            obtain rfl : exp = [] := List.length_eq_zero_iff.1 (by omega)
            simp at hm
        · rw [show ([45] : PyStr) ++ int ++ frac ++ exp = 45 :: (int ++ (frac ++ exp)) by simp] at h
          simp only [List.cons.injEq, List.append_eq_nil_iff, true_and] at h
          rcases hone with h' | h'
          · exact h' h.2.1
          · exact h' h.2.2
      refine ⟨hs, ?_⟩
      rw [decodeValue_number ht hs hm hx, decodeNumber, hx]
      simp only
      rw [if_neg (by simpa using hs)]
      simp only [if_true, hp]
    · exact ⟨by simp, rfl⟩
    · exact ⟨by simp, rfl⟩
    · exact ⟨by simp, rfl⟩

/-- The texts of `null`, `true` and `false`; and there are no other values. -/
theorem C56_literal (ht : t.Lawful) (s : PyStr) :
    (ValueText t .none s ↔ s = py! "null") ∧ (ValueText t (.bool true) s ↔ s = py! "true") ∧
    (ValueText t (.bool false) s ↔ s = py! "false") ∧
    ∀ v, ValueText t v s → v = .none ∨ (∃ b, v = .bool b) ∨ (∃ n, v = .int n) ∨ (∃ x, v = .float x) ∨ ∃ k, v = .str k := by
  have hall : ∀ v, ValueText t v s → (s = py! "null" ∧ v = .none) ∨ (s = py! "true" ∧ v = .bool true) ∨
      (s = py! "false" ∧ v = .bool false) ∨ (∃ n, v = .int n) ∨ (∃ x, v = .float x) ∨ ∃ k, v = .str k := by
    intro v h
    rcases decodeValue_cases ht ((valueText_iff ht).1 h).2 with h | h | h | ⟨_, h⟩ | ⟨_, h⟩ | ⟨_, h⟩ | ⟨_, k, _, _, h⟩ | ⟨h1, _, h2⟩
    · exact .inl h
    · exact .inr (.inl h)
    · exact .inr (.inr (.inl h))
    · exact .inr (.inr (.inr (.inr (.inl ⟨_, h⟩))))
    · exact .inr (.inr (.inr (.inr (.inl ⟨_, h⟩))))
    · exact .inr (.inr (.inr (.inr (.inl ⟨_, h⟩))))
    · exact .inr (.inr (.inr (.inr (.inr ⟨k, h⟩))))
    · rcases decodeNumber_cases ht h1 h2 with ⟨x, h, _⟩ | ⟨n, h, _⟩
      · exact .inr (.inr (.inr (.inr (.inl ⟨x, h⟩))))
      · exact .inr (.inr (.inr (.inl ⟨n, h⟩)))
  refine ⟨⟨fun h => ?_, ?_⟩, ⟨fun h => ?_, ?_⟩, ⟨fun h => ?_, ?_⟩, fun v h => ?_⟩
  · rcases hall _ h with h | ⟨_, h⟩ | ⟨_, h⟩ | ⟨_, h⟩ | ⟨_, h⟩ | ⟨_, h⟩
    · exact h.1
    all_goals simp at h
  · rintro rfl; exact (valueText_iff ht).2 ⟨by simp, rfl⟩
  · rcases hall _ h with ⟨_, h⟩ | h | ⟨_, h⟩ | ⟨_, h⟩ | ⟨_, h⟩ | ⟨_, h⟩
    · simp at h
    · exact h.1
    all_goals simp at h
  · rintro rfl; exact (valueText_iff ht).2 ⟨by simp, rfl⟩
  · rcases hall _ h with ⟨_, h⟩ | ⟨_, h⟩ | h | ⟨_, h⟩ | ⟨_, h⟩ | ⟨_, h⟩
    · simp at h
    · simp at h
    · exact h.1
    all_goals simp at h
  · rintro rfl; exact (valueText_iff ht).2 ⟨by simp, rfl⟩
  · rcases hall _ h with ⟨_, h⟩ | ⟨_, h⟩ | ⟨_, h⟩ | h | h | h
    · exact .inl h
    · exact .inr (.inl ⟨_, h⟩)
    · exact .inr (.inl ⟨_, h⟩)
    · exact .inr (.inr (.inl h))
    · exact .inr (.inr (.inr (.inl h)))
    · exact .inr (.inr (.inr (.inr h)))

/-- an escaped quote, a letter and a code point -/
example (ht : t.Lawful) : ValueText t (.str (py! "\"aé")) (py! "\"\\\"a\\u00E9\"") :=
  (C56_string ht _ _).2 ⟨py! "\\\"a\\u00E9", rfl, .escape (by simp [escapes]) (.plain (by decide) (by decide)
    (.unicode (a' := 0) (b' := 0) (c' := 14) (d' := 9) (by unfold HexDigit; omega) (by unfold HexDigit; omega)
      (by unfold HexDigit; omega) (by unfold HexDigit; omega) .nil))⟩

/-- superfluous zeros are accepted -/
example (ht : t.Lawful) : ValueText t (.int (-12)) (py! "-0012") := by
  refine (C56_int ht _ _).2 ⟨true, py! "0012", [0, 0, 1, 2], rfl, by simp, ?_, ?_, by decide⟩
  · intro c hc
    simp only [List.mem_cons, List.not_mem_nil, or_false] at hc
    exact (ht.isDigit c (by omega)).2 (by unfold IsDecimal; omega)
  · unfold DigitValues
    simp [ht.decimal 48 (by unfold IsDecimal; omega), ht.decimal 49 (by unfold IsDecimal; omega),
      ht.decimal 50 (by unfold IsDecimal; omega)]

/-- the parts of a float are optional -/
example : FloatLike t (py! ".e") := ⟨[], [], [46], [101], rfl, .inl rfl, by simp [Digits], .inr ⟨[], rfl, by simp [Digits]⟩,
  .inr ⟨101, [], [], rfl, .inl rfl, .inl rfl, by simp [Digits]⟩, by simp⟩

end Zserio
