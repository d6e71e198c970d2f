import Verif.Lemmas.JsonPrefix
import Verif.Lemmas.ValEq
/-
C43, C44: JSON values survive encoding and decoding.
-/
set_option linter.unusedSimpArgs false
namespace Zserio
open Json

/-! ### C43 -/

/-- Whatever follows it in the content, the text which the encoder produces for a string is decoded to that string, and
exactly this text is consumed. -/
theorem C43_string_round_trip (t : PyText) (s tail : PyStr) :
    ∃ text, encodeValue t (.str s) = .ok text ∧
      (decodeValue t (text ++ tail)).value = some (.str s) ∧ (decodeValue t (text ++ tail)).numRead = text.length :=
  ⟨encodeString s, rfl, by rw [decode_encodeString]; exact ⟨rfl, rfl⟩⟩

/-- The text of a string contains no control characters, so that it never spans lines of the output. -/
theorem C43_no_control (s : PyStr) : ∀ c ∈ encodeString s, 32 ≤ c := by
  have hx : ∀ d : Nat, 32 ≤ hexChar d := by intro d; unfold hexChar; split <;> omega
  have : ∀ x, ∀ c ∈ escapeChar x, 32 ≤ c := by
    intro x c hc
    unfold escapeChar at hc
    repeat' split at hc
    all_goals simp at hc
    all_goals (try rcases hc with hc | hc | hc | hc | hc | hc)
    all_goals (try rcases hc with hc | hc)
    all_goals (try subst hc)
    all_goals first | omega | exact hx _
  intro c hc
  simp only [encodeString, List.mem_append, List.mem_singleton, List.mem_flatMap] at hc
  rcases hc with (rfl | ⟨x, _, hc⟩) | rfl
  · omega
  · exact this x c hc
  · omega

/-- Different strings have different texts, and neither text is a prefix of the other. -/
theorem C43_prefix_free (s s' : PyStr) (h : encodeString s <+: encodeString s') : s = s' := by
  obtain ⟨tail, h⟩ := h
  have h1 := decode_encodeString PyText.simple s tail
  have h2 := decode_encodeString PyText.simple s' []
  rw [h, ← List.append_nil (encodeString s'), h2] at h1
  simpa [success] using congrArg DecodeResult.value h1.symm

/-- Not all of JSON is accepted: the escape `\/` is rejected … -/
theorem C43_slash_rejected (t : PyText) : (decodeValue t (py! "\"\\/\"")).value = none := by
  rw [decodeValue.eq_def]
  simp only [decodeString, List.tail_cons]
  rw [decodeStringLoop.eq_def]
  simp [Json.failure]

/-- … and the escape of a character beyond the basic plane as a surrogate pair gives two characters. -/
theorem C43_surrogates_not_combined (t : PyText) :
    (decodeValue t (py! "\"\\uD83D\\uDE00\"")).value = some (.str [0xD83D, 0xDE00]) := by
  rw [decodeValue.eq_def]
  simp only [decodeString, List.tail_cons]
  rw [decodeStringLoop.eq_def]
  simp only [decodeUnicodeEscape, hexValue]
  simp
  rw [decodeStringLoop.eq_def]
  simp only [decodeUnicodeEscape, hexValue]
  simp
  rw [decodeStringLoop.eq_def]
  simp [success]

example : encodeString [0, 9, 34, 92, 233, 0x1F600] = py! "\"\\u0000\\t\\\"\\\\é😀\"" := by decide +kernel
example : (decodeValue PyText.simple (encodeString [0, 9, 34, 92, 233, 0x1F600] ++ py! ": 1")).value
    = some (.str [0, 9, 34, 92, 233, 0x1F600]) := by decide +kernel

/-! ### C44 -/

private theorem literal (text tail : PyStr) (v : Val) : (decodeLiteral (text ++ tail) text v).value = some v ∧
    (decodeLiteral (text ++ tail) text v).numRead = text.length := by
  rw [decode_literal_append]; exact ⟨rfl, rfl⟩

/-- The text of an integer is decoded to this integer (not to a float) and consumed exactly, provided that the next character
is not one of the characters which continue a number; in particular if it is a separator, a bracket, white space or the end. -/
theorem C44_int_round_trip (t : PyText) (ht : t.Lawful) (v : Int) (tail : PyStr) (h : EndsNumber t tail) :
    ∃ text, encodeValue t (.int v) = .ok text ∧
      (decodeValue t (text ++ tail)).value = some (.int v) ∧ (decodeValue t (text ++ tail)).numRead = text.length :=
  ⟨decimalInt v, rfl, by rw [decode_decimalInt ht v tail h]; exact ⟨rfl, rfl⟩⟩

/-- What follows a value in the text which the writer produces does not continue a number. -/
theorem C44_separators (t : PyText) (ht : t.Lawful) (tail : PyStr)
    (h : ∀ c, tail.head? = some c → c ∈ py! ",:]} \t\n\r") : EndsNumber t tail := by
  intro c hc
  have := h c hc
  simp only [List.mem_cons, List.not_mem_nil, or_false] at this
  refine ⟨?_, by omega, by omega, by omega⟩
  have hd := ht.isDigit c (by omega)
  unfold IsDecimal at hd
  cases hx : t.isDigit c with
  | false => rfl
  | true => have := hd.1 hx; omega

/-- The texts of the booleans are decoded to booleans. -/
theorem C44_bool_round_trip (t : PyText) (b : Bool) (tail : PyStr) :
    ∃ text, encodeValue t (.bool b) = .ok text ∧
      (decodeValue t (text ++ tail)).value = some (.bool b) ∧ (decodeValue t (text ++ tail)).numRead = text.length := by
  cases b with
  | true => exact ⟨py! "true", rfl, literal (py! "true") tail (.bool true)⟩
  | false => exact ⟨py! "false", rfl, literal (py! "false") tail (.bool false)⟩

/-- The text of `None` is decoded to `None`. -/
theorem C44_null_round_trip (t : PyText) (tail : PyStr) :
    ∃ text, encodeValue t .none = .ok text ∧
      (decodeValue t (text ++ tail)).value = some .none ∧ (decodeValue t (text ++ tail)).numRead = text.length :=
  ⟨py! "null", rfl, literal (py! "null") tail .none⟩

/-- Floats which are not NaN, infinities and signed zeros included, are decoded to the same float, given that `float(repr(x))`
is `x`. -/
theorem C44_float_round_trip (t : PyText) (ht : t.Lawful) (x : PyFloat) (hx : x.toNat % 2 ^ 63 ≤ 2047 * 2 ^ 52) (tail : PyStr)
    (h : EndsNumber t tail) :
    ∃ text, encodeValue t (.float x) = .ok text ∧
      (decodeValue t (text ++ tail)).value = some (.float x) ∧ (decodeValue t (text ++ tail)).numRead = text.length := by
  refine ⟨encodeFloat t x, rfl, ?_⟩
  unfold encodeFloat
  rw [if_neg (by omega)]
  split
  · rename_i h; subst h
    exact literal (py! "Infinity") tail (.float inf)
  split
  · rename_i h; subst h
    exact literal (py! "-Infinity") tail (.float negInf)
  · rename_i h1 h2
    have hlt : x.toNat % 2 ^ 63 < 2047 * 2 ^ 52 := by
      rcases Nat.lt_or_eq_of_le hx with h | h
      · exact h
      · exfalso
        have hb : x.toNat < 2 ^ 64 := x.toNat_lt
        have : x.toNat = 2047 * 2 ^ 52 ∨ x.toNat = 2047 * 2 ^ 52 + 2 ^ 63 := by omega
        rcases this with h | h
        · exact h1 (UInt64.toNat_inj.1 (by rw [h]; decide))
        · exact h2 (UInt64.toNat_inj.1 (by rw [h]; decide))
    rw [decode_repr ht hlt h]
    exact ⟨rfl, rfl⟩

/-- Every NaN is decoded to the NaN `float("nan")`. -/
theorem C44_nan (t : PyText) (x : PyFloat) (hx : 2047 * 2 ^ 52 < x.toNat % 2 ^ 63) (tail : PyStr) :
    ∃ text, encodeValue t (.float x) = .ok text ∧
      (decodeValue t (text ++ tail)).value = some (.float nan) ∧ (decodeValue t (text ++ tail)).numRead = text.length :=
  ⟨encodeFloat t x, rfl, by unfold encodeFloat; rw [if_pos hx]; exact literal (py! "NaN") tail (.float nan)⟩

/-- An integer is never taken for a float or the other way round: the decoder gives a float only for a text with a fraction or
an exponent, or for one of the three special names. -/
theorem C44_types (t : PyText) (rest : PyStr) (x : PyFloat) (h : (decodeValue t rest).value = some (.float x)) :
    (∃ c ∈ rest.take (decodeValue t rest).numRead, c = ch! '.' ∨ c = ch! 'e' ∨ c = ch! 'E') ∨
      rest.take (decodeValue t rest).numRead ∈ [py! "NaN", py! "Infinity", py! "-Infinity"] := by
  have hlit : ∀ text y, (decodeLiteral rest text y).value = some (.float x) →
      y = .float x ∧ rest.take (decodeLiteral rest text y).numRead = text := by
    intro text y h
    unfold decodeLiteral at h ⊢
    split at h
    · simp [Json.failure] at h
    · rename_i h1
      rw [if_neg h1]
      split at h
      · rename_i h2
        rw [if_pos h2]
        simp only [success, Option.some.injEq] at h
        exact ⟨h, h2⟩
      · simp [Json.failure] at h
  have hloop : ∀ (l : PyStr) (a sc : Bool), (extractLoop t l a sc false).2 = true →
      ∃ c ∈ l.take (extractLoop t l a sc false).1, c = 46 ∨ c = 101 ∨ c = 69 := by
    intro l
    induction l with
    | nil => intro a sc h; simp [extractLoop] at h
    | cons c l ih =>
      intro a sc h
      rw [extractLoop] at h ⊢
      split at h
      · rename_i h1
        rw [if_pos h1]
        obtain ⟨d, hd, hd'⟩ := ih _ _ h
        exact ⟨d, by simp [hd], hd'⟩
      rename_i h1; rw [if_neg h1]
      split at h
      · rename_i h1
        rw [if_pos h1]
        obtain ⟨d, hd, hd'⟩ := ih _ _ h
        exact ⟨d, by simp [hd], hd'⟩
      rename_i h1; rw [if_neg h1]
      split at h
      · rename_i h1
        rw [if_pos h1]
        refine ⟨c, by simp, ?_⟩
        simp only [Bool.and_eq_true, Bool.or_eq_true, beq_iff_eq] at h1
        exact .inr h1.1
      rename_i h1; rw [if_neg h1]
      split at h
      · rename_i h1
        rw [if_pos h1]
        refine ⟨c, by simp, ?_⟩
        simp only [Bool.and_eq_true, beq_iff_eq] at h1
        exact .inl h1.1
      · simp at h
  have hnum : (decodeNumber t rest).value = some (.float x) →
      ∃ c ∈ rest.take (decodeNumber t rest).numRead, c = 46 ∨ c = 101 ∨ c = 69 := by
    intro h
    have h1 : (extractNumber t rest).2 = true ∧ (extractNumber t rest).1.length ≠ 0 := by
      unfold decodeNumber at h
      simp only at h
      split at h
      · simp [Json.failure] at h
      · rename_i h0
        refine ⟨?_, h0⟩
        split at h
        · assumption
        · exfalso
          split at h <;> simp [Json.failure, success] at h
    rw [decodeNumber_numRead, if_neg h1.2]
    have h2 : rest.take (extractNumber t rest).1.length = (extractNumber t rest).1 := by
      unfold extractNumber
      split
      · rfl
      · split <;> simp
    rw [h2]
    have h3 := h1.1
    unfold extractNumber at h3 ⊢
    split at h3
    · simp at h3
    · split at h3
      · rename_i hc
        simp only [if_pos hc] at h3 ⊢
        obtain ⟨d, hd, hd'⟩ := hloop _ _ _ h3
        exact ⟨d, by simp [hd], hd'⟩
      · rename_i hc
        simp only [if_neg hc] at h3 ⊢
        exact hloop _ _ _ h3
  revert h
  rw [decodeValue.eq_def]
  match rest with
  | [] => simp [Json.failure]
  | c :: tail =>
    simp only
    split
    · intro h; exact absurd (hlit _ _ h).1 (by simp)
    split
    · intro h; exact absurd (hlit _ _ h).1 (by simp)
    split
    · intro h; exact absurd (hlit _ _ h).1 (by simp)
    split
    · intro h; rw [(hlit _ _ h).2]; simp
    split
    · intro h; rw [(hlit _ _ h).2]; simp
    split
    · intro h
      exfalso
      have : ∀ (k : Nat) (l : PyStr), l.length ≤ k → ∀ n d, (decodeStringLoop l n d).value ≠ some (.float x) := by
        intro k
        induction k with
        | zero =>
          intro l hl n d
          obtain rfl : l = [] := List.length_eq_zero_iff.1 (by omega)
          rw [decodeStringLoop.eq_def]; simp [Json.failure]
        | succ k ih =>
          intro l hl n d
          rw [decodeStringLoop.eq_def]
          match l with
          | [] => simp [Json.failure]
          | c :: l =>
            simp only [List.length_cons] at hl
            simp only
            repeat' split
            all_goals first
              | (simp [Json.failure, success]; done)
              | (refine ih _ ?_ _ _; simp at hl ⊢; omega)
      exact this _ _ (Nat.le_refl _) _ _ h
    split
    · match tail with
      | [] => simp [Json.failure]
      | d :: tail =>
        simp only
        split
        · intro h; rw [(hlit _ _ h).2]; simp
        · intro h; exact .inl (hnum h)
    · intro h; exact .inl (hnum h)

example : PyText.simple.Lawful := simple_lawful
example : EndsNumber PyText.simple (py! ",\n") := C44_separators _ simple_lawful _ (by simp)
example : encodeValue PyText.simple (.int (-120)) = .ok (py! "-120") := by decide +kernel
example : (decodeValue PyText.simple (py! "-120,")).value = some (.int (-120)) := by decide +kernel
/-- without the condition on the next character the number would continue -/
example : (decodeValue PyText.simple (py! "12" ++ py! "3")).value = some (.int 123) := by decide +kernel
/-- a float which is neither NaN nor infinite -/
example : (0xC059000000000000 : PyFloat).toNat % 2 ^ 63 ≤ 2047 * 2 ^ 52 := by decide

/-! ### What the decoder reads -/

/-- The decoder always reports at least one character and never more than there are, so that the tokenizer makes progress and
stays inside the text. -/
theorem C45_decoder_bounds (t : PyText) (rest : PyStr) (h : rest ≠ []) :
    1 ≤ (decodeValue t rest).numRead ∧ (decodeValue t rest).numRead ≤ rest.length := decodeValue_bounds rest h

/-- A result which does not reach the end of the available text is final: more text does not change it. -/
theorem C45_decoder_stable (t : PyText) (rest ext : PyStr) (h : (decodeValue t rest).numRead < rest.length) :
    decodeValue t (rest ++ ext) = decodeValue t rest := decodeValue_ext rest ext h

example : (decodeValue PyText.simple (py! "-120,")).numRead < (py! "-120,").length := by decide +kernel
/-- a result which reaches the end is not final -/
example : (decodeValue PyText.simple (py! "12")).value = some (.int 12) ∧
    (decodeValue PyText.simple (py! "12" ++ py! "3")).value = some (.int 123) := by decide +kernel

end Zserio
