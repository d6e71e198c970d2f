import Verif.Model.Options
import Verif.Model.Lexer
import Verif.Model.DocMarkdown
/-
C100, C108, C120: the classes of characters, listed.
-/
namespace Zserio.Lexer

theorem class_iff {p : Nat → Bool} {l : PyStr} (h1 : ∀ c < 128, (p c = true ↔ c ∈ l)) (h2 : ∀ x ∈ l, x < 128)
    (h3 : ∀ c, 128 ≤ c → p c = false) (c : Nat) : p c = true ↔ c ∈ l := by
  by_cases hc : c < 128
  · exact h1 c hc
  · constructor
    · intro h; rw [h3 c (by omega)] at h; exact absurd h (by simp)
    · intro h; exact absurd (h2 c h) hc

/-- C108: the characters of words, numbers and white space in schemas are these and no others. -/
theorem C108_characters (c : Nat) :
    (isDigit c = true ↔ c ∈ py! "0123456789") ∧
    (isOctalDigit c = true ↔ c ∈ py! "01234567") ∧
    (isHexDigit c = true ↔ c ∈ py! "0123456789abcdefABCDEF") ∧
    (isLetter c = true ↔ c ∈ py! "abcdefghijklmnopqrstuvwxyzABCDEFGHIJKLMNOPQRSTUVWXYZ_") ∧
    (isWordChar c = true ↔ c ∈ py! "abcdefghijklmnopqrstuvwxyzABCDEFGHIJKLMNOPQRSTUVWXYZ_0123456789") ∧
    (isSpace c = true ↔ c ∈ py! " \t\r\n" ∨ c = 12) ∧
    (isLineEnd c = true ↔ c ∈ py! "\r\n" ∨ c = 12) := by
  refine ⟨class_iff (by decide +kernel) (by decide +kernel) ?_ c, class_iff (by decide +kernel) (by decide +kernel) ?_ c,
    class_iff (by decide +kernel) (by decide +kernel) ?_ c, class_iff (by decide +kernel) (by decide +kernel) ?_ c,
    class_iff (by decide +kernel) (by decide +kernel) ?_ c, ?_, ?_⟩
  · intro c h; simp [isDigit]; omega
  · intro c h; simp [isOctalDigit]; omega
  · intro c h; simp [isHexDigit, isDigit]; omega
  · intro c h; simp [isLetter]; omega
  · intro c h; simp [isWordChar, isLetter, isDigit]; omega
  · have : c ∈ py! " \t\r\n" ↔ c = 32 ∨ c = 9 ∨ c = 13 ∨ c = 10 := by
      show c ∈ [32, 9, 13, 10] ↔ _
      simp
    rw [this]; simp [isSpace]; omega
  · have : c ∈ py! "\r\n" ↔ c = 13 ∨ c = 10 := by
      show c ∈ [13, 10] ↔ _
      simp
    rw [this]; simp [isLineEnd]

/-- C120: the names in links of markdown comments are made of the characters of words in schemas. -/
theorem C120_characters (c : Nat) :
    Zserio.Markdown.isNameChar c = true ↔ c ∈ py! "abcdefghijklmnopqrstuvwxyzABCDEFGHIJKLMNOPQRSTUVWXYZ_0123456789" := by
  refine class_iff (by decide +kernel) (by decide +kernel) ?_ c
  intro c h
  have : ch! '_' = 95 := rfl
  simp [Zserio.Markdown.isNameChar]; omega

/-- C100: `zserio` is recognised in whatever case: each upper case letter is taken for its lower case letter, and other characters are
kept. -/
theorem C100_case :
    (py! "ABCDEFGHIJKLMNOPQRSTUVWXYZ").map Options.toLower = py! "abcdefghijklmnopqrstuvwxyz" ∧
    ∀ c, c ∉ py! "ABCDEFGHIJKLMNOPQRSTUVWXYZ" → Options.toLower c = c := by
  refine ⟨by decide +kernel, fun c h => ?_⟩
  have hc : (decide (65 ≤ c) && decide (c ≤ 90)) = true ↔ c ∈ py! "ABCDEFGHIJKLMNOPQRSTUVWXYZ" :=
    class_iff (p := fun c => decide (65 ≤ c) && decide (c ≤ 90)) (by decide +kernel) (by decide +kernel)
      (fun c h => by simp; omega) c
  have : (decide (65 ≤ c) && decide (c ≤ 90)) = false := by
    rw [Bool.eq_false_iff]; exact fun h' => h (hc.mp h')
  show (if decide (65 ≤ c) && decide (c ≤ 90) then c + 32 else c) = c
  rw [this]; rfl

/-- characters which are and which are not in the classes -/
example : isLetter (ch! 'q') = true ∧ isLetter (ch! '-') = false ∧ isHexDigit (ch! 'g') = false ∧ isSpace 12 = true ∧
    Options.toLower (ch! 'Z') = ch! 'z' ∧ Options.toLower (ch! '_') = ch! '_' :=
  ⟨(C108_characters _).2.2.2.1.mpr (by decide +kernel), by decide +kernel, by decide +kernel,
   (C108_characters _).2.2.2.2.2.1.mpr (.inr rfl), by decide +kernel, C100_case.2 _ (by decide +kernel)⟩

end Zserio.Lexer
