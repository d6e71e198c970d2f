import Verif.Model.Options
import Verif.Model.Lexer
/-
C100: the words which cannot be names of packages on the command line are those which cannot be names in schemas.
-/
namespace Zserio.Options

theorem keywords_eq : keywords = (Lexer.keywords.filter fun s => s.head? != some (ch! '@')) ++ [py! "true", py! "false"] := by
  decide +kernel

/-- C100: a word is reserved for the names of packages on the command line exactly if the lexer of schemas takes it for a keyword, or
for `true` or `false`; keywords which begin with `@` are no words. -/
theorem C100_keywords (s : PyStr) :
    s ∈ keywords ↔ (s ∈ Lexer.keywords ∧ s.head? ≠ some (ch! '@')) ∨ s = py! "true" ∨ s = py! "false" := by
  rw [keywords_eq]
  simp [List.mem_filter]

/-- `struct` and `true` are reserved, `structs` is not -/
example : py! "struct" ∈ keywords ∧ py! "true" ∈ keywords ∧ py! "structs" ∉ keywords :=
  ⟨(C100_keywords _).mpr (.inl (by decide +kernel)), (C100_keywords _).mpr (.inr (.inl rfl)), by decide +kernel⟩

end Zserio.Options
