import Verif.Lemmas.DocComment
/-
C92: Documentation comments of a schema become documentation of the generated code and nothing else.
-/
namespace Zserio.Doc
open Expression

/-- a literal without backslashes and without three quotes has the text between its quotes as value -/
private theorem ended_quotes {s : PyStr} {ts : List PyStr} (h : Ended s ts) (hs : ¬ HasTripleQuote s) : ¬ HasTripleQuote (s ++ [34, 34]) := by
  have h0 : run 0 s = some 0 := by
    rcases h with ⟨rfl, -⟩ | ⟨r, m, rfl, hm, hne, -⟩
    · rfl
    · have := run_iff.2 hs
      rw [run_append] at this ⊢
      cases hr : run 0 r with
      | none => rw [hr] at this; exact absurd rfl this
      | some k => simp [run_plain hm.1, hne]
  refine run_iff.1 ?_
  rw [run_append, h0]
  simp [run]

/-- The string literal with the comments: if no text of the comments contains a backslash or three double quotes in a row, then the literal
ends where the template ends it, whatever code follows, and its value is what is between the quotes, which contains every text of the
comments.

Missing: comments with backslashes or with three double quotes, for which it does not hold (`C92_quotes`, `C92_backslash_deviates`). -/
theorem C92_literal_partial (before after rest : PyStr) (indent : Nat) (c : Comments) (hb : Plain before) (ha : Plain after)
    (hbackslash : ∀ t ∈ c.texts, ¬ HasBackslash t) (hquotes : ∀ t ∈ c.texts, ¬ HasTripleQuote t) :
    ∃ value, pyDoc (literalOut before after indent c ++ rest) = some (value, rest) ∧ quotes ++ value ++ quotes = literalOut before after indent c ∧
      ∀ t ∈ c.texts, t <:+: value := by
  obtain ⟨ts, hts, he⟩ := commentOut_made indent c before after hb ha
  refine ⟨before ++ commentOut indent c ++ after, ?_, by simp [literalOut], fun t ht => he.made.all t ((hts t).2 ht)⟩
  have h3 : ¬ HasTripleQuote (before ++ commentOut indent c ++ after) := fun h => by
    obtain ⟨t, ht, hx⟩ := he.made.triple h
    exact hquotes t ((hts t).1 ht) hx
  have h4 : 92 ∉ before ++ commentOut indent c ++ after := fun h => by
    obtain ⟨t, ht, hx⟩ := he.made.backslash h
    exact hbackslash t ((hts t).1 ht) hx
  have := pyDocRest_ends _ rest h4 (ended_quotes he h3)
  simp only [literalOut, pyDoc, quotes] at this ⊢
  simpa using this

/-- `doc_comments`: the comment before a class, after a constant or after an item -/
theorem C92_comment_partial (rest : PyStr) (indent : Nat) (c : Comments)
    (hbackslash : ∀ t ∈ c.texts, ¬ HasBackslash t) (hquotes : ∀ t ∈ c.texts, ¬ HasTripleQuote t) :
    ∃ value, pyDoc (docCommentsOut indent c ++ rest) = some (value, 10 :: rest) ∧ ∀ t ∈ c.texts, t <:+: value := by
  obtain ⟨value, h, -, ht⟩ := C92_literal_partial newline (pad (indent * 4)) (10 :: rest) indent c plain_newline (plain_pad _) hbackslash hquotes
  refine ⟨value, ?_, ht⟩
  simpa [docCommentsOut, newline] using h

/-- For comments without backslashes this is exact: if some text contains three double quotes in a row, then the literal ends inside of the
comments and what follows in the comments is code. -/
theorem C92_quotes (before after rest : PyStr) (indent : Nat) (c : Comments) (hb : Plain before) (ha : Plain after)
    (hbackslash : ∀ t ∈ c.texts, ¬ HasBackslash t) (t : PyStr) (ht : t ∈ c.texts) (hq : HasTripleQuote t) :
    ∃ value more, pyDoc (literalOut before after indent c ++ rest) = some (value, more ++ after ++ quotes ++ rest) ∧
      before ++ commentOut indent c = value ++ quotes ++ more := by
  obtain ⟨ts, hts, he⟩ := commentOut_made indent c before [] hb ⟨by simp, by simp⟩
  rw [List.append_nil] at he
  have h3 : HasTripleQuote (before ++ commentOut indent c) := by
    obtain ⟨a, b, hab⟩ := he.made.all t ((hts t).2 ht)
    obtain ⟨x, y, rfl⟩ := hq
    exact ⟨a ++ x, y ++ b, by simpa using hab⟩
  have h4 : 92 ∉ before ++ commentOut indent c := fun h => by
    obtain ⟨t, ht, hx⟩ := he.made.backslash h
    exact hbackslash t ((hts t).1 ht) hx
  obtain ⟨a, b, hab, hr⟩ := pyDocRest_early _ (after ++ quotes ++ rest) h4 h3
  refine ⟨a, b, ?_, hab⟩
  simp only [literalOut, pyDoc, quotes] at hr ⊢
  simpa using hr

/-- `/** Installed in C:\Users. */` -/
def users : Comments := [[.multiline [[.text (py! "Installed in C:\\Users.")]]]]

/-- A comment with a backslash: the generated module is a `SyntaxError`, whatever follows. -/
theorem C92_backslash_deviates : ∃ c : Comments, ∀ indent rest, pyDoc (docCommentsOut indent c ++ rest) = none := by
  refine ⟨users, fun indent rest => ?_⟩
  have hskip : ∀ p s : PyStr, Plain p → pyDocRest 0 s = none → pyDocRest 0 (p ++ s) = none := by
    intro p s hp hs
    induction p with
    | nil => exact hs
    | cons c p ih =>
      have h1 : c ≠ 92 := fun h => hp.2 (by simp [h])
      have h2 : ¬ (c = 34 ∧ (p ++ s).take 2 = [34, 34]) := fun h => hp.1 (by simp [h.1])
      show pyDocRest 0 (c :: (p ++ s)) = none
      simp only [pyDocRest]
      rw [if_neg h1, if_neg h2, ih ⟨fun h => hp.1 (by simp [h]), fun h => hp.2 (by simp [h])⟩]
      rfl
  have hU : ∀ s : PyStr, pyDocRest 0 (py! "\\Users." ++ s) = none := by
    intro s
    have he : pyEscape (py! "Users." ++ s) = none := by
      have hx : pyHex ((py! "sers." ++ s).take 8) 8 = none := by
        unfold pyHex
        rw [if_neg]
        rintro ⟨-, h⟩
        exact absurd h (by simp [Base.isDigit])
      show (match pyHex ((py! "sers." ++ s).take 8) 8 with | some x => if x ≤ 0x10FFFF then some ([x], 9) else none | none => none) = none
      rw [hx]
    show (match pyEscape (py! "Users." ++ s) with
      | some (cs, n) => (pyDocRest n (py! "Users." ++ s)).map fun r => (cs ++ r.1, r.2)
      | none => none) = none
    rw [he]
  have := hskip (newline ++ pad (indent * 4) ++ py! "Installed in C:") _
    ((plain_newline.append (plain_pad _)).append (by decide)) (hU (newline ++ (pad (indent * 4) ++ (quotes ++ (newline ++ rest)))))
  simpa [pyDoc, docCommentsOut, literalOut, commentOut, paragraphsOut, users, Element.out, Element.isText, Element.isParam,
    Element.isDeprecated, multilineOut, lineOut, LineElement.out, quotes] using this

/-- `/** a\tb */`: the documentation is not the text of the comment -/
theorem C92_escape_deviates : ∃ c : Comments, ∃ t ∈ c.texts, ∃ value, pyDoc (docCommentsOut 1 c) = some (value, [10]) ∧ ¬ t <:+: value :=
  ⟨[[.multiline [[.text (py! "a\\tb")]]]], py! "a\\tb", by simp [Comments.texts, Element.texts, LineElement.texts],
    py! "\n    a\tb\n    ", by decide +kernel, by decide +kernel⟩

/-! ### Examples -/

/-- ```
/**
 * First line see @see "other" pkg.Other
 * second "line"
 *
 * @todo check
 * @param p ""the "parameter""
 * @deprecated
 */
``` -/
def sample : Comments :=
  [[.multiline [[.text (py! "First line see"), .see (py! "other") (py! "pkg.other.Other") false], [.text (py! "second \"line\"")]]],
    [.todo [[.text (py! "check")]], .param (py! "p") [[.text (py! "\"\"the \"parameter\"\"")]], .deprecated]]

instance (s : PyStr) : Decidable (HasTripleQuote s) := inferInstanceAs (Decidable ([34, 34, 34] <:+: s))
instance (s : PyStr) : Decidable (HasBackslash s) := inferInstanceAs (Decidable (92 ∈ s))

/-- the hypotheses of `C92_literal_partial` and `C92_comment_partial` hold; what is generated -/
example : (∀ t ∈ sample.texts, ¬ HasBackslash t) ∧ (∀ t ∈ sample.texts, ¬ HasTripleQuote t) ∧ sample.texts.length = 7 ∧
    docCommentsOut 1 sample = py! "\"\"\"
    First line see :obj:`other <pkg.other.Other>`
    second \"line\"

    .. todo:: check

    **Parameters:**

    - **p** \"\"the \"parameter\"\"

    **Deprecated**
    \"\"\"
" := by decide +kernel

/-- the hypotheses of `C92_quotes`: the code `boom()` of a comment is executed when the module is imported -/
example : ∃ value more, pyDoc (literalOut newline [] 0 [[.multiline [[.text (py! "\"\"\"; boom(); \"\"\"")]]]] ++ py! "\nx = 1") =
    some (value, py! "; boom(); " ++ more) :=
  ⟨py! "\n", py! "\"\"\"\n\"\"\"\nx = 1", by decide +kernel⟩

end Zserio.Doc
