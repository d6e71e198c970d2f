import Verif.Lemmas.LexerTokens
/-
C108: the text of a schema is divided into the tokens one expects.
-/
namespace Zserio.Lexer

/-- C108: the lexer returns a list of tokens exactly if it is the one list in which every token is the longest at its place, and of the preferred
type among those of this length. -/
theorem C108_exact (text : List Nat) (ts : List (Kind × List Nat)) : lex text = some ts ↔ Tokenised text ts := by
  constructor
  · suffices h : ∀ n (cs : List Nat) ts, cs.length ≤ n → lex cs = some ts → Tokenised cs ts from h _ text ts (Nat.le_refl _)
    intro n
    induction n with
    | zero =>
      intro cs ts hn h
      have := List.eq_nil_of_length_eq_zero (Nat.le_zero.1 hn)
      subst this
      rw [lex_nil] at h
      injection h with h
      subst h
      exact .nil
    | succ n ih =>
      intro cs ts hn h
      cases cs with
      | nil =>
        rw [lex_nil] at h
        injection h with h
        subst h
        exact .nil
      | cons c cs =>
        cases e : token (c :: cs) with
        | none => simp [lex, lexLoop, e] at h
        | some p =>
          obtain ⟨k, m⟩ := p
          obtain ⟨h1, h2⟩ := isToken_of_token e
          have hm : m ≠ 0 := by
            rintro rfl
            exact form_ne_nil h2.2.1 (by simp)
          obtain ⟨s, rest, hs, hd⟩ : ∃ s rest, c :: cs = s ++ rest ∧ s = (c :: cs).take m :=
            ⟨(c :: cs).take m, (c :: cs).drop m, (List.take_append_drop _ _).symm, rfl⟩
          rw [← hd] at h2
          have hl : s.length = m := by rw [hd, List.length_take]; omega
          rw [hs] at h h2 ⊢
          rw [lex_cons h2] at h
          cases er : lex rest with
          | none => rw [er] at h; simp at h
          | some tr =>
            rw [er] at h
            simp only [Option.map_some, Option.some.injEq] at h
            subst h
            refine .cons h2 (ih rest tr ?_ er)
            have := congrArg List.length hs
            simp at this hn
            omega
  · intro h
    induction h with
    | nil => exact lex_nil
    | cons ht _ ih => rw [lex_cons ht, ih]; rfl

/-- C108: nothing is lost and nothing is made up: the texts of the tokens make up the text, and no token is empty. -/
theorem C108_lossless (text : List Nat) (ts : List (Kind × List Nat)) (h : lex text = some ts) :
    (ts.map Prod.snd).flatten = text ∧ ∀ t ∈ ts, t.2 ≠ [] := by
  have h := (C108_exact text ts).1 h
  induction h with
  | nil => simp
  | cons ht _ ih =>
    obtain ⟨h1, h2⟩ := ih ((C108_exact _ _).2 ‹_›)
    refine ⟨by simp [h1], ?_⟩
    intro t hm
    rcases List.mem_cons.1 hm with rfl | hm
    · exact form_ne_nil ht.2.1
    · exact h2 t hm

/-- C108: a word is one token, whatever keywords it begins with: a keyword if it is one, otherwise `true`, `false` or a name. -/
theorem C108_word (s rest : List Nat) (hs : Word s) (hr : ∀ c, rest.head? = some c → isWordChar c = false) :
    lex (s ++ rest) = (lex rest).map ((wordKind s, s) :: ·) :=
  lex_cons (isToken_word hs hr)

example : Word (py! "int32x") ∧ wordKind (py! "int32x") = .id ∧ wordKind (py! "int32") = .keyword (py! "int32") ∧ wordKind (py! "true") = .bool :=
  ⟨⟨105, py! "nt32x", by decide, by decide, rfl⟩, by decide +kernel, by decide +kernel, by decide +kernel⟩

/-- C108: digits are one token: a decimal number, an octal number if they begin with 0, or an error if they are neither. -/
theorem C108_digits (ds rest : List Nat) (hne : ds ≠ []) (hd : ∀ d ∈ ds, isDigit d = true)
    (hr : ∀ c, rest.head? = some c → isWordChar c = false ∧ c ≠ 46) : lex (ds ++ rest) = (lex rest).map ((digitsKind ds, ds) :: ·) :=
  lex_cons (isToken_digits hne hd hr)

example : digitsKind (py! "10") = .decimal ∧ digitsKind (py! "010") = .octal ∧ digitsKind (py! "08") = .invalid ∧ digitsKind (py! "0") = .decimal := by
  decide

/-- C108: a comment ends at the first `*/` behind its beginning, and is a documentation comment if it begins with `/**` or `/*!`. What is missing: the
comment `/**/`, see `C108_comment_deviates`. -/
theorem C108_comment_partial (s rest : List Nat) (hs : Comment (py! "/*") s) (hne : s ≠ py! "/**/") :
    lex (s ++ rest) = (lex rest).map ((commentKind s, s) :: ·) :=
  lex_cons (isToken_comment rest hs hne)

theorem comment_of_end (body : List Nat) (h : commentEnd (body ++ [42, 47]) = some (body.length + 2)) : Comment (py! "/*") (py! "/*" ++ (body ++ py! "*/")) := by
  refine ⟨body, rfl, ?_⟩
  obtain ⟨b, h1, h2, _, h4⟩ := commentEnd_some _ _ h
  have e : (body ++ [42, 47]).take (body.length + 2) = body ++ [42, 47] := by
    rw [List.take_of_length_le]; simp
  rw [e] at h1
  have := List.append_cancel_right h1
  subst this
  rw [star_slash]
  exact h4

example : Comment (py! "/*") (py! "/* a /* b **/") ∧ py! "/* a /* b **/" ≠ py! "/**/" :=
  ⟨comment_of_end (py! " a /* b *") (by decide), by decide⟩

/-- C108: `/**/` is not always a comment by itself, although it ends with `*/`: if there is another comment behind it, everything up to the end of
that comment is ignored. -/
theorem C108_comment_deviates : Comment (py! "/*") (py! "/**/") ∧
    lex (py! "/**/a/**/b") = some [(.docComment, py! "/**/a/**/"), (.id, py! "b")] ∧ tokens (py! "/**/a/**/b") = some [(.id, py! "b")] ∧
    lex (py! "/**/a") = some [(.blockComment, py! "/**/"), (.id, py! "a")] := by
  refine ⟨comment_of_end [] (by decide), ?_, ?_, ?_⟩ <;> decide +kernel

/-- C108: a text which begins with `/**` is a documentation comment up to the first `*/` behind these three characters, if there is one; this covers
`/**/` with another comment behind it. -/
theorem C108_empty_comment (s rest : List Nat) (hs : Comment (py! "/**") s) : lex (s ++ rest) = (lex rest).map ((.docComment, s) :: ·) := by
  refine lex_cons ?_
  obtain ⟨body, hb, hfirst⟩ := id hs
  have hs' : s = 47 :: 42 :: 42 :: (body ++ [42, 47]) := hb
  refine ⟨List.prefix_append _ _, hs, ?_, ?_⟩
  · intro k' s' hp hf
    obtain ⟨x, t, rfl, _⟩ := form_head hf
    cases t with
    | nil => rw [hs']; simp
    | cons d t =>
      have e : x = 47 ∧ d = 42 := by
        obtain ⟨u, hu⟩ := hp
        rw [hs'] at hu
        simp only [List.cons_append, List.cons.injEq] at hu
        exact ⟨hu.1, hu.2.1⟩
      obtain ⟨rfl, rfl⟩ := e
      have hend := comment_end (cs := s ++ rest) (List.prefix_append _ _) hs
      have hl : s.length = body.length + 5 := by rw [hs']; simp
      rcases slash_cases hf with ⟨_, rfl | rfl | rfl⟩ | ⟨h, _⟩
      · have g := comment_end hp hf
        have := g.1.symm.trans hend.1
        simp only [Option.some.injEq] at this
        have g2 := g.2
        have f2 := hend.2
        omega
      · exfalso
        obtain ⟨u, hu⟩ := hp
        obtain ⟨b, e, _⟩ := hf
        rw [e, hs'] at hu
        simp at hu
      · have g := comment_end hp hf
        have g1 : commentEnd ((s ++ rest).drop 2) = some ((47 :: 42 :: t).length - 2) := g.1
        have e1 : (s ++ rest).drop 2 = 42 :: ((s ++ rest).drop 3) := by rw [hs']; rfl
        have f1 : commentEnd ((s ++ rest).drop 3) = some (s.length - 3) := hend.1
        rw [e1] at g1
        cases hd : (s ++ rest).drop 3 with
        | nil => rw [hd] at f1; simp [commentEnd] at f1
        | cons y r =>
          rw [hd] at f1 g1
          rw [commentEnd] at g1
          split at g1
          · injection g1 with g1
            simp at g1 ⊢
            omega
          · rw [f1] at g1
            simp only [Option.map_some, Option.some.injEq] at g1
            simp at g1 ⊢
            omega
      · simp at h
  · intro k' hf
    rw [hs'] at hf
    rcases slash_cases hf with ⟨_, rfl | rfl | rfl⟩ | ⟨h, _⟩
    · exact Nat.le_refl _
    · simp [rank]
    · simp [rank]
    · simp at h

example : Comment (py! "/**") (py! "/**/a/**/") :=
  ⟨py! "/a/*", by decide, by
    intro body' rest e
    rw [star_slash] at e
    obtain ⟨b, h1, h2, _, h4⟩ := commentEnd_some (py! "/a/**/") 6 (by decide)
    have h1' : py! "/a/*" ++ [42, 47] = b ++ [42, 47] := h1
    have := List.append_cancel_right h1'
    subst this
    exact h4 body' rest e⟩

/-- C108: however the tokens of a schema are laid out, with white space, comments and line ends between them, and with nothing between words and
punctuation, the parser gets these tokens. -/
theorem C108_layout (text : List Nat) (ts : List (Kind × List Nat)) (h : Layout ts text) : tokens text = some ts := tokens_layout h

/-- C108: two texts which are laid out differently are the same for the parser. -/
theorem C108_same (text text' : List Nat) (ts : List (Kind × List Nat)) (h : Layout ts text) (h' : Layout ts text') : tokens text = tokens text' :=
  (tokens_layout h).trans (tokens_layout h').symm

theorem isToken_self {s : List Nat} {k : Kind} (h : token s = some (k, s.length)) : IsToken s k s := by
  have := (isToken_of_token h).2
  rwa [List.take_length] at this

/-- the tokens of `int8 a[<< "x";` -/
def exampleTokens : List (Kind × List Nat) :=
  [(wordKind (py! "int8"), py! "int8"), (wordKind (py! "a"), py! "a"), (.operator (py! "["), py! "["), (.operator (py! "<<"), py! "<<"),
    (.string, py! "\"x\""), (.operator (py! ";"), py! ";")]

example : Layout exampleTokens (py! "int8 a[// c\n<< \"x\" /* d */;") ∧ Layout exampleTokens (py! "int8\na[<< \"x\"\n;") ∧
    wordKind (py! "int8") = .keyword (py! "int8") ∧ wordKind (py! "a") = .id := by
  have hc : Comment (py! "/*") (py! "/* d */") := comment_of_end (py! " d ") (by decide)
  have w8 : Word (py! "int8") := ⟨105, py! "nt8", by decide, by decide, rfl⟩
  have wa : Word (py! "a") := ⟨97, [], by decide, by decide, rfl⟩
  have semi : Layout [(.operator (py! ";"), py! ";")] (py! ";") := .single (by decide) .nil
  have str : ∀ rest, Layout [(.operator (py! ";"), py! ";")] rest →
      Layout [(.operator (py! "<<"), py! "<<"), (.string, py! "\"x\""), (.operator (py! ";"), py! ";")] (py! "<< \"x\" " ++ rest) := fun rest h =>
    .cons (s := py! "<<") (c := 32) (rest := py! "\"x\" " ++ rest) trivial (isToken_self (by decide +kernel)) (by decide)
      (.cons (s := py! "\"x\"") (c := 32) (rest := rest) trivial (isToken_self (by decide +kernel)) (by decide) h)
  have str' : Layout [(.operator (py! "<<"), py! "<<"), (.string, py! "\"x\""), (.operator (py! ";"), py! ";")] (py! "<< \"x\"\n;") :=
    .cons (s := py! "<<") (c := 32) (rest := py! "\"x\"\n;") trivial (isToken_self (by decide +kernel)) (by decide)
      (.cons (s := py! "\"x\"") (c := 10) (rest := py! ";") trivial (isToken_self (by decide +kernel)) (by decide) semi)
  refine ⟨?_, ?_, by decide +kernel, by decide +kernel⟩
  · have l1 := str _ (.blank (s := py! "/* d */") (rest := py! ";") (.inr (.inl ⟨hc, by decide⟩)) semi)
    have l2 := Layout.blank (s := py! "// c\n") (.inr (.inr ⟨py! " c", 10, by decide, by decide, by decide⟩)) l1
    exact .word (s := py! "int8") (rest := py! " a[// c\n<< \"x\" /* d */;") w8 (by decide) (.blank (s := [32]) (rest := py! "a[// c\n<< \"x\" /* d */;")
      (.inl ⟨32, by decide, rfl⟩) (.word (s := py! "a") (rest := py! "[// c\n<< \"x\" /* d */;") wa (by decide) (.single (c := 91) (by decide) l2)))
  · exact .word (s := py! "int8") (rest := py! "\na[<< \"x\"\n;") w8 (by decide) (.blank (s := [10]) (rest := py! "a[<< \"x\"\n;")
      (.inl ⟨10, by decide, rfl⟩) (.word (s := py! "a") (rest := py! "[<< \"x\"\n;") wa (by decide) (.single (c := 91) (by decide) str')))

/-- C108: a keyword with `@` is not a word: it is recognised at the beginning of a longer word, which is read as two tokens. -/
theorem C108_at_deviates : tokens (py! "@removeditem") = some [(.keyword (py! "@removed"), py! "@removed"), (.id, py! "item")] := by decide +kernel

end Zserio.Lexer
