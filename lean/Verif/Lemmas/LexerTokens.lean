import Verif.Lemmas.Lexer
set_option linter.unusedSimpArgs false
namespace Zserio.Lexer

/-! ### The characters of tokens -/

theorem double_split {s : List Nat} (h : Double s) :
    ∃ a x y, s = a ++ x :: y ∧ (∀ d ∈ a, isDigit d = true) ∧ (x = ch! 'e' ∨ x = ch! 'E' ∨ x = 46) ∧ (a = [] → x = 46) := by
  rcases h with ⟨a, e, h, ha, ⟨e, sign, ds, he, hs, hd, hd', rfl⟩, rfl⟩ | ⟨a, b, e, h, ha, hb, he, rfl⟩
  · exact ⟨a, e, sign ++ ds, rfl, ha, by rcases he with h | h <;> simp [h], fun h' => absurd h' h⟩
  · exact ⟨a, 46, b ++ e, rfl, ha, by simp, fun _ => rfl⟩

/-- the first character of a token -/
def headOk : Kind → Nat → Bool
  | .operator _, c => operators.any fun t => t.head? == some c
  | .keyword _, c => isLetter c || c == 64
  | .space, c => isSpace c
  | .docComment, c => c == 47
  | .markdownComment, c => c == 47
  | .blockComment, c => c == 47
  | .lineComment, c => c == 47
  | .bool, c => isLetter c
  | .string, c => c == 34
  | .binary, c => isDigit c
  | .octal, c => isDigit c
  | .hexadecimal, c => isDigit c
  | .double, c => isDigit c || c == 46
  | .float, c => isDigit c || c == 46
  | .decimal, c => isDigit c
  | .id, c => isLetter c
  | .invalidString, c => c == 34
  | .invalid, c => isWordChar c

theorem isWordChar_digit {c : Nat} (h : isDigit c = true) : isWordChar c = true := by simp [isWordChar, h]
theorem isWordChar_letter {c : Nat} (h : isLetter c = true) : isWordChar c = true := by simp [isWordChar, h]

theorem operator_heads : ∀ t ∈ operators, ∃ c, t.head? = some c := by
  have : ∀ t ∈ operators, t.head?.isSome = true := by decide +kernel
  exact fun t ht => Option.isSome_iff_exists.1 (this t ht)
theorem keyword_heads : ∀ t ∈ keywords, ∃ c, t.head? = some c ∧ (isLetter c || c == 64) = true := by
  have : ∀ t ∈ keywords, (match t with | [] => false | c :: _ => isLetter c || c == 64) = true := by decide +kernel
  intro t ht
  have := this t ht
  cases t with
  | nil => simp at this
  | cons c t => exact ⟨c, rfl, this⟩

theorem form_head {k : Kind} {s : List Nat} (h : Form k s) : ∃ c t, s = c :: t ∧ headOk k c = true := by
  have op : ∀ {c : Nat} {t : List Nat}, t.head? = some c → ∃ u, t = c :: u := by
    intro c t h
    cases t with
    | nil => simp at h
    | cons d u => simp at h; exact ⟨u, by rw [h]⟩
  cases k with
  | operator t =>
    obtain ⟨ht, rfl⟩ := h
    obtain ⟨c, hc⟩ := operator_heads s ht
    obtain ⟨u, rfl⟩ := op hc
    exact ⟨c, u, rfl, by simp only [headOk, List.any_eq_true]; exact ⟨_, ht, by simp⟩⟩
  | keyword t =>
    obtain ⟨ht, rfl⟩ := h
    obtain ⟨c, hc, hl⟩ := keyword_heads s ht
    obtain ⟨u, rfl⟩ := op hc
    exact ⟨c, u, rfl, hl⟩
  | space => obtain ⟨c, hc, rfl⟩ := h; exact ⟨c, [], rfl, hc⟩
  | docComment => obtain ⟨b, rfl, _⟩ := h; exact ⟨47, _, rfl, rfl⟩
  | markdownComment => obtain ⟨b, rfl, _⟩ := h; exact ⟨47, _, rfl, rfl⟩
  | blockComment => obtain ⟨b, rfl, _⟩ := h; exact ⟨47, _, rfl, rfl⟩
  | lineComment => obtain ⟨b, _, rfl⟩ := h; exact ⟨47, _, rfl, rfl⟩
  | bool => rcases h with rfl | rfl <;> exact ⟨_, _, rfl, by decide⟩
  | string => obtain ⟨b, _, rfl⟩ := h; exact ⟨34, _, rfl, rfl⟩
  | binary =>
    obtain ⟨ds, c, h1, h2, h3, rfl⟩ := h
    cases ds with
    | nil => exact absurd rfl h1
    | cons d ds =>
      refine ⟨d, _, rfl, ?_⟩
      rcases h2 d List.mem_cons_self with rfl | rfl <;> decide
  | octal => obtain ⟨ds, _, _, rfl⟩ := h; exact ⟨48, _, rfl, by decide⟩
  | hexadecimal => obtain ⟨x, ds, _, _, _, rfl⟩ := h; exact ⟨48, _, rfl, by decide⟩
  | double =>
    obtain ⟨a, x, y, rfl, ha, _, hx⟩ := double_split h
    cases a with
    | nil => exact ⟨x, y, rfl, by simp [headOk, hx rfl]⟩
    | cons d a => exact ⟨d, _, rfl, by simp [headOk, ha d List.mem_cons_self]⟩
  | float =>
    obtain ⟨d, c, h, _, rfl⟩ := h
    obtain ⟨a, x, y, rfl, ha, _, hx⟩ := double_split h
    cases a with
    | nil => exact ⟨x, _, rfl, by simp [headOk, hx rfl]⟩
    | cons d a => exact ⟨d, _, rfl, by simp [headOk, ha d List.mem_cons_self]⟩
  | decimal =>
    rcases h with rfl | ⟨c, ds, h1, h2, _, rfl⟩
    · exact ⟨48, [], rfl, by decide⟩
    · exact ⟨c, ds, rfl, by simp [headOk, isDigit]; omega⟩
  | id => obtain ⟨c, w, h, _, rfl⟩ := h; exact ⟨c, w, rfl, h⟩
  | invalidString =>
    obtain ⟨b, _, rfl | rfl⟩ := h
    · exact ⟨34, _, rfl, rfl⟩
    · exact ⟨34, _, rfl, rfl⟩
  | invalid =>
    cases s with
    | nil => exact absurd rfl h.1
    | cons c s => exact ⟨c, s, rfl, h.2 c List.mem_cons_self⟩

theorem form_ne_nil {k : Kind} {s : List Nat} (h : Form k s) : s ≠ [] := by
  obtain ⟨c, t, rfl, _⟩ := form_head h
  simp

theorem operator_head_not : ∀ c, (isLetter c || isDigit c || isSpace c || c == 34 || c == 64) = true → (operators.any fun t => t.head? == some c) = false := by
  have : ∀ t ∈ operators, ∀ c, t.head? = some c → (isLetter c || isDigit c || isSpace c || c == 34 || c == 64) = false := by
    have : ∀ t ∈ operators, (match t.head? with | none => true | some c => !(isLetter c || isDigit c || isSpace c || c == 34 || c == 64)) = true := by
      decide +kernel
    intro t ht c hc
    have := this t ht
    rw [hc] at this
    simpa using this
  intro c hc
  rw [Bool.eq_false_iff]
  intro h
  obtain ⟨t, ht, h⟩ := List.any_eq_true.1 h
  rw [this t ht c (by simpa using h)] at hc
  exact Bool.false_ne_true hc

/-! ### Words -/

theorem letter_facts {c : Nat} (h : isLetter c = true) :
    isSpace c = false ∧ isDigit c = false ∧ (c == 47) = false ∧ (c == 34) = false ∧ (c == 46) = false ∧ (c == 64) = false := by
  simp [isLetter, isSpace, isDigit] at h ⊢
  omega

/-- the types of tokens which begin with a letter -/
theorem form_letter {k : Kind} {c : Nat} {s : List Nat} (h : Form k (c :: s)) (hc : isLetter c = true) :
    (k = .keyword (c :: s) ∧ c :: s ∈ keywords) ∨ (k = .bool ∧ (c :: s = py! "true" ∨ c :: s = py! "false")) ∨ (k = .id) ∨ k = .invalid := by
  obtain ⟨d, t, e, hk⟩ := form_head h
  simp only [List.cons.injEq] at e
  obtain ⟨rfl, rfl⟩ := e
  obtain ⟨h1, h2, h3, h4, h5, h6⟩ := letter_facts hc
  cases k <;> simp only [headOk, h1, h2, h3, h4, h5, Bool.or_self, Bool.false_eq_true] at hk
  · rw [operator_head_not c (by simp [hc])] at hk
    simp at hk
  · obtain ⟨ht, e⟩ := h
    exact .inl ⟨by rw [e], e ▸ ht⟩
  · exact .inr (.inl ⟨rfl, h⟩)
  · simp
  · simp

theorem keyword_chars : ∀ t ∈ keywords, ∀ c s, t = c :: s → isLetter c = true → ∀ d ∈ t, isWordChar d = true := by
  have : ∀ t ∈ keywords, (match t with | [] => true | c :: s => !isLetter c || (c :: s).all isWordChar) = true := by decide +kernel
  intro t ht c s e hc
  have := this t ht
  subst e
  simp only [hc, Bool.not_true, Bool.false_or] at this
  exact List.all_eq_true.1 this

theorem form_letter_word {k : Kind} {c : Nat} {s : List Nat} (h : Form k (c :: s)) (hc : isLetter c = true) : ∀ d ∈ c :: s, isWordChar d = true := by
  rcases form_letter h hc with ⟨_, hk⟩ | ⟨_, hk | hk⟩ | rfl | rfl
  · exact keyword_chars _ hk c s rfl hc
  · rw [hk]; decide
  · rw [hk]; decide
  · obtain ⟨d, w, h1, h2, e⟩ := h
    rw [e]
    intro x hx
    rcases List.mem_cons.1 hx with rfl | hx
    · exact isWordChar_letter h1
    · exact h2 x hx
  · exact h.2

theorem prefix_longer {s' s rest : List Nat} (h : s' <+: s ++ rest) (hl : s.length < s'.length) : ∃ c t, s' = s ++ c :: t ∧ rest.head? = some c := by
  obtain ⟨u, e⟩ := List.prefix_of_prefix_length_le (List.prefix_append s rest) h (Nat.le_of_lt hl)
  subst e
  cases u with
  | nil => simp at hl
  | cons c t =>
    obtain ⟨v, hv⟩ := h
    rw [List.append_assoc] at hv
    have := List.append_cancel_left hv
    refine ⟨c, t, rfl, ?_⟩
    rw [← this]; rfl

theorem isToken_word {s rest : List Nat} (h : Word s) (hr : ∀ c, rest.head? = some c → isWordChar c = false) :
    IsToken (s ++ rest) (wordKind s) s := by
  obtain ⟨c, w, hc, hw, rfl⟩ := h
  refine ⟨List.prefix_append _ _, ?_, ?_, ?_⟩
  · unfold wordKind
    split
    · next h => exact ⟨h, rfl⟩
    · split
      · next h => exact h
      · exact ⟨c, w, hc, hw, rfl⟩
  · intro k' s' hs hf
    by_contra hlt
    obtain ⟨d, t, rfl, hd⟩ := prefix_longer hs (by omega)
    have := form_letter_word (k := k') (c := c) (s := w ++ d :: t) hf hc d (by simp)
    rw [hr d hd] at this
    simp at this
  · intro k' hf
    unfold wordKind
    split
    · rcases form_letter hf hc with ⟨rfl, _⟩ | ⟨rfl, _⟩ | rfl | rfl <;> simp [rank]
    · next hk =>
      split
      · rcases form_letter hf hc with ⟨rfl, h⟩ | ⟨rfl, _⟩ | rfl | rfl
        · exact absurd h hk
        all_goals simp [rank]
      · next hb =>
        rcases form_letter hf hc with ⟨rfl, h⟩ | ⟨rfl, h⟩ | rfl | rfl
        · exact absurd h hk
        · exact absurd h hb
        all_goals simp [rank]

/-! ### Punctuation -/

theorem isToken_single {c : Nat} {rest : List Nat} (h : c ∈ punctuation) : IsToken (c :: rest) (.operator [c]) [c] := by
  have h0 : ∀ c ∈ punctuation, [c] ∈ operators ∧
      (isLetter c || c == 64 || isSpace c || c == 47 || c == 34 || isDigit c || c == 46) = false ∧
      ∀ t ∈ operators, t.head? = some c → t.length ≤ 1 := by decide +kernel
  obtain ⟨h1, h2, h3⟩ := h0 c h
  simp only [Bool.or_eq_false_iff] at h2
  obtain ⟨⟨⟨⟨⟨⟨a1, a2⟩, a3⟩, a4⟩, a5⟩, a6⟩, a7⟩ := h2
  refine ⟨⟨rest, rfl⟩, ⟨h1, rfl⟩, ?_, fun _ _ => Nat.zero_le _⟩
  intro k' s' hs hf
  obtain ⟨d, t, rfl, hk⟩ := form_head hf
  obtain ⟨u, hu⟩ := hs
  simp only [List.cons_append, List.cons.injEq] at hu
  obtain ⟨rfl, _⟩ := hu
  cases k' <;> simp only [headOk, a1, a2, a3, a4, a5, a6, a7, isWordChar, Bool.or_self, Bool.false_eq_true] at hk
  obtain ⟨ht, e⟩ := hf
  exact h3 _ (e ▸ ht) rfl

/-! ### White space -/

theorem isToken_space {c : Nat} {rest : List Nat} (h : isSpace c = true) : IsToken (c :: rest) .space [c] := by
  have only : ∀ k' s', s' <+: c :: rest → Form k' s' → k' = .space := by
    intro k' s' hs hf
    obtain ⟨d, t, rfl, hk⟩ := form_head hf
    obtain ⟨u, hu⟩ := hs
    simp only [List.cons_append, List.cons.injEq] at hu
    obtain ⟨rfl, _⟩ := hu
    have g : (isLetter d || d == 64 || d == 47 || d == 34 || isDigit d || d == 46) = false := by
      simp [isLetter, isSpace, isDigit] at h ⊢
      omega
    simp only [Bool.or_eq_false_iff] at g
    obtain ⟨⟨⟨⟨⟨a1, a2⟩, a4⟩, a5⟩, a6⟩, a7⟩ := g
    cases k' <;> simp only [headOk, a1, a2, a4, a5, a6, a7, isWordChar, Bool.or_self, Bool.false_eq_true] at hk
    · rw [operator_head_not d (by simp [h])] at hk
      simp at hk
    · rfl
  refine ⟨⟨rest, rfl⟩, ⟨c, h, rfl⟩, ?_, ?_⟩
  · intro k' s' hs hf
    have := only k' s' hs hf
    subst this
    obtain ⟨d, _, rfl⟩ := hf
    simp
  · intro k' hf
    rw [only k' [c] ⟨rest, rfl⟩ hf]

/-! ### Strings -/

/-- what follows the end of a string -/
def afterString : List Nat → Option (List Nat)
  | [] => none
  | 34 :: r => some r
  | 92 :: _ :: r => afterString r
  | 92 :: [] => none
  | _ :: r => afterString r

theorem afterString_other {c : Nat} (h : c ≠ 34) (h' : c ≠ 92) (r : List Nat) : afterString (c :: r) = afterString r := by
  rw [afterString] <;> simp_all

theorem hex_ne {c : Nat} (h : isHexDigit c = true) : c ≠ 34 ∧ c ≠ 92 := by
  simp [isHexDigit, isDigit] at h; omega

theorem octal_ne {c : Nat} (h : isOctalDigit c = true) : c ≠ 34 ∧ c ≠ 92 := by
  simp [isOctalDigit] at h; omega

theorem afterString_part {p : List Nat} (h : StringChar p) (r : List Nat) : afterString (p ++ r) = afterString r := by
  rcases h with (⟨c, h1, h2, h3, rfl⟩ | ⟨c, hc, rfl⟩ | ⟨a, b, c, d, ha, hb, hc, hd, rfl⟩ | ⟨a, b, ha, hb, rfl⟩ | ⟨a, ha, rfl⟩ | ⟨a, b, ha, hb, rfl⟩ |
      ⟨a, b, c, ha, ha', hb, hc, rfl⟩)
  · exact afterString_other h1 h2 r
  · simp [afterString]
  · show afterString (92 :: 117 :: a :: b :: c :: d :: r) = _
    rw [afterString, afterString_other (hex_ne ha).1 (hex_ne ha).2, afterString_other (hex_ne hb).1 (hex_ne hb).2,
      afterString_other (hex_ne hc).1 (hex_ne hc).2, afterString_other (hex_ne hd).1 (hex_ne hd).2]
  · show afterString (92 :: 120 :: a :: b :: r) = _
    rw [afterString, afterString_other (hex_ne ha).1 (hex_ne ha).2, afterString_other (hex_ne hb).1 (hex_ne hb).2]
  · show afterString (92 :: 48 :: a :: r) = _
    rw [afterString, afterString_other (octal_ne ha).1 (octal_ne ha).2]
  · show afterString (92 :: 48 :: a :: b :: r) = _
    rw [afterString, afterString_other (octal_ne ha).1 (octal_ne ha).2, afterString_other (octal_ne hb).1 (octal_ne hb).2]
  · show afterString (92 :: 48 :: a :: b :: c :: r) = _
    rw [afterString, afterString_other (by omega) (by omega), afterString_other (octal_ne hb).1 (octal_ne hb).2,
      afterString_other (octal_ne hc).1 (octal_ne hc).2]

theorem afterString_parts (r : List Nat) : (l : List (List Nat)) → (∀ p ∈ l, StringChar p) → afterString (l.flatten ++ 34 :: r) = some r
  | [], _ => by simp [afterString]
  | p :: l, h => by
    rw [List.flatten_cons, List.append_assoc, afterString_part (h p List.mem_cons_self)]
    exact afterString_parts r l fun q hq => h q (List.mem_cons_of_mem _ hq)

/-! ### Tokens followed by white space -/

theorem no_space {k : Kind} {s : List Nat} (h : Form k s) (hk : Visible k) (h34 : s.head? ≠ some 34) : ∀ c ∈ s, isSpace c = false := by
  have word : ∀ c, isWordChar c = true → isSpace c = false := by
    intro c; simp [isWordChar, isLetter, isDigit, isSpace]; omega
  have digit : ∀ c, isDigit c = true → isSpace c = false := fun c h => word c (isWordChar_digit h)
  have hex : ∀ c, isHexDigit c = true → isSpace c = false := by
    intro c; simp [isHexDigit, isDigit, isSpace]; omega
  have octal : ∀ c, isOctalDigit c = true → isSpace c = false := by
    intro c; simp [isOctalDigit, isSpace]; omega
  have expo : ∀ e, Exponent e → ∀ c ∈ e, isSpace c = false := by
    rintro e ⟨e, sign, ds, he, hs, hd, hd', rfl⟩ c hc
    rcases List.mem_cons.1 hc with rfl | hc
    · rcases he with rfl | rfl <;> decide
    · rcases List.mem_append.1 hc with hc | hc
      · rcases hs with rfl | rfl | rfl
        · simp at hc
        · rw [List.mem_singleton.1 hc]; decide
        · rw [List.mem_singleton.1 hc]; decide
      · exact digit c (hd' c hc)
  have dbl : ∀ d, Double d → ∀ c ∈ d, isSpace c = false := by
    rintro d (⟨a, e, _, ha, he, rfl⟩ | ⟨a, b, e, _, ha, hb, he, rfl⟩) c hc
    · rcases List.mem_append.1 hc with hc | hc
      · exact digit c (ha c hc)
      · exact expo e he c hc
    · rcases List.mem_append.1 hc with hc | hc
      · exact digit c (ha c hc)
      · rcases List.mem_cons.1 hc with rfl | hc
        · decide
        · rcases List.mem_append.1 hc with hc | hc
          · exact digit c (hb c hc)
          · rcases he with rfl | he
            · simp at hc
            · exact expo e he c hc
  cases k with
  | operator t =>
    obtain ⟨ht, rfl⟩ := h
    have : ∀ t ∈ operators, ∀ c ∈ t, isSpace c = false := by decide +kernel
    exact this s ht
  | keyword t =>
    obtain ⟨ht, rfl⟩ := h
    have : ∀ t ∈ keywords, ∀ c ∈ t, isSpace c = false := by decide +kernel
    exact this s ht
  | space => exact hk.elim
  | docComment => exact hk.elim
  | markdownComment => exact hk.elim
  | blockComment => exact hk.elim
  | lineComment => exact hk.elim
  | invalidString => exact hk.elim
  | bool => rcases h with rfl | rfl <;> decide
  | string => obtain ⟨l, _, rfl⟩ := h; simp at h34
  | binary =>
    obtain ⟨ds, b, _, h2, h3, rfl⟩ := h
    intro c hc
    rcases List.mem_append.1 hc with hc | hc
    · rcases h2 c hc with rfl | rfl <;> decide
    · rw [List.mem_singleton.1 hc]
      rcases h3 with rfl | rfl <;> decide
  | octal =>
    obtain ⟨ds, _, h2, rfl⟩ := h
    intro c hc
    rcases List.mem_cons.1 hc with rfl | hc
    · decide
    · exact octal c (h2 c hc)
  | hexadecimal =>
    obtain ⟨x, ds, h1, _, h2, rfl⟩ := h
    intro c hc
    rcases List.mem_cons.1 hc with rfl | hc
    · decide
    · rcases List.mem_cons.1 hc with rfl | hc
      · rcases h1 with rfl | rfl <;> decide
      · exact hex c (h2 c hc)
  | double => exact dbl s h
  | float =>
    obtain ⟨d, f, h1, h2, rfl⟩ := h
    intro c hc
    rcases List.mem_append.1 hc with hc | hc
    · exact dbl d h1 c hc
    · rw [List.mem_singleton.1 hc]
      rcases h2 with rfl | rfl <;> decide
  | decimal =>
    rcases h with rfl | ⟨d, ds, h1, h2, h3, rfl⟩
    · decide
    · intro c hc
      rcases List.mem_cons.1 hc with rfl | hc
      · exact digit c (by simp [isDigit]; omega)
      · exact digit c (h3 c hc)
  | id =>
    obtain ⟨d, w, h1, h2, rfl⟩ := h
    intro c hc
    rcases List.mem_cons.1 hc with rfl | hc
    · exact word c (isWordChar_letter h1)
    · exact word c (h2 c hc)
  | invalid => exact fun c hc => word c (h.2 c hc)

/-- a token which is visible and begins with `/` is the operator -/
theorem visible_slash {k : Kind} {s : List Nat} (h : Form k (47 :: s)) (hk : Visible k) : s = [] := by
  obtain ⟨d, t, e, hd⟩ := form_head h
  simp only [List.cons.injEq] at e
  obtain ⟨rfl, rfl⟩ := e
  cases k with
  | operator t =>
    obtain ⟨ht, e⟩ := h
    have : ∀ t ∈ operators, t.head? = some 47 → t = [47] := by decide +kernel
    have := this t ht (by rw [← e]; rfl)
    rw [this] at e
    simpa using e
  | space => exact hk.elim
  | docComment => exact hk.elim
  | markdownComment => exact hk.elim
  | blockComment => exact hk.elim
  | lineComment => exact hk.elim
  | invalidString => exact hk.elim
  | _ => simp [headOk, isLetter, isDigit, isWordChar] at hd

/-- a token which is visible and begins with a quote is a string -/
theorem visible_quote {k : Kind} {s : List Nat} (h : Form k (34 :: s)) (hk : Visible k) : k = .string := by
  obtain ⟨d, t, e, hd⟩ := form_head h
  simp only [List.cons.injEq] at e
  obtain ⟨rfl, rfl⟩ := e
  cases k with
  | string => rfl
  | operator t => rw [headOk, operator_head_not 34 (by decide)] at hd; simp at hd
  | space => exact hk.elim
  | docComment => exact hk.elim
  | markdownComment => exact hk.elim
  | blockComment => exact hk.elim
  | lineComment => exact hk.elim
  | invalidString => exact hk.elim
  | _ => simp [headOk, isLetter, isDigit, isWordChar] at hd

theorem isToken_append_space {k : Kind} {s : List Nat} {c : Nat} (rest : List Nat) (hk : Visible k) (h : IsToken s k s) (hc : isSpace c = true) :
    IsToken (s ++ c :: rest) k s := by
  obtain ⟨_, hf, _, hr⟩ := h
  refine ⟨List.prefix_append _ _, hf, ?_, hr⟩
  intro k' s' hs hf'
  by_contra hlt
  obtain ⟨d, t, rfl, hd⟩ := prefix_longer hs (by omega)
  simp only [List.head?_cons, Option.some.injEq] at hd
  subst hd
  obtain ⟨x, u, rfl, hx⟩ := form_head hf
  -- the token which is longer begins with `/` and is a comment
  have comment : ∀ y v, x :: u ++ c :: t = 47 :: y :: v → (isSpace y = false) → False := by
    intro y v e hy
    simp only [List.cons_append, List.cons.injEq] at e
    obtain ⟨rfl, e⟩ := e
    have := visible_slash hf hk
    subst this
    simp only [List.nil_append, List.cons.injEq] at e
    rw [e.1, hy] at hc
    simp at hc
  -- or it begins with a quote
  have quote : ∀ v, x :: u ++ c :: t = 34 :: v → ∃ l : List (List Nat), (∀ p ∈ l, StringChar p) ∧ x = 34 ∧ u = l.flatten ++ [34] := by
    intro v e
    simp only [List.cons_append, List.cons.injEq] at e
    obtain ⟨rfl, e⟩ := e
    have := visible_quote hf hk
    subst this
    obtain ⟨l, hl, e'⟩ := hf
    simp only [List.cons.injEq, true_and] at e'
    exact ⟨l, hl, rfl, e'⟩
  have visible : Visible k' → (x :: u ++ c :: t).head? ≠ some 34 → False := by
    intro hv h34
    have := no_space hf' hv h34 c (by simp)
    rw [this] at hc
    simp at hc
  by_cases h34 : x = 34
  · subst h34
    obtain ⟨l, hl, _, rfl⟩ := quote _ rfl
    obtain ⟨y, v, e, hy⟩ := form_head hf'
    simp only [List.cons_append, List.cons.injEq] at e
    obtain ⟨rfl, _⟩ := e
    cases k' with
    | string =>
      obtain ⟨l', hl', e'⟩ := hf'
      simp only [List.cons_append, List.cons.injEq, true_and, List.append_assoc, List.nil_append] at e'
      have h1 := afterString_parts (c :: t) l hl
      rw [e', afterString_parts [] l' hl'] at h1
      simp at h1
    | invalidString =>
      obtain ⟨body, hb, e' | e'⟩ := hf'
      · simp only [List.cons_append, List.cons.injEq, true_and, List.append_assoc, List.nil_append] at e'
        exact hb 34 (by rw [← e']; simp) rfl
      · simp only [List.cons_append, List.cons.injEq, true_and, List.append_assoc, List.nil_append] at e'
        have e2 := congrArg List.dropLast e'
        rw [List.dropLast_concat] at e2
        apply hb 34 _ rfl
        rw [← e2, List.dropLast_append_of_ne_nil (by simp)]
        simp
    | operator t' => rw [headOk, operator_head_not 34 (by decide)] at hy; simp at hy
    | _ => simp [headOk, isLetter, isDigit, isWordChar, isSpace] at hy
  · have hv : (x :: u ++ c :: t).head? ≠ some 34 := by simpa using h34
    cases k' with
    | space =>
      obtain ⟨z, _, e⟩ := hf'
      have := congrArg List.length e
      simp at this
    | docComment => obtain ⟨b, e, _⟩ := hf'; exact comment _ _ e (by decide)
    | markdownComment => obtain ⟨b, e, _⟩ := hf'; exact comment _ _ e (by decide)
    | blockComment => obtain ⟨b, e, _⟩ := hf'; exact comment _ _ e (by decide)
    | lineComment => obtain ⟨b, _, e⟩ := hf'; exact comment _ _ e (by decide)
    | invalidString =>
      obtain ⟨b, _, e | e⟩ := hf'
      · exact hv (by rw [e]; rfl)
      · exact hv (by rw [e]; rfl)
    | _ => exact visible trivial hv

/-! ### Comments -/

theorem comment_end {o s cs : List Nat} (hs : s <+: cs) (h : Comment o s) :
    commentEnd (cs.drop o.length) = some (s.length - o.length) ∧ o.length + 2 ≤ s.length := by
  obtain ⟨t, rfl⟩ := hs
  obtain ⟨body, rfl, h⟩ := h
  rw [star_slash] at h ⊢
  refine ⟨?_, by simp⟩
  have := commentEnd_of body t h
  simp only [List.append_assoc, List.drop_left, List.length_append, Nat.add_sub_cancel_left]
  simpa using this

/-- the first two characters of tokens which begin with `/` and have more than one character -/
theorem slash_cases {k : Kind} {d : Nat} {s : List Nat} (h : Form k (47 :: d :: s)) :
    (d = 42 ∧ (k = .docComment ∨ k = .markdownComment ∨ k = .blockComment)) ∨ (d = 47 ∧ k = .lineComment) := by
  cases k with
  | docComment => obtain ⟨b, e, _⟩ := h; simp at e; exact .inl ⟨e.1, by simp⟩
  | markdownComment => obtain ⟨b, e, _⟩ := h; simp at e; exact .inl ⟨e.1, by simp⟩
  | blockComment => obtain ⟨b, e, _⟩ := h; simp at e; exact .inl ⟨e.1, by simp⟩
  | lineComment => obtain ⟨b, _, e⟩ := h; simp at e; exact .inr ⟨e.1, rfl⟩
  | space => obtain ⟨c, _, e⟩ := h; simp at e
  | invalidString => obtain ⟨c, _, e | e⟩ := h <;> simp at e
  | _ => exact absurd (visible_slash h trivial) (by simp)

theorem isToken_comment {s : List Nat} (rest : List Nat) (h : Comment (py! "/*") s) (hne : s ≠ py! "/**/") :
    IsToken (s ++ rest) (commentKind s) s := by
  have hend := comment_end (cs := s ++ rest) (List.prefix_append _ _) h
  have h0 := h
  obtain ⟨body, hs, hfirst⟩ := h0
  have hs' : s = 47 :: 42 :: (body ++ [42, 47]) := hs
  -- a comment which begins with three given characters ends at the same place
  have three : ∀ x s', s' <+: s ++ rest → Comment [47, 42, x] s' → s'.length = s.length := by
    intro x s' hs1 hc
    obtain ⟨e1, e2⟩ := comment_end hs1 hc
    obtain ⟨f1, f2⟩ := hend
    have f2' : 4 ≤ s.length := f2
    have e2' : 5 ≤ s'.length := e2
    have f1' : commentEnd ((s ++ rest).drop 2) = some (s.length - 2) := f1
    have e1' : commentEnd ((s ++ rest).drop 3) = some (s'.length - 3) := e1
    cases hd : (s ++ rest).drop 2 with
    | nil => rw [hd] at f1'; simp [commentEnd] at f1'
    | cons a r =>
      have hd3 : (s ++ rest).drop 3 = r := by
        have := congrArg (List.drop 1) hd
        simpa [List.drop_drop] using this
      rw [hd] at f1'
      rw [hd3] at e1'
      cases r with
      | nil => simp [commentEnd] at f1'
      | cons b r =>
        rw [commentEnd] at f1'
        split at f1'
        · next hab =>
          exfalso
          obtain ⟨rfl, rfl⟩ := hab
          injection f1' with f1'
          apply hne
          have hl : body.length = 0 := by
            have := congrArg List.length hs'
            simp at this
            omega
          rw [hs', List.eq_nil_of_length_eq_zero hl]
          rfl
        · rw [e1'] at f1'
          simp only [Option.map_some, Option.some.injEq] at f1'
          omega
  refine ⟨List.prefix_append _ _, ?_, ?_, ?_⟩
  · -- its form
    have form3 : ∀ x b, body = x :: b → Comment [47, 42, x] s := by
      rintro x b rfl
      exact ⟨b, hs', fun body' r e => hfirst (x :: body') r (by
        have e' : b ++ [42, 47] = body' ++ ([42, 47] ++ r) := e
        show x :: (b ++ [42, 47]) = x :: (body' ++ ([42, 47] ++ r))
        rw [e'])⟩
    cases hb : body with
    | nil => exact absurd (by rw [hs', hb]; rfl) hne
    | cons x b =>
      have f := form3 x b hb
      rw [hs', hb] at f ⊢
      simp only [List.cons_append]
      by_cases h42 : x = 42
      · subst h42; exact f
      · by_cases h33 : x = 33
        · subst h33; exact f
        · have : commentKind (47 :: 42 :: x :: (b ++ [42, 47])) = .blockComment := by
            unfold commentKind
            split
            · next e => simp at e; exact absurd e.1 h42
            · next e => simp at e; exact absurd e.1 h33
            · rfl
          rw [this]
          rw [hs', hb] at h
          exact h
  · intro k' s' hs1 hf
    obtain ⟨x, t, rfl, _⟩ := form_head hf
    cases t with
    | nil => rw [hs']; simp
    | cons d t =>
      have e : x = 47 ∧ d = 42 := by
        obtain ⟨u, hu⟩ := hs1
        rw [hs'] at hu
        simp only [List.cons_append, List.cons.injEq] at hu
        exact ⟨hu.1, hu.2.1⟩
      obtain ⟨rfl, rfl⟩ := e
      rcases slash_cases hf with ⟨_, rfl | rfl | rfl⟩ | ⟨h, _⟩
      · exact Nat.le_of_eq (three 42 _ hs1 hf)
      · exact Nat.le_of_eq (three 33 _ hs1 hf)
      · have g := comment_end hs1 hf
        have := g.1.symm.trans hend.1
        simp only [Option.some.injEq] at this
        have g2 := g.2
        have f2 := hend.2
        omega
      · simp at h
  · intro k' hf
    rw [hs'] at hf ⊢
    have hf' := hf
    unfold commentKind
    rcases slash_cases hf with ⟨_, rfl | rfl | rfl⟩ | ⟨h, _⟩
    · obtain ⟨b, e, _⟩ := hf
      simp only [List.cons_append, List.cons.injEq, true_and] at e
      rw [e]
      simp [rank]
    · obtain ⟨b, e, _⟩ := hf
      simp only [List.cons_append, List.cons.injEq, true_and] at e
      rw [e]
      simp [rank]
    · split <;> simp [rank]
    · simp at h

theorem isToken_line {body : List Nat} (rest : List Nat) (h : ∀ c ∈ body, isLineEnd c = false) (hr : ∀ c, rest.head? = some c → isLineEnd c = true) :
    IsToken (py! "//" ++ body ++ rest) .lineComment (py! "//" ++ body) := by
  refine ⟨List.prefix_append _ _, ⟨body, h, rfl⟩, ?_, ?_⟩
  · intro k' s' hs hf
    obtain ⟨x, t, rfl, _⟩ := form_head hf
    cases t with
    | nil => simp
    | cons d t =>
      have e : x = 47 ∧ d = 47 := by
        obtain ⟨u, hu⟩ := hs
        have hu' : x :: d :: (t ++ u) = 47 :: 47 :: (body ++ rest) := by simpa using hu
        simp only [List.cons.injEq] at hu'
        exact ⟨hu'.1, hu'.2.1⟩
      obtain ⟨rfl, rfl⟩ := e
      rcases slash_cases hf with ⟨h, _⟩ | ⟨_, rfl⟩
      · simp at h
      · by_contra hlt
        obtain ⟨c, u, e, hc⟩ := prefix_longer hs (by omega)
        obtain ⟨b, hb, e'⟩ := hf
        rw [e] at e'
        have e2 : body ++ c :: u = b := by simpa using e'
        have := hb c (by rw [← e2]; simp)
        rw [hr c hc] at this
        simp at this
  · intro k' hf
    rcases slash_cases (d := 47) (s := body) hf with ⟨h, _⟩ | ⟨_, rfl⟩
    · simp at h
    · exact Nat.le_refl _

/-! ### Numbers -/

theorem digits_split {a ds : List Nat} {x c : Nat} {y t : List Nat} (e : a ++ x :: y = ds ++ c :: t) (ha : ∀ d ∈ a, isDigit d = true)
    (hd : ∀ d ∈ ds, isDigit d = true) (hx : isDigit x = false) (hc : isDigit c = false) : a = ds ∧ x = c := by
  have key : ∀ (l : List Nat) z r, (∀ d ∈ l, isDigit d = true) → isDigit z = false → (l ++ z :: r).takeWhile isDigit = l := by
    intro l z r hl hz
    rw [List.takeWhile_append_of_pos hl, List.takeWhile_cons]
    simp [hz]
  have h1 := key a x y ha hx
  rw [e, key ds c t hd hc] at h1
  subst h1
  have := List.append_cancel_left e
  simp only [List.cons.injEq] at this
  exact ⟨rfl, this.1⟩

theorem digit_facts {c : Nat} (h : isDigit c = true) :
    isSpace c = false ∧ isLetter c = false ∧ (c == 47) = false ∧ (c == 34) = false ∧ (c == 46) = false ∧ (c == 64) = false := by
  simp [isLetter, isSpace, isDigit] at h ⊢
  omega

/-- the types of tokens which begin with a digit -/
theorem form_digit {k : Kind} {c : Nat} {s : List Nat} (h : Form k (c :: s)) (hc : isDigit c = true) :
    k = .binary ∨ k = .octal ∨ k = .hexadecimal ∨ k = .double ∨ k = .float ∨ k = .decimal ∨ k = .invalid := by
  obtain ⟨d, t, e, hk⟩ := form_head h
  simp only [List.cons.injEq] at e
  obtain ⟨rfl, rfl⟩ := e
  obtain ⟨h1, h2, h3, h4, h5, h6⟩ := digit_facts hc
  cases k <;> simp only [headOk, h1, h2, h3, h4, h5, h6, Bool.or_self, Bool.false_eq_true] at hk <;> try simp
  rw [operator_head_not c (by simp [hc])] at hk
  simp at hk

theorem octal_digit {c : Nat} (h : isOctalDigit c = true) : isDigit c = true := by
  simp [isOctalDigit, isDigit] at h ⊢; omega

theorem hex_word {c : Nat} (h : isHexDigit c = true) : isWordChar c = true := by
  simp [isHexDigit, isWordChar, isLetter, isDigit] at h ⊢; omega

/-- tokens of letters and digits only -/
theorem form_word_chars {k : Kind} {s : List Nat} (h : Form k s) (hk : k = .binary ∨ k = .octal ∨ k = .hexadecimal ∨ k = .decimal ∨ k = .invalid) :
    ∀ c ∈ s, isWordChar c = true := by
  rcases hk with rfl | rfl | rfl | rfl | rfl
  · obtain ⟨ds, b, _, h2, h3, rfl⟩ := h
    intro c hc
    rcases List.mem_append.1 hc with hc | hc
    · rcases h2 c hc with rfl | rfl <;> decide
    · rw [List.mem_singleton.1 hc]
      rcases h3 with rfl | rfl <;> decide
  · obtain ⟨ds, _, h2, rfl⟩ := h
    intro c hc
    rcases List.mem_cons.1 hc with rfl | hc
    · decide
    · exact isWordChar_digit (octal_digit (h2 c hc))
  · obtain ⟨x, ds, h1, _, h2, rfl⟩ := h
    intro c hc
    rcases List.mem_cons.1 hc with rfl | hc
    · decide
    · rcases List.mem_cons.1 hc with rfl | hc
      · rcases h1 with rfl | rfl <;> decide
      · exact hex_word (h2 c hc)
  · rcases h with rfl | ⟨d, ds, h1, h2, h3, rfl⟩
    · decide
    · intro c hc
      rcases List.mem_cons.1 hc with rfl | hc
      · exact isWordChar_digit (by simp [isDigit]; omega)
      · exact isWordChar_digit (h3 c hc)
  · exact h.2

theorem double_or_float_split {k : Kind} {s : List Nat} (h : Form k s) (hk : k = .double ∨ k = .float) :
    ∃ a x y, s = a ++ x :: y ∧ (∀ d ∈ a, isDigit d = true) ∧ (x = ch! 'e' ∨ x = ch! 'E' ∨ x = 46) := by
  rcases hk with rfl | rfl
  · obtain ⟨a, x, y, e, h1, h2, _⟩ := double_split h
    exact ⟨a, x, y, e, h1, h2⟩
  · obtain ⟨d, c, h, _, rfl⟩ := h
    obtain ⟨a, x, y, e, h1, h2, _⟩ := double_split h
    exact ⟨a, x, y ++ [c], by rw [e]; simp, h1, h2⟩

theorem isToken_digits {ds rest : List Nat} (hne : ds ≠ []) (hd : ∀ d ∈ ds, isDigit d = true)
    (hr : ∀ c, rest.head? = some c → isWordChar c = false ∧ c ≠ 46) : IsToken (ds ++ rest) (digitsKind ds) ds := by
  obtain ⟨c, w, rfl⟩ : ∃ c w, ds = c :: w := by
    cases ds with
    | nil => exact absurd rfl hne
    | cons c w => exact ⟨c, w, rfl⟩
  have hc := hd c List.mem_cons_self
  have hc' : 48 ≤ c ∧ c ≤ 57 := by simpa [isDigit] using hc
  have x_not : ∀ x, (x = ch! 'e' ∨ x = ch! 'E' ∨ x = 46) → isDigit x = false := by
    rintro x (rfl | rfl | rfl) <;> decide
  refine ⟨List.prefix_append _ _, ?_, ?_, ?_⟩
  · unfold digitsKind
    split
    · next h =>
      rcases h with h | h
      · refine .inr ⟨c, w, ?_, hc'.2, fun d h => hd d (List.mem_cons_of_mem _ h), rfl⟩
        simp at h
        omega
      · exact .inl h
    · next h =>
      split
      · next ho =>
        have : c = 48 := by
          by_contra hn
          exact h (.inl (by simpa using hn))
        subst this
        refine ⟨w, ?_, fun d hm => ho d (List.mem_cons_of_mem _ hm), rfl⟩
        rintro rfl
        exact h (.inr rfl)
      · exact ⟨by simp, fun d hm => isWordChar_digit (hd d hm)⟩
  · intro k' s' hs hf
    by_contra hlt
    obtain ⟨z, t, rfl, hz⟩ := prefix_longer hs (by omega)
    obtain ⟨r1, r2⟩ := hr z hz
    have hzd : isDigit z = false := by
      simp only [isWordChar, Bool.or_eq_false_iff] at r1
      exact r1.2
    have hw : ¬ (k' = .binary ∨ k' = .octal ∨ k' = .hexadecimal ∨ k' = .decimal ∨ k' = .invalid) := by
      intro h
      have := form_word_chars hf h z (by simp)
      rw [r1] at this
      simp at this
    have hdf : ¬ (k' = .double ∨ k' = .float) := by
      intro h
      obtain ⟨a, x, y, e, ha, hx⟩ := double_or_float_split hf h
      obtain ⟨_, rfl⟩ := digits_split e.symm ha hd (x_not x hx) hzd
      rcases hx with rfl | rfl | rfl
      · revert r1; decide
      · revert r1; decide
      · exact r2 rfl
    rcases form_digit (k := k') (c := c) (s := w ++ z :: t) hf hc with h | h | h | h | h | h | h
    · exact hw (by simp [h])
    · exact hw (by simp [h])
    · exact hw (by simp [h])
    · exact hdf (by simp [h])
    · exact hdf (by simp [h])
    · exact hw (by simp [h])
    · exact hw (by simp [h])
  · intro k' hf
    have no_df : ¬ (k' = .double ∨ k' = .float) := by
      intro h
      obtain ⟨a, x, y, e, ha, hx⟩ := double_or_float_split hf h
      have := hd x (by rw [e]; simp)
      rw [x_not x hx] at this
      simp at this
    have no_bin : k' ≠ .binary := by
      rintro rfl
      obtain ⟨l, b, _, _, h3, e⟩ := hf
      have := hd b (by rw [e]; simp)
      rcases h3 with rfl | rfl <;> revert this <;> decide
    have no_hex : k' ≠ .hexadecimal := by
      rintro rfl
      obtain ⟨x, l, h1, _, _, e⟩ := hf
      have := hd x (by rw [e]; simp)
      rcases h1 with rfl | rfl <;> revert this <;> decide
    have cases' : k' = .octal ∨ k' = .decimal ∨ k' = .invalid := by
      rcases form_digit hf hc with h | h | h | h | h | h | h
      · exact absurd h no_bin
      · exact .inl h
      · exact absurd h no_hex
      · exact absurd (.inl h) no_df
      · exact absurd (.inr h) no_df
      · exact .inr (.inl h)
      · exact .inr (.inr h)
    unfold digitsKind
    split
    · next h =>
      rcases cases' with rfl | rfl | rfl
      · exfalso
        obtain ⟨l, hl, _, e⟩ := hf
        simp only [List.cons.injEq] at e
        obtain ⟨rfl, rfl⟩ := e
        rcases h with h | h
        · simp at h
        · simp at h; exact hl h
      · simp [rank]
      · simp [rank]
    · next h =>
      rcases cases' with rfl | rfl | rfl
      · obtain ⟨l, hl, ho, e⟩ := hf
        rw [if_pos]
        intro d hm
        rw [e] at hm
        rcases List.mem_cons.1 hm with rfl | hm
        · decide
        · exact ho d hm
      · exfalso
        apply h
        rcases hf with h | ⟨x, l, h1, h2, _, e⟩
        · exact .inr h
        · simp only [List.cons.injEq] at e
          left
          simp
          omega
      · split <;> simp [rank]

/-! ### Lists of tokens -/

theorem lexLoop_fuel : (n : Nat) → (cs : List Nat) → cs.length ≤ n → (f : Nat) → cs.length ≤ f → lexLoop f cs = lexLoop cs.length cs
  | _, [], _, f, _ => by cases f <;> simp [lexLoop]
  | 0, c :: cs, h, _, _ => by simp at h
  | n + 1, c :: cs, h, f, hf => by
    cases f with
    | zero => simp at hf
    | succ f =>
      simp only [List.length_cons] at h hf ⊢
      rw [lexLoop, lexLoop]
      cases e : token (c :: cs) with
      | none => rfl
      | some p =>
        obtain ⟨k, m⟩ := p
        obtain ⟨h1, h2⟩ := isToken_of_token e
        have hm : m ≠ 0 := by
          rintro rfl
          exact form_ne_nil h2.2.1 (by simp)
        have hl : ((c :: cs).drop m).length ≤ cs.length := by simp; omega
        simp only
        rw [lexLoop_fuel n _ (by omega) f (by omega), lexLoop_fuel n _ (by omega) cs.length hl]

theorem lex_cons {k : Kind} {s rest : List Nat} (h : IsToken (s ++ rest) k s) : lex (s ++ rest) = (lex rest).map ((k, s) :: ·) := by
  obtain ⟨c, t, rfl, _⟩ := form_head h.2.1
  have ht := token_of_isToken h
  simp only [lex, List.cons_append, List.length_cons] at ht ⊢
  rw [lexLoop, ht]
  simp only
  have e1 : (c :: (t ++ rest)).drop (t.length + 1) = rest := by simp
  have e2 : (c :: (t ++ rest)).take (t.length + 1) = c :: t := by simp
  rw [e1, e2, lexLoop_fuel rest.length rest (Nat.le_refl _) _ (by simp)]

theorem lex_nil : lex [] = some [] := by simp [lex, lexLoop]

theorem tokens_visible {k : Kind} {s rest : List Nat} (h : IsToken (s ++ rest) k s) (hk : isHidden k = false) :
    tokens (s ++ rest) = (tokens rest).map ((k, s) :: ·) := by
  rw [tokens, lex_cons h, tokens]
  cases lex rest <;> simp [hk]

theorem tokens_hidden {k : Kind} {s rest : List Nat} (h : IsToken (s ++ rest) k s) (hk : isHidden k = true) : tokens (s ++ rest) = tokens rest := by
  rw [tokens, lex_cons h, tokens]
  cases lex rest <;> simp [hk]

theorem visible_not_hidden {k : Kind} (h : Visible k) : isHidden k = false := by
  cases k <;> first | rfl | exact h.elim

theorem wordKind_visible (s : List Nat) : isHidden (wordKind s) = false := by
  unfold wordKind
  split
  · rfl
  · split <;> rfl

theorem lineEnd_space {c : Nat} (h : isLineEnd c = true) : isSpace c = true := by
  simp [isLineEnd, isSpace] at h ⊢
  omega

theorem tokens_blank {s : List Nat} (rest : List Nat) (h : Blank s) : tokens (s ++ rest) = tokens rest := by
  rcases h with ⟨c, hc, rfl⟩ | ⟨hc, hne⟩ | ⟨body, c, hb, hc, rfl⟩
  · exact tokens_hidden (isToken_space hc) rfl
  · refine tokens_hidden (isToken_comment rest hc hne) ?_
    unfold commentKind
    split <;> rfl
  · have h1 := isToken_line (c :: rest) hb (by intro d hd; simp at hd; rw [← hd]; exact hc)
    have := tokens_hidden h1 rfl
    rw [show (py! "//" ++ (body ++ [c])) ++ rest = py! "//" ++ body ++ c :: rest by simp, this]
    exact tokens_hidden (s := [c]) (isToken_space (lineEnd_space hc)) rfl

theorem tokens_layout {ts : List (Kind × List Nat)} {text : List Nat} (h : Layout ts text) : tokens text = some ts := by
  induction h with
  | nil => simp [tokens, lex_nil]
  | @last k s hk h =>
    have := tokens_visible (rest := []) (by simpa using h) (visible_not_hidden hk)
    simpa [tokens, lex_nil] using this
  | @cons k s c ts rest hk h hc _ ih =>
    rw [tokens_visible (isToken_append_space _ hk h hc) (visible_not_hidden hk)]
    have := tokens_hidden (s := [c]) (rest := rest) (isToken_space hc) rfl
    rw [List.singleton_append] at this
    rw [this, ih]
    rfl
  | word hw hr _ ih =>
    rw [tokens_visible (isToken_word hw hr) (wordKind_visible _), ih]
    rfl
  | @single c ts rest hc _ ih =>
    have := tokens_visible (s := [c]) (isToken_single (rest := rest) hc) rfl
    rw [List.singleton_append] at this
    rw [this, ih]
    rfl
  | blank hb _ ih => rw [tokens_blank _ hb, ih]

end Zserio.Lexer
