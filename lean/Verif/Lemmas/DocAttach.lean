import Verif.Spec.DocAttach
set_option linter.unusedSimpArgs false
namespace Zserio.DocAttach

open Lexer (Kind)

/-! ### Comments before a token -/

theorem afterPrevious_le (ts : List Tok) : (i : Nat) → afterPrevious ts i ≤ i
  | 0 => Nat.le_refl _
  | n + 1 => by
    unfold afterPrevious
    split
    · exact Nat.le_refl _
    · exact Nat.le_succ_of_le (afterPrevious_le ts n)

theorem afterPrevious_hidden (ts : List Tok) : (i : Nat) → ∀ j, afterPrevious ts i ≤ j → j < i → holds Tok.isVisible ts j = false
  | 0 => by intro j _ h; omega
  | n + 1 => by
    intro j h1 h2
    unfold afterPrevious at h1
    split at h1
    · omega
    · next hv =>
      by_cases e : j = n
      · subst e; simpa using hv
      · exact afterPrevious_hidden ts n j h1 (by omega)

theorem afterPrevious_visible (ts : List Tok) : (i : Nat) → afterPrevious ts i = 0 ∨ holds Tok.isVisible ts (afterPrevious ts i - 1) = true
  | 0 => .inl rfl
  | n + 1 => by
    unfold afterPrevious
    split
    · next hv => exact .inr hv
    · exact afterPrevious_visible ts n

theorem holds_visible {ts : List Tok} {j : Nat} : holds Tok.isVisible ts j = false ↔ ∀ t, ts[j]? = some t → ∃ kind, t.kind = some kind ∧ Lexer.isHidden kind = true := by
  unfold holds
  cases h : ts[j]? with
  | none => simp
  | some t =>
    simp only [Option.some.injEq, forall_eq', Tok.isVisible]
    cases t.kind <;> simp

theorem holds_doc {ts : List Tok} {k : Nat} : holds Tok.isDoc ts k = true ↔ ∃ t, ts[k]? = some t ∧ (t.kind = some .docComment ∨ t.kind = some .markdownComment) := by
  unfold holds
  cases h : ts[k]? with
  | none => simp
  | some t =>
    simp only [Option.some.injEq, exists_eq_left', Tok.isDoc]
    split <;> simp_all

theorem doc_hidden {ts : List Tok} {k : Nat} (h : holds Tok.isDoc ts k = true) : holds Tok.isVisible ts k = false := by
  rw [holds_visible]
  obtain ⟨t, ht, h | h⟩ := holds_doc.1 h
  · intro t' ht'; rw [ht] at ht'; cases ht'; exact ⟨_, h, rfl⟩
  · intro t' ht'; rw [ht] at ht'; cases ht'; exact ⟨_, h, rfl⟩

theorem mem_drop_range {n p k : Nat} : k ∈ (List.range n).drop p ↔ p ≤ k ∧ k < n := by
  rw [List.mem_iff_getElem?]
  simp only [List.getElem?_drop, List.getElem?_eq_some_iff, List.length_range, List.getElem_range]
  constructor
  · rintro ⟨i, h, rfl⟩; omega
  · rintro ⟨h1, h2⟩; exact ⟨k - p, by omega, by omega⟩

theorem mem_hidden {ts : List Tok} {k i : Nat} : k ∈ hiddenToLeft ts i ↔ Attached ts k i := by
  unfold hiddenToLeft Attached
  rw [List.mem_filter, mem_drop_range, ← holds_doc]
  have hj : (∀ j t, k < j → j < i → ts[j]? = some t → ∃ kind, t.kind = some kind ∧ Lexer.isHidden kind = true) ↔
      ∀ j, k < j → j < i → holds Tok.isVisible ts j = false := by
    simp only [holds_visible]
    exact ⟨fun h j h1 h2 t => h j t h1 h2, fun h j t h1 h2 => h j h1 h2 t⟩
  rw [hj]
  constructor
  · rintro ⟨⟨h1, h2⟩, h3⟩
    exact ⟨h2, h3, fun j h4 h5 => afterPrevious_hidden ts i j (by omega) h5⟩
  · rintro ⟨h1, h2, h3⟩
    refine ⟨⟨?_, h1⟩, h2⟩
    by_contra h
    have hle := afterPrevious_le ts i
    rcases afterPrevious_visible ts i with h0 | hv
    · omega
    · by_cases e : afterPrevious ts i - 1 = k
      · rw [e, doc_hidden h2] at hv
        cases hv
      · rw [h3 _ (by omega) (by omega)] at hv
        cases hv

theorem sorted_hidden (ts : List Tok) (i : Nat) : (hiddenToLeft ts i).Pairwise (· < ·) :=
  (List.pairwise_lt_range.sublist (List.drop_sublist _ _)).sublist List.filter_sublist

theorem collect_fst (ts : List Tok) (parses : Nat → Bool) (i : Nat) : (l : List Nat) → (collect ts parses i l).map Prod.fst = l.filter parses
  | [] => rfl
  | k :: rest => by
    unfold collect
    by_cases h : parses k = true
    · simp [h, collect_fst ts parses i rest]
    · simp [h, collect_fst ts parses i rest]

theorem collect_flag {ts : List Tok} {parses : Nat → Bool} {i k : Nat} {s : Bool} : (l : List Nat) → l.Pairwise (· < ·) → (∀ j ∈ l, j < i) →
    (k, s) ∈ collect ts parses i l → ∃ n, k < n ∧ (n = i ∨ n ∈ l) ∧ (∀ j, k < j → j < n → j ∉ l) ∧ s = isSticky ts k n
  | [], _, _, h => by simp [collect] at h
  | k' :: rest, hp, hi, h => by
    rw [List.pairwise_cons] at hp
    have hrest : (k, s) ∈ collect ts parses i rest → ∃ n, k < n ∧ (n = i ∨ n ∈ k' :: rest) ∧ (∀ j, k < j → j < n → j ∉ k' :: rest) ∧ s = isSticky ts k n := by
      intro h
      obtain ⟨n, h1, h2, h3, h4⟩ := collect_flag rest hp.2 (fun j hj => hi j (List.mem_cons_of_mem _ hj)) h
      have hk : k ∈ rest := by
        have : k ∈ (collect ts parses i rest).map Prod.fst := List.mem_map.2 ⟨_, h, rfl⟩
        rw [collect_fst] at this
        exact (List.mem_filter.1 this).1
      have := hp.1 k hk
      refine ⟨n, h1, h2.imp_right (List.mem_cons_of_mem _), fun j h5 h6 h7 => ?_, h4⟩
      rcases List.mem_cons.1 h7 with rfl | h7
      · omega
      · exact h3 j h5 h6 h7
    unfold collect at h
    by_cases hpk : parses k' = true
    · simp only [hpk, if_true, List.mem_cons, Prod.mk.injEq] at h
      rcases h with ⟨rfl, rfl⟩ | h
      · cases rest with
        | nil =>
          refine ⟨i, hi k List.mem_cons_self, .inl rfl, fun j h1 _ h3 => ?_, rfl⟩
          rcases List.mem_cons.1 h3 with rfl | h3
          · omega
          · simp at h3
        | cons k2 rest =>
          refine ⟨k2, hp.1 k2 List.mem_cons_self, .inr (by simp), fun j h1 h2 h3 => ?_, rfl⟩
          rcases List.mem_cons.1 h3 with rfl | h3
          · omega
          · rcases List.mem_cons.1 h3 with rfl | h3
            · omega
            · have := (List.pairwise_cons.1 hp.2).1 j h3
              omega
      · exact hrest h
    · simp only [hpk, if_false] at h
      exact hrest (by simpa using h)

theorem takeWhile_sorted {l : List (Nat × Bool)} (h : (l.map Prod.fst).Pairwise (· < ·)) (x : Nat × Bool) :
    x ∈ written l ↔ x ∈ l ∧ ∀ y ∈ l, x.1 ≤ y.1 → y.2 = true := by
  unfold written
  rw [List.mem_reverse]
  have hr : (l.reverse.map Prod.fst).Pairwise (· > ·) := by
    rw [List.map_reverse, List.pairwise_reverse]
    exact h
  have hm : ∀ y, y ∈ l ↔ y ∈ l.reverse := by simp
  simp only [hm]
  generalize l.reverse = r at hr
  clear h hm
  revert hr
  induction r with
  | nil => intro _; simp
  | cons a r ih =>
    intro hr
    simp only [List.map_cons, List.pairwise_cons] at hr
    have ha : ∀ y ∈ r, y.1 < a.1 := fun y hy => hr.1 y.1 (List.mem_map.2 ⟨y, hy, rfl⟩)
    by_cases hf : a.2 = true
    · have ih := ih hr.2
      rw [List.takeWhile_cons_of_pos hf, List.mem_cons]
      constructor
      · rintro (rfl | hin)
        · refine ⟨List.mem_cons_self, fun y hy hle => ?_⟩
          rcases List.mem_cons.1 hy with rfl | hy
          · exact hf
          · have := ha y hy; omega
        · obtain ⟨h1, h2⟩ := ih.1 hin
          refine ⟨List.mem_cons_of_mem _ h1, fun y hy hle => ?_⟩
          rcases List.mem_cons.1 hy with rfl | hy
          · exact hf
          · exact h2 y hy hle
      · rintro ⟨h1, h2⟩
        rcases List.mem_cons.1 h1 with rfl | h1
        · exact .inl rfl
        · exact .inr (ih.2 ⟨h1, fun y hy => h2 y (List.mem_cons_of_mem _ hy)⟩)
    · rw [List.takeWhile_cons_of_neg (by simpa using hf)]
      simp only [List.not_mem_nil, false_iff, not_and]
      intro h1 h2
      refine hf (h2 a List.mem_cons_self ?_)
      rcases List.mem_cons.1 h1 with rfl | h1
      · exact Nat.le_refl _
      · exact Nat.le_of_lt (ha x h1)

/-! ### Lines -/

theorem newlines_append (a b : List Nat) : newlines (a ++ b) = newlines a + newlines b := List.count_append

/-- the line of what comes behind the tokens `l` -/
theorem place_at : (l c : List (Kind × List Nat)) → (line : Nat) → (∀ y, c.head? = some y → y.1 ≠ .space) →
    ∃ t, (place line (l ++ c))[position l]? = some t ∧ t.line = line + newlines (l.map Prod.snd).flatten ∧
      ∀ y, c.head? = some y → t = ⟨some y.1, y.2, line + newlines (l.map Prod.snd).flatten⟩
  | [], c, line, hc => by
    cases c with
    | nil => exact ⟨⟨none, [], line⟩, by simp [place, position], by simp [newlines], by simp⟩
    | cons y c =>
      obtain ⟨k, s⟩ := y
      have hk : k ≠ .space := hc _ rfl
      exact ⟨⟨some k, s, line⟩, by simp [place, position, hk], by simp [newlines], by simp [newlines]⟩
  | (k, s) :: l, c, line, hc => by
    obtain ⟨t, h1, h2, h3⟩ := place_at l c (line + newlines s) hc
    have e : line + newlines (((k, s) :: l).map Prod.snd).flatten = line + newlines s + newlines (l.map Prod.snd).flatten := by
      simp only [List.map_cons, List.flatten_cons, newlines_append]
      omega
    rw [e]
    refine ⟨t, ?_, h2, h3⟩
    by_cases hk : k = .space
    · simp only [List.cons_append, place, hk, if_true, position, List.filter_cons, ne_eq, not_true, decide_false, Bool.false_eq_true, if_false]
      exact h1
    · simp only [List.cons_append, place, hk, if_false, position, List.filter_cons, ne_eq, not_false_eq_true, decide_true, if_true, List.length_cons,
        List.getElem?_cons_succ]
      exact h1

theorem pieces_ne (s : List Nat) : pieces s ≠ [] := by
  cases s with
  | nil => simp [pieces]
  | cons c s =>
    unfold pieces
    split
    · simp
    · split <;> simp

theorem pieces_length (s : List Nat) : (pieces s).length = newlines s + 1 := by
  induction s with
  | nil => rfl
  | cons c s ih =>
    unfold newlines at *
    unfold pieces
    by_cases h : c = 10
    · subst h
      simp [ih]
    · rw [if_neg h]
      split
      · next e => exact absurd e (pieces_ne s)
      · next l ls e =>
        rw [e] at ih
        simpa [h] using ih

theorem pieces_last (s : List Nat) (c : Nat) (hc : c ≠ 10) : ∃ ls l, pieces (s ++ [c]) = ls ++ [l ++ [c]] := by
  induction s with
  | nil => exact ⟨[], [], by simp [pieces, hc]⟩
  | cons d s ih =>
    obtain ⟨ls, l, h⟩ := ih
    rw [List.cons_append]
    unfold pieces
    by_cases hd : d = 10
    · rw [if_pos hd, h]
      exact ⟨[] :: ls, l, rfl⟩
    · rw [if_neg hd, h]
      cases ls with
      | nil => exact ⟨[], d :: l, rfl⟩
      | cons a ls => exact ⟨(d :: a) :: ls, l, rfl⟩

theorem dropWhile_last (ls : List (List Nat)) (l : List Nat) (h : l ≠ []) : ((ls ++ [l]).reverse.dropWhile (· == [])).reverse = ls ++ [l] := by
  have : l.isEmpty = false := by simpa using h
  simp [List.dropWhile, this]

theorem splitLines_last (s : List Nat) (c : Nat) (hc : c ≠ 10) : splitLines (s ++ [c]) = pieces (s ++ [c]) := by
  unfold splitLines
  split
  · obtain ⟨ls, l, h⟩ := pieces_last s c hc
    rw [h, dropWhile_last _ _ (by simp)]
  · next h =>
    generalize s ++ [c] = t at h
    induction t with
    | nil => rfl
    | cons a t ih =>
      simp only [List.mem_cons, not_or] at h
      unfold pieces
      rw [if_neg fun e => h.1 e.symm, ← ih h.2]

theorem splitLines_length (s : List Nat) (c : Nat) (hc : c ≠ 10) : (splitLines (s ++ [c])).length = newlines (s ++ [c]) + 1 := by
  rw [splitLines_last s c hc, pieces_length]

theorem pieces_append (l rest : List Nat) (h : 10 ∉ l) : pieces (l ++ 10 :: rest) = l :: pieces rest := by
  induction l with
  | nil => simp [pieces]
  | cons c l ih =>
    simp only [List.mem_cons, not_or] at h
    rw [List.cons_append, pieces, if_neg fun e => h.1 e.symm, ih h.2]

theorem pieces_self (l : List Nat) (h : 10 ∉ l) : pieces l = [l] := by
  induction l with
  | nil => rfl
  | cons c l ih =>
    simp only [List.mem_cons, not_or] at h
    rw [pieces, if_neg fun e => h.1 e.symm, ih h.2]

theorem unlines_cons (l : List Nat) (m : List Nat) (ls : List (List Nat)) : unlines (l :: m :: ls) = l ++ 10 :: unlines (m :: ls) := by
  simp [unlines, List.intercalate, List.intersperse]

theorem unlines_single (l : List Nat) : unlines [l] = l := by simp [unlines, List.intercalate]

theorem pieces_unlines : (ls : List (List Nat)) → ls ≠ [] → (∀ l ∈ ls, 10 ∉ l) → pieces (unlines ls) = ls
  | [], h, _ => absurd rfl h
  | [l], _, h => by rw [unlines_single]; exact pieces_self l (h l (by simp))
  | l :: m :: ls, _, h => by
    rw [unlines_cons, pieces_append l _ (h l (by simp)), pieces_unlines (m :: ls) (by simp) fun x hx => h x (List.mem_cons_of_mem _ hx)]

theorem unlines_append_last : (ls : List (List Nat)) → (l e : List Nat) → unlines (ls ++ [l ++ e]) = unlines (ls ++ [l]) ++ e
  | [], l, e => by simp [unlines_single]
  | [a], l, e => by simp [unlines_cons, unlines_single]
  | a :: b :: ls, l, e => by
    have := unlines_append_last (b :: ls) l e
    simp only [List.cons_append] at this ⊢
    rw [unlines_cons, unlines_cons, this]
    simp

/-! ### Markdown -/

theorem strip_fuel (ind : List Nat) (hi : ind ≠ []) : (f g : Nat) → (s : List Nat) → (p : Option Nat) → s.length ≤ f → s.length ≤ g →
    stripIndent ind f p s = stripIndent ind g p s
  | f, g, [], p, _, _ => by cases f <;> cases g <;> rfl
  | 0, _, c :: cs, _, h, _ => by simp at h
  | _ + 1, 0, c :: cs, _, _, h => by simp at h
  | f + 1, g + 1, c :: cs, p, hf, hg => by
    have hl : 0 < ind.length := List.length_pos_iff.2 hi
    simp only [List.length_cons] at hf hg
    unfold stripIndent
    rw [strip_fuel ind hi f g ((c :: cs).drop ind.length) ind.getLast? (by simp; omega) (by simp; omega),
      strip_fuel ind hi f g cs (some c) (by omega) (by omega)]

/-- the text without the indentation, without a bound -/
def strip (ind : List Nat) (p : Option Nat) (s : List Nat) : List Nat := stripIndent ind s.length p s

theorem strip_cons (ind : List Nat) (hi : ind ≠ []) (p : Option Nat) (c : Nat) (cs : List Nat) : strip ind p (c :: cs) =
    if lineStart p c ∧ ind.isPrefixOf (c :: cs) then strip ind ind.getLast? ((c :: cs).drop ind.length) else c :: strip ind (some c) cs := by
  have hl : 0 < ind.length := List.length_pos_iff.2 hi
  conv_lhs => unfold strip
  rw [List.length_cons, stripIndent]
  unfold strip
  rw [strip_fuel ind hi cs.length ((c :: cs).drop ind.length).length _ _ (by simp; omega) (Nat.le_refl _)]

theorem strip_nil (ind : List Nat) (p : Option Nat) : strip ind p [] = [] := rfl

theorem oneLine_cons {c : Nat} {l : List Nat} : OneLine (c :: l) ↔ terminator c = false ∧ OneLine l := by
  simp [OneLine, terminator, not_or]

theorem strip_inline (ind : List Nat) (hi : ind ≠ []) : (l rest : List Nat) → (p : Nat) → terminator p = false → OneLine l →
    ∃ q, terminator q = false ∧ strip ind (some p) (l ++ rest) = l ++ strip ind (some q) rest
  | [], rest, p, hp, _ => ⟨p, hp, rfl⟩
  | c :: l, rest, p, hp, hl => by
    rw [oneLine_cons] at hl
    obtain ⟨q, hq, h⟩ := strip_inline ind hi l rest c hl.1 hl.2
    refine ⟨q, hq, ?_⟩
    rw [List.cons_append, strip_cons ind hi, if_neg (by simp [lineStart, hp]), h]
    rfl

theorem strip_newline (ind : List Nat) (hi : ind ≠ []) (p : Nat) (hp : terminator p = false) (rest : List Nat) :
    strip ind (some p) (10 :: rest) = 10 :: strip ind (some 10) rest := by
  rw [strip_cons ind hi, if_neg (by simp [lineStart, hp])]

/-- the lines of an indented comment -/
theorem strip_lines (ind : List Nat) (hi : ind ≠ []) (hb : ∀ c ∈ ind, blank c = true) {raw shown : List (List Nat)} (h : List.Forall₂ (Line ind) raw shown)
    (ho : ∀ l ∈ shown, OneLine l) : strip ind (some 10) (unlines raw) = unlines shown := by
  obtain ⟨b, ind', rfl⟩ := List.exists_cons_of_ne_nil hi
  have hbb := hb b (by simp)
  have hb10 : b ≠ 10 := by rintro rfl; simp [blank] at hbb
  have hlast : ∃ q, (b :: ind').getLast? = some q ∧ terminator q = false := by
    refine ⟨(b :: ind').getLast (by simp), List.getLast?_eq_some_getLast _, ?_⟩
    have := hb _ (List.getLast_mem (l := b :: ind') (by simp))
    simp only [blank, decide_eq_true_eq] at this
    rcases this with e | e <;> simp [e, terminator]
  obtain ⟨q, hq, hqt⟩ := hlast
  have one : ∀ (r s rest : List Nat), Line (b :: ind') r s → OneLine s → (rest = [] ∨ ∃ t, rest = 10 :: t) →
      strip (b :: ind') (some 10) (r ++ rest) = s ++ (if rest = [] then [] else 10 :: strip (b :: ind') (some 10) rest.tail) := by
    intro r s rest hl hs hr
    rcases hl with ⟨rfl, rfl⟩ | rfl
    · rcases hr with rfl | ⟨t, rfl⟩
      · rfl
      · rw [List.nil_append, strip_cons _ hi, if_neg]
        · simp
        · rintro ⟨_, hp⟩
          simp only [List.isPrefixOf, Bool.and_eq_true, beq_iff_eq] at hp
          exact hb10 hp.1
    · have e : (b :: ind') ++ s ++ rest = b :: (ind' ++ (s ++ rest)) := by simp
      rw [e, strip_cons _ hi, if_pos, hq]
      · have : (b :: (ind' ++ (s ++ rest))).drop (b :: ind').length = s ++ rest := by simp
        rw [this]
        obtain ⟨q', hq', h⟩ := strip_inline _ hi s rest q hqt hs
        rw [h]
        rcases hr with rfl | ⟨t, rfl⟩
        · rfl
        · rw [strip_newline _ hi q' hq']
          simp
      · refine ⟨by simp [lineStart, terminator], ?_⟩
        rw [List.isPrefixOf_iff_prefix]
        exact ⟨s ++ rest, by simp⟩
  induction h with
  | nil => rfl
  | @cons r s raw shown hl hrest ih =>
    have hs := ho s (by simp)
    have ih := ih fun l hl => ho l (List.mem_cons_of_mem _ hl)
    cases hrest with
    | nil =>
      have h := one r s [] hl hs (.inl rfl)
      simp only [List.append_nil, if_true] at h
      rw [unlines_single, unlines_single, h]
    | @cons r' s' raw shown h1 h2 =>
      have h := one r s (10 :: unlines (r' :: raw)) hl hs (.inr ⟨_, rfl⟩)
      rw [unlines_cons, unlines_cons, h, if_neg (by simp), List.tail_cons, ih]

theorem firstLineIndent_eq (ind : List Nat) (hb : ∀ c ∈ ind, blank c = true) {raw shown : List (List Nat)} (h : List.Forall₂ (Line ind) raw shown)
    (hne : ∃ l ∈ raw, l ≠ []) : firstLineIndent ind.length raw = ind := by
  induction h with
  | nil => simp at hne
  | @cons r s raw shown hl _ ih =>
    unfold firstLineIndent
    by_cases hr : r = []
    · rw [if_pos hr]
      refine ih ?_
      obtain ⟨l, hl, h⟩ := hne
      rcases List.mem_cons.1 hl with rfl | hl
      · exact absurd hr h
      · exact ⟨l, hl, h⟩
    · rw [if_neg hr]
      rcases hl with ⟨rfl, _⟩ | rfl
      · exact absurd rfl hr
      · rw [if_pos]
        · simp
        · refine ⟨by simp, ?_⟩
          rw [List.take_left, List.all_eq_true]
          exact hb

theorem linesIndented_eq (ind : List Nat) {raw shown : List (List Nat)} (h : List.Forall₂ (Line ind) raw shown) : linesIndented ind raw = true := by
  unfold linesIndented
  rw [List.all_eq_true]
  intro l hl
  induction h with
  | nil => simp at hl
  | cons h _ ih =>
    rcases List.mem_cons.1 hl with rfl | hl
    · rcases h with ⟨rfl, _⟩ | rfl
      · rfl
      · simp
    · exact ih hl

end Zserio.DocAttach
