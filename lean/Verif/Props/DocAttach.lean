import Verif.Lemmas.DocAttach
import Verif.Props.Lexer
/-
C109: documentation comments belong to the declaration which they precede.
-/
set_option linter.unusedSimpArgs false
namespace Zserio.DocAttach

open Lexer (Kind)

/-- C109: the comments found before a token are exactly the documentation comments between it and the token before it, in their order (without those
which cannot be parsed). -/
theorem C109_attached (ts : List Tok) (parses : Nat → Bool) (i : Nat) :
    ((findBefore ts parses i).map Prod.fst).Pairwise (· < ·) ∧
      ∀ k, k ∈ (findBefore ts parses i).map Prod.fst ↔ Attached ts k i ∧ parses k = true := by
  unfold findBefore
  rw [collect_fst]
  refine ⟨(sorted_hidden ts i).sublist List.filter_sublist, fun k => ?_⟩
  rw [List.mem_filter, mem_hidden]

/-- C109: no comment belongs to two declarations: declarations begin with tokens which are seen by the parser. -/
theorem C109_owner (ts : List Tok) (k i i' : Nat) (hi : holds Tok.isVisible ts i = true) (hi' : holds Tok.isVisible ts i' = true)
    (h : Attached ts k i) (h' : Attached ts k i') : i = i' := by
  have key : ∀ {a b : Nat}, holds Tok.isVisible ts a = true → Attached ts k a → Attached ts k b → ¬ a < b := by
    intro a b ha h1 h2 hlt
    have := holds_visible.2 fun t => h2.2.2 a t h1.1 hlt
    rw [ha] at this
    cases this
  have h1 := key hi h h'
  have h2 := key hi' h' h
  omega

/-- C109: the compiler warns about a documentation comment exactly if it belongs to no declaration. -/
theorem C109_unused (ts : List Tok) (starts : List Nat) (k : Nat) :
    k ∈ unused ts starts ↔ (∃ t, ts[k]? = some t ∧ (t.kind = some .docComment ∨ t.kind = some .markdownComment)) ∧ ∀ i ∈ starts, ¬ Attached ts k i := by
  unfold unused usedComments
  rw [List.mem_filter, ← holds_doc]
  simp only [List.mem_range, Bool.and_eq_true, Bool.not_eq_true', List.contains_eq_mem, decide_eq_false_iff_not, List.mem_flatMap, mem_hidden,
    not_exists, not_and]
  constructor
  · rintro ⟨_, h1, h2⟩; exact ⟨h1, h2⟩
  · rintro ⟨h1, h2⟩
    refine ⟨?_, h1, h2⟩
    obtain ⟨t, ht, _⟩ := holds_doc.1 h1
    exact (List.getElem?_eq_some_iff.1 ht).1

/-- C109: which comments of a declaration are written to generated code: those which are followed only by comments which stick to what comes next. -/
theorem C109_written (ts : List Tok) (parses : Nat → Bool) (starts : List Nat) (hs : starts.Pairwise (· < ·))
    (hv : ∀ i ∈ starts, holds Tok.isVisible ts i = true) (k : Nat) (s : Bool) :
    (k, s) ∈ written (nodeComments ts parses starts) ↔
      (∃ i ∈ starts, (k, s) ∈ findBefore ts parses i) ∧ ∀ i ∈ starts, ∀ k' s', (k', s') ∈ findBefore ts parses i → k ≤ k' → s' = true := by
  have hsorted : ((nodeComments ts parses starts).map Prod.fst).Pairwise (· < ·) := by
    unfold nodeComments
    induction starts with
    | nil => simp
    | cons i starts ih =>
      rw [List.pairwise_cons] at hs
      rw [List.flatMap_cons, List.map_append, List.pairwise_append]
      refine ⟨(C109_attached ts parses i).1, ih hs.2 fun j hj => hv j (List.mem_cons_of_mem _ hj), fun a ha b hb => ?_⟩
      have ha := (((C109_attached ts parses i).2 a).1 ha).1
      obtain ⟨⟨b', s'⟩, hb1, rfl⟩ := List.mem_map.1 hb
      obtain ⟨j, hj, hb2⟩ := List.mem_flatMap.1 hb1
      have hb := (((C109_attached ts parses j).2 b').1 (List.mem_map.2 ⟨_, hb2, rfl⟩)).1
      have hij := hs.1 j hj
      have h1 := ha.1
      show a < b'
      by_contra hlt
      have hbi : b' < i := by omega
      have := holds_visible.2 fun t => hb.2.2 i t hbi hij
      rw [hv i List.mem_cons_self] at this
      cases this
  rw [takeWhile_sorted hsorted]
  simp only [nodeComments, List.mem_flatMap]
  constructor
  · rintro ⟨h1, h2⟩
    exact ⟨h1, fun i hi k' s' h hle => h2 (k', s') ⟨i, hi, h⟩ hle⟩
  · rintro ⟨h1, h2⟩
    exact ⟨h1, fun y ⟨i, hi, h⟩ hle => h2 i hi y.1 y.2 h hle⟩

/-- C109: what a comment sticks to is the next comment or the declaration. -/
theorem C109_flag (ts : List Tok) (parses : Nat → Bool) (i k : Nat) (s : Bool) (h : (k, s) ∈ findBefore ts parses i) :
    ∃ n, Next ts k i n ∧ s = isSticky ts k n := by
  obtain ⟨n, h1, h2, h3, h4⟩ := collect_flag _ (sorted_hidden ts i) (fun j hj => (mem_hidden.1 hj).1) h
  exact ⟨n, ⟨h1, h2.imp_right mem_hidden.1, fun j ha hb hc => h3 j ha hb (mem_hidden.2 hc)⟩, h4⟩

theorem form_of_lex {text : List Nat} {l : List (Kind × List Nat)} (h : Lexer.lex text = some l) : ∀ x ∈ l, Lexer.Form x.1 x.2 := by
  have h := (Lexer.C108_exact text l).1 h
  induction h with
  | nil => simp
  | cons ht _ ih =>
    intro x hx
    rcases List.mem_cons.1 hx with rfl | hx
    · exact ht.2.1
    · exact ih ((Lexer.C108_exact _ _).2 ‹_›) x hx

/-- C109: a comment sticks to what follows it exactly if there is at most one line break between them. -/
theorem C109_sticky (text : List Nat) (a b c : List (Kind × List Nat)) (x : Kind × List Nat) (h : Lexer.lex text = some (a ++ x :: (b ++ c)))
    (hx : x.1 = .docComment ∨ x.1 = .markdownComment) (hc : ∀ y, c.head? = some y → y.1 ≠ .space) :
    isSticky (place 1 (a ++ x :: (b ++ c))) (position a) (position (a ++ x :: b)) = true ↔ newlines (b.map Prod.snd).flatten ≤ 1 := by
  obtain ⟨k, s⟩ := x
  have hk : k ≠ .space := by rcases hx with rfl | rfl <;> simp
  obtain ⟨t, h1, h2, h3⟩ := place_at a ((k, s) :: (b ++ c)) 1 (by simpa using hk)
  obtain ⟨u, g1, g2, _⟩ := place_at (a ++ (k, s) :: b) c 1 hc
  have ht := h3 _ rfl
  have e : a ++ (k, s) :: b ++ c = a ++ (k, s) :: (b ++ c) := by simp
  rw [e] at g1
  have hs : ∃ s', s = s' ++ [47] := by
    have := form_of_lex h (k, s) (by simp)
    rcases hx with rfl | rfl
    · obtain ⟨body, hb, _⟩ := this
      exact ⟨py! "/**" ++ (body ++ [42]), by simpa using hb⟩
    · obtain ⟨body, hb, _⟩ := this
      exact ⟨py! "/*!" ++ (body ++ [42]), by simpa using hb⟩
  obtain ⟨s', rfl⟩ := hs
  unfold isSticky
  have e1 : lineAt (place 1 (a ++ (k, s' ++ [47]) :: (b ++ c))) (position a) = 1 + newlines (a.map Prod.snd).flatten := by rw [lineAt, h1]; exact h2
  have e2 : textAt (place 1 (a ++ (k, s' ++ [47]) :: (b ++ c))) (position a) = s' ++ [47] := by rw [textAt, h1, ht]
  have e3 : lineAt (place 1 (a ++ (k, s' ++ [47]) :: (b ++ c))) (position (a ++ (k, s' ++ [47]) :: b)) =
      1 + newlines ((a ++ (k, s' ++ [47]) :: b).map Prod.snd).flatten := by rw [lineAt, g1]; exact g2
  rw [e1, e2, e3, splitLines_length s' 47 (by decide)]
  simp only [List.map_append, List.map_cons, List.flatten_append, List.flatten_cons]
  rw [newlines_append (a.map Prod.snd).flatten, newlines_append (s' ++ [47])]
  split
  · simp; omega
  · simp; omega

namespace Demo

/-- two comments before a structure, one behind it -/
def schema : List Nat := py! "/** A. */\n/** B. */ // C\nstruct S {};\n/** D. */"

/-- its tokens -/
def stream : List Tok := match Lexer.lex schema with
  | some l => place 1 l
  | none => []

example : stream.length = 10 ∧ hiddenToLeft stream 3 = [0, 1] ∧ findBefore stream (fun _ => true) 3 = [(0, true), (1, true)] ∧
    unused stream [3] = [8] ∧ written (nodeComments stream (fun _ => true) [3]) = [(0, true), (1, true)] ∧
    holds Tok.isVisible stream 3 = true := by decide +kernel

/-- a comment and a structure with an empty line between them -/
def apart : List Tok := match Lexer.lex (py! "/** A. */\n\nstruct S {};") with
  | some l => place 1 l
  | none => []

/-- C109: a comment which is separated from its declaration only by white space, but by an empty line, is not written to generated code; and there is no
warning about it. -/
theorem C109_blank_deviates : Attached apart 0 1 ∧ unused apart [1] = [] ∧ written (nodeComments apart (fun _ => true) [1]) = [] := by
  refine ⟨mem_hidden.1 ?_, ?_, ?_⟩ <;> decide +kernel

end Demo

/-! ### Markdown -/

theorem forall₂_append {α β : Type} {R : α → β → Prop} {a c : List α} {b d : List β} (h : List.Forall₂ R a b) (h' : List.Forall₂ R c d) :
    List.Forall₂ R (a ++ c) (b ++ d) := by
  induction h with
  | nil => exact h'
  | cons h _ ih => exact .cons h ih

theorem stripStart_eq (s : List Nat) : stripStart (py! "/*!" ++ s) = s := by
  simp [stripStart]

theorem stripEnd_eq (s close : List Nat) (h : close = py! "!*/" ∨ (close = py! "*/" ∧ s.getLast? ≠ some 33)) : stripEnd (s ++ close) = s := by
  unfold stripEnd
  rcases h with rfl | ⟨rfl, h⟩
  · rw [if_pos (by rw [List.isSuffixOf_iff_suffix]; exact List.suffix_append _ _)]
    simp
  · rw [if_neg, if_pos (by rw [List.isSuffixOf_iff_suffix]; exact List.suffix_append _ _)]
    · simp
    · rw [List.isSuffixOf_iff_suffix]
      rintro ⟨r, hr⟩
      have : r ++ [33] = s := List.append_cancel_right (bs := py! "*/") (by simpa using hr)
      rw [← this] at h
      simp at h

/-- C109: an indented Markdown comment is shown without its indentation and its marks, if the first line has only the mark and each other line is empty
or indented like the comment.  What is missing: files with Windows line breaks, see `C109_crlf_deviates`. -/
theorem C109_markdown_partial (indent w m close : List Nat) (raw shown : List (List Nat)) (hi : indent ≠ []) (hb : ∀ c ∈ indent, c = 32 ∨ c = 9)
    (hw : ∀ c ∈ w, c = 32 ∨ c = 9) (h : List.Forall₂ (Line indent) raw shown) (ho : ∀ l ∈ shown, OneLine l) (hm : OneLine m)
    (hclose : close = py! "!*/" ∨ (close = py! "*/" ∧ m.getLast? ≠ some 33)) :
    markdown (unlines ((py! "/*!" ++ w) :: (raw ++ [indent ++ (m ++ close)]))) indent.length = unlines (w :: (shown ++ [m])) := by
  have hb' : ∀ c ∈ indent, blank c = true := fun c hc => by simpa [blank] using hb c hc
  have hind := hb
  have hco : OneLine close := by rcases hclose with rfl | ⟨rfl, _⟩ <;> simp [OneLine]
  have hmc : OneLine (m ++ close) := by
    intro c hc
    rcases List.mem_append.1 hc with hc | hc
    · exact hm c hc
    · exact hco c hc
  have hall : List.Forall₂ (Line indent) (raw ++ [indent ++ (m ++ close)]) (shown ++ [m ++ close]) :=
    forall₂_append h (.cons (.inr rfl) .nil)
  have hoall : ∀ l ∈ shown ++ [m ++ close], OneLine l := by
    intro l hl
    rcases List.mem_append.1 hl with hl | hl
    · exact ho l hl
    · rw [List.mem_singleton.1 hl]; exact hmc
  have hblank : ∀ x : List Nat, (∀ c ∈ x, c = 32 ∨ c = 9) → OneLine x := by
    intro x hx c hc
    rcases hx c hc with rfl | rfl <;> decide
  have hrawone : ∀ l ∈ raw ++ [indent ++ (m ++ close)], OneLine l := by
    have : ∀ {a b : List (List Nat)}, List.Forall₂ (Line indent) a b → (∀ l ∈ b, OneLine l) → ∀ l ∈ a, OneLine l := by
      intro a b hab
      induction hab with
      | nil => intro _ l hl; simp at hl
      | cons h _ ih =>
        intro hb l hl
        rcases List.mem_cons.1 hl with rfl | hl
        · rcases h with ⟨rfl, _⟩ | rfl
          · intro c hc; simp at hc
          · intro c hc
            rcases List.mem_append.1 hc with hc | hc
            · exact hblank indent hind c hc
            · exact hb _ List.mem_cons_self c hc
        · exact ih (fun l hl => hb l (List.mem_cons_of_mem _ hl)) l hl
    exact this hall hoall
  have hfirst : OneLine (py! "/*!" ++ w) := by
    intro c hc
    rcases List.mem_append.1 hc with hc | hc
    · simp only [List.mem_cons, List.not_mem_nil, or_false] at hc
      rcases hc with rfl | rfl | rfl <;> decide
    · exact hblank w hw c hc
  have no10 : ∀ l, OneLine l → 10 ∉ l := fun l hl hmem => hl 10 hmem (by simp)
  obtain ⟨cl, hcl⟩ : ∃ cl, close = cl ++ [47] := by
    rcases hclose with rfl | ⟨rfl, _⟩
    · exact ⟨[33, 42], rfl⟩
    · exact ⟨[42], rfl⟩
  have htext : ∃ t, unlines ((py! "/*!" ++ w) :: (raw ++ [indent ++ (m ++ close)])) = t ++ [47] := by
    have e : (py! "/*!" ++ w) :: (raw ++ [indent ++ (m ++ close)]) = ((py! "/*!" ++ w) :: raw) ++ [(indent ++ (m ++ cl)) ++ [47]] := by
      rw [hcl]; simp
    rw [e, unlines_append_last]
    exact ⟨_, rfl⟩
  have hsplit : splitLines (unlines ((py! "/*!" ++ w) :: (raw ++ [indent ++ (m ++ close)]))) = (py! "/*!" ++ w) :: (raw ++ [indent ++ (m ++ close)]) := by
    obtain ⟨t, ht⟩ := htext
    rw [ht, splitLines_last t 47 (by decide), ← ht]
    refine pieces_unlines _ (by simp) fun l hl => no10 l ?_
    rcases List.mem_cons.1 hl with rfl | hl
    · exact hfirst
    · exact hrawone l hl
  obtain ⟨r1, rs, hr⟩ : ∃ r1 rs, raw ++ [indent ++ (m ++ close)] = r1 :: rs := List.exists_cons_of_ne_nil (by simp)
  have htrim : trim (py! "/*!" ++ w) = py! "/*!" := by
    unfold trim
    have h1 : (py! "/*!" ++ w).dropWhile trimmed = py! "/*!" ++ w := by simp [List.dropWhile, trimmed]
    rw [h1, List.reverse_append]
    have h2 : ∀ l : List Nat, (∀ c ∈ l, trimmed c = true) → ∀ r, (l ++ r).dropWhile trimmed = r.dropWhile trimmed := by
      intro l
      induction l with
      | nil => intros; rfl
      | cons c l ih =>
        intro hl r
        rw [List.cons_append, List.dropWhile_cons_of_pos (hl c List.mem_cons_self)]
        exact ih (fun d hd => hl d (List.mem_cons_of_mem _ hd)) r
    rw [h2 w.reverse (fun c hc => by
      rcases hw c (List.mem_reverse.1 hc) with rfl | rfl <;> decide)]
    rfl
  have hindent : commentIndent (unlines ((py! "/*!" ++ w) :: (raw ++ [indent ++ (m ++ close)]))) indent.length = some indent := by
    unfold commentIndent
    rw [hsplit, hr]
    simp only [htrim, if_true]
    rw [← hr, firstLineIndent_eq indent hb' hall ⟨indent ++ (m ++ close), by simp, by simp [hi]⟩, if_pos ⟨hi, linesIndented_eq indent hall⟩]
  unfold markdown
  rw [hindent]
  simp only
  rw [show stripIndent indent (unlines ((py! "/*!" ++ w) :: (raw ++ [indent ++ (m ++ close)]))).length none
    (unlines ((py! "/*!" ++ w) :: (raw ++ [indent ++ (m ++ close)]))) = strip indent none
    (unlines ((py! "/*!" ++ w) :: (raw ++ [indent ++ (m ++ close)]))) from rfl]
  have hstrip : strip indent none (unlines ((py! "/*!" ++ w) :: (raw ++ [indent ++ (m ++ close)]))) =
      py! "/*!" ++ unlines (w :: (shown ++ [m ++ close])) := by
    obtain ⟨s1, ss, hs⟩ : ∃ s1 ss, shown ++ [m ++ close] = s1 :: ss := List.exists_cons_of_ne_nil (by simp)
    rw [hr, hs, unlines_cons, unlines_cons, ← hr, ← hs]
    have e : py! "/*!" ++ w ++ 10 :: unlines (raw ++ [indent ++ (m ++ close)]) =
        47 :: ((py! "*!" ++ w) ++ 10 :: unlines (raw ++ [indent ++ (m ++ close)])) := by simp
    rw [e, strip_cons indent hi, if_neg]
    · obtain ⟨q, hq, h'⟩ := strip_inline indent hi (py! "*!" ++ w) (10 :: unlines (raw ++ [indent ++ (m ++ close)])) 47 (by decide) (by
        intro c hc; exact hfirst c (by simp only [List.mem_append, List.mem_cons] at hc ⊢; tauto))
      rw [h', strip_newline indent hi q hq, strip_lines indent hi hb' hall hoall]
      simp
    · rintro ⟨_, hp⟩
      obtain ⟨b, ind', rfl⟩ := List.exists_cons_of_ne_nil hi
      simp only [List.isPrefixOf, Bool.and_eq_true, beq_iff_eq] at hp
      have := hb b List.mem_cons_self
      omega
  rw [hstrip, stripStart_eq]
  have e : w :: (shown ++ [m ++ close]) = (w :: shown) ++ [m ++ close] := rfl
  rw [e, unlines_append_last]
  refine stripEnd_eq _ _ ?_
  rcases hclose with rfl | ⟨rfl, h33⟩
  · exact .inl rfl
  · refine .inr ⟨rfl, ?_⟩
    rcases List.eq_nil_or_concat m with rfl | ⟨m', c, rfl⟩
    · have : ∀ (ls : List (List Nat)), ls ≠ [] → ∃ t, unlines (ls ++ [[]]) = t ++ [10] := by
        intro ls
        induction ls with
        | nil => intro h; exact absurd rfl h
        | cons a ls ih =>
          intro _
          cases ls with
          | nil => exact ⟨a, by simp [unlines_cons, unlines_single]⟩
          | cons b ls =>
            obtain ⟨t, ht⟩ := ih (by simp)
            refine ⟨a ++ 10 :: t, ?_⟩
            simp only [List.cons_append] at ht ⊢
            rw [unlines_cons, ht]
            simp
      obtain ⟨t, ht⟩ := this (w :: shown) (by simp)
      rw [ht]
      simp
    · rw [List.concat_eq_append, unlines_append_last]
      simpa using h33

/-- C109: a Markdown comment which is not indented, or of which some line is not, is shown as it is, without its marks. -/
theorem C109_markdown_plain (body close : List Nat) (column : Nat) (hclose : close = py! "!*/" ∨ (close = py! "*/" ∧ body.getLast? ≠ some 33))
    (h : column = 0 ∨ ∃ l ∈ (splitLines (py! "/*!" ++ (body ++ close))).tail, l ≠ [] ∧ ¬ ∃ ws r, ws.length = column ∧ (∀ c ∈ ws, c = 32 ∨ c = 9) ∧ l = ws ++ r) :
    markdown (py! "/*!" ++ (body ++ close)) column = body := by
  have hnone : commentIndent (py! "/*!" ++ (body ++ close)) column = none := by
    unfold commentIndent
    split
    · next l0 l1 rest he =>
      rw [he, List.tail_cons] at h
      split
      · rw [if_neg]
        rintro ⟨h1, h2⟩
        have hf : ∀ ls : List (List Nat), firstLineIndent column ls ≠ [] →
            (firstLineIndent column ls).length = column ∧ ∀ c ∈ firstLineIndent column ls, c = 32 ∨ c = 9 := by
          intro ls
          induction ls with
          | nil => intro h; exact absurd rfl h
          | cons l ls ih =>
            unfold firstLineIndent
            split
            · exact ih
            · split
              · next hl =>
                intro _
                refine ⟨by simpa using hl.1, fun c hc => ?_⟩
                have := (List.all_eq_true.1 hl.2) c hc
                simpa [blank] using this
              · intro h; exact absurd rfl h
        obtain ⟨g1, g2⟩ := hf _ h1
        rcases h with rfl | ⟨l, hl, hne, hno⟩
        · exact h1 (List.length_eq_zero_iff.1 g1)
        · have := (List.all_eq_true.1 h2) l hl
          simp only [Bool.or_eq_true, decide_eq_true_eq, List.isPrefixOf_iff_prefix] at this
          rcases this with e | ⟨r, hr⟩
          · exact hne e
          · exact hno ⟨_, r, g1, g2, hr.symm⟩
      · rfl
    · rfl
  unfold markdown
  rw [hnone]
  simp only
  rw [stripStart_eq]
  exact stripEnd_eq _ _ hclose

namespace Demo

/-- an indented comment and what is shown -/
example : markdown (py! "/*!\n\n    # Title\n      text\n    !*/") 4 = py! "\n\n# Title\n  text\n" := by decide +kernel
example : List.Forall₂ (Line (py! "    ")) [[], py! "    # Title", py! "      text"] [[], py! "# Title", py! "  text"] :=
  .cons (.inl ⟨rfl, rfl⟩) (.cons (.inr rfl) (.cons (.inr rfl) .nil))

/-- C109: the same comment in a file with Windows line breaks keeps its indentation: an empty line is then taken for one which is not indented. -/
theorem C109_crlf_deviates : markdown (py! "/*!\r\n\r\n    # Title\r\n    !*/") 4 = py! "\r\n\r\n    # Title\r\n    " ∧
    markdown (py! "/*!\r\n    # Title\r\n    !*/") 4 = py! "\r\n# Title\r\n" := by decide +kernel

/-- a warning exactly for another end -/
example : markdownWarning (py! "/*! a */") = true ∧ markdownWarning (py! "/*! a !*/") = false := by decide +kernel

end Demo

end Zserio.DocAttach
