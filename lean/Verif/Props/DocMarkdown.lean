import Verif.Spec.DocMarkdown
import Verif.Model.DocLinks
import Verif.Spec.JsonPositions
import Mathlib.Data.List.TakeWhile
import Mathlib.Data.List.Forall2

/-!
C120: markdown documentation comments.
-/

set_option linter.unusedSimpArgs false

namespace Zserio.Markdown
open DocAttach (trim terminator trimmed)

/-! ### White space -/

theorem visible_append (a b : PyStr) : visible (a ++ b) = visible a ++ visible b := List.filter_append ..

theorem visible_dropWhile (s : PyStr) : visible (s.dropWhile trimmed) = visible s := by
  induction s with
  | nil => rfl
  | cons c s ih =>
    rw [List.dropWhile_cons]
    split
    · rename_i h
      rw [ih]
      simp only [trimmed, decide_eq_true_eq] at h
      simp [visible, h]
    · rfl

theorem visible_reverse (s : PyStr) : visible s.reverse = (visible s).reverse := List.filter_reverse ..

theorem visible_trim (s : PyStr) : visible (trim s) = visible s := by
  rw [trim, visible_reverse, visible_dropWhile, visible_reverse, List.reverse_reverse, visible_dropWhile]

theorem length_trim (s : PyStr) : (trim s).length ≤ s.length := by
  rw [trim, List.length_reverse]
  refine Nat.le_trans (List.dropWhile_sublist _).length_le ?_
  rw [List.length_reverse]
  exact (List.dropWhile_sublist _).length_le

theorem dropWhile_stop {q : Nat → Bool} {c : Nat} (h : q c = false) (a b : PyStr) : (a ++ c :: b).dropWhile q = a.dropWhile q ++ c :: b := by
  induction a with
  | nil => simp [List.dropWhile_cons, h]
  | cons x a ih =>
    simp only [List.cons_append, List.dropWhile_cons]
    split
    · exact ih
    · rfl

/-! ### Links -/

theorem span_stop {q : Nat → Bool} {c : Nat} {a : PyStr} (ha : ∀ x ∈ a, q x = true) (h : q c = false) (b : PyStr) :
    (a ++ c :: b).dropWhile q = c :: b ∧ (a ++ c :: b).takeWhile q = a := by
  constructor
  · rw [dropWhile_stop h, List.dropWhile_eq_nil_iff.2 ha]; rfl
  · rw [List.takeWhile_append_of_pos ha, List.takeWhile_cons, h]; simp

theorem matchLink_some {s a b c d : PyStr} (h : matchLink s = some (a, b, c, d)) : s = a ++ linkText b c ++ d := by
  unfold matchLink at h
  have h0 := List.takeWhile_append_dropWhile (p := fun x => decide (x ≠ ch! '[')) (l := s)
  split at h
  · cases h
  · rename_i x r hr
    rw [hr] at h0
    have hx : x = ch! '[' := by
      have := List.head_dropWhile_not (fun x => decide (x ≠ ch! '[')) (l := s) (by rw [hr]; simp)
      simpa only [hr, List.head_cons, decide_eq_false_iff_not, ne_eq, not_not] using this
    have h1 := List.takeWhile_append_dropWhile (p := fun c => decide (c ≠ ch! '[' ∧ c ≠ ch! ']')) (l := r)
    split at h
    · rename_i c' d' r2 hr2
      rw [hr2] at h1
      split at h
      · rename_i hcd
        have h2 := List.takeWhile_append_dropWhile (p := fun x => decide (x ≠ ch! ')')) (l := r2)
        split at h
        · cases h
        · rename_i y rest hrest
          rw [hrest] at h2
          have hy : y = ch! ')' := by
            have := List.head_dropWhile_not (fun x => decide (x ≠ ch! ')')) (l := r2) (by rw [hrest]; simp)
            simpa only [hrest, List.head_cons, decide_eq_false_iff_not, ne_eq, not_not] using this
          split at h
          · simp only [Option.some.injEq, Prod.mk.injEq] at h
            obtain ⟨rfl, rfl, rfl, rfl⟩ := h
            obtain ⟨rfl, rfl⟩ := hcd
            subst hx hy
            conv_lhs => rw [← h0, ← h1, ← h2]
            simp [linkText]
          · cases h
      · cases h
    · cases h

theorem matchLink_eq {a b c d : PyStr} (ha : ch! '[' ∉ a) (hb : ch! '[' ∉ b) (hb' : ch! ']' ∉ b) (hc : c ≠ []) (hc' : ch! ')' ∉ c)
    (hd : ∀ x ∈ d, terminator x = false) : matchLink (a ++ linkText b c ++ d) = some (a, b, c, d) := by
  have e : a ++ linkText b c ++ d = a ++ ch! '[' :: (b ++ ch! ']' :: (ch! '(' :: (c ++ ch! ')' :: d))) := by simp [linkText]
  rw [e]
  have s1 := span_stop (q := fun x => decide (x ≠ ch! '[')) (c := ch! '[') (a := a) (by
    intro x hx; simp only [decide_eq_true_eq]; rintro rfl; exact ha hx) (by simp) (b ++ ch! ']' :: (ch! '(' :: (c ++ ch! ')' :: d)))
  have s2 := span_stop (q := fun x => decide (x ≠ ch! '[' ∧ x ≠ ch! ']')) (c := ch! ']') (a := b) (by
    intro x hx; simp only [decide_eq_true_eq]; exact ⟨fun e => hb (e ▸ hx), fun e => hb' (e ▸ hx)⟩) (by simp) (ch! '(' :: (c ++ ch! ')' :: d))
  have s3 := span_stop (q := fun x => decide (x ≠ ch! ')')) (c := ch! ')') (a := c) (by
    intro x hx; simp only [decide_eq_true_eq]; rintro rfl; exact hc' hx) (by simp) d
  unfold matchLink
  rw [s1.1, s1.2]
  simp only
  rw [s2.1, s2.2]
  simp only [and_self, if_true]
  rw [s3.1, s3.2]
  simp only
  rw [if_pos ⟨hc, by simpa using hd⟩]

theorem matchLink_none {s : PyStr} (h : ch! '[' ∉ s) : matchLink s = none := by
  unfold matchLink
  rw [List.dropWhile_eq_nil_iff.2]
  intro x hx
  simp only [decide_eq_true_eq]
  rintro rfl
  exact h hx

/-! ### Lines -/

theorem addElements_source (pkg top : List PyStr) : ∀ (n : Nat) (line : PyStr), line.length < n →
    ∃ srcs, List.Forall₂ (Source pkg top) (addElements pkg top n line) srcs ∧ visible srcs.flatten = visible line
  | 0, _, h => absurd h (Nat.not_lt_zero _)
  | n + 1, line, h => by
    unfold addElements
    split
    · exact ⟨[line], .cons rfl .nil, by simp⟩
    · rename_i pre label link rest hm
      have e := matchLink_some hm
      have hrest : ∃ srcs, List.Forall₂ (Source pkg top) (if trim rest = [] then [] else addElements pkg top n (trim rest)) srcs ∧
          visible srcs.flatten = visible rest := by
        by_cases ht : trim rest = []
        · rw [if_pos ht]
          refine ⟨[], .nil, ?_⟩
          rw [← visible_trim rest, ht]; rfl
        · rw [if_neg ht]
          have hl := length_trim rest
          have : line.length = pre.length + (linkText label link).length + rest.length := by rw [e]; simp [Nat.add_assoc]
          have h3 : 0 < (linkText label link).length := by simp [linkText]
          obtain ⟨srcs, h1, h2⟩ := addElements_source pkg top n (trim rest) (by omega)
          exact ⟨srcs, h1, by rw [h2, visible_trim]⟩
      obtain ⟨srcs, h1, h2⟩ := hrest
      cases hs : seeTagLink pkg top link with
      | none =>
        refine ⟨trim (line.take (line.length - rest.length)) :: srcs, ?_, ?_⟩
        · exact List.Forall₂.cons rfl h1
        · have : line.take (line.length - rest.length) = pre ++ linkText label link := by
            have hlen : line.length - rest.length = (pre ++ linkText label link).length := by rw [e]; simp [← Nat.add_assoc]
            rw [hlen]
            conv_lhs => rw [e]
            rw [List.take_left]
          rw [List.flatten_cons, visible_append, visible_trim, h2, this]
          conv_rhs => rw [e]
          rw [visible_append (pre ++ linkText label link) rest]
      | some name =>
        by_cases hp : trim pre = []
        · refine ⟨linkText label link :: srcs, ?_, ?_⟩
          · simp only [hp, if_true, List.nil_append, List.singleton_append]
            exact .cons ⟨link, rfl, hs⟩ h1
          · have hv : visible pre = [] := by rw [← visible_trim, hp]; rfl
            rw [List.flatten_cons, visible_append, h2]
            conv_rhs => rw [e]
            rw [visible_append (pre ++ linkText label link) rest, visible_append pre, hv]; rfl
        · refine ⟨trim pre :: linkText label link :: srcs, ?_, ?_⟩
          · simp only [hp, if_false, List.cons_append, List.nil_append]
            exact .cons rfl (.cons ⟨link, rfl, hs⟩ h1)
          · rw [List.flatten_cons, List.flatten_cons, visible_append, visible_append, h2, visible_trim]
            conv_rhs => rw [e]
            rw [visible_append (pre ++ linkText label link) rest, visible_append pre, List.append_assoc]

theorem Linked.nil_inv {links : List (PyStr × PyStr)} (h : Linked [] links) : links = [] := by
  generalize hs : ([] : PyStr) = s at h
  cases h with
  | text _ => rfl
  | link _ _ _ _ _ _ => simp [linkText] at hs

theorem Linked.dropWhile {s : PyStr} {links : List (PyStr × PyStr)} (h : Linked s links) : Linked (s.dropWhile trimmed) links := by
  cases h with
  | text h => exact .text fun hm => h ((List.dropWhile_sublist _).mem hm)
  | @link s label link rest links h1 h2 h3 h4 h5 h6 =>
    have e : s ++ linkText label link ++ rest = s ++ ch! '[' :: (label ++ py! "](" ++ link ++ py! ")" ++ rest) := by simp [linkText]
    rw [e, dropWhile_stop (by rfl)]
    have e' : s.dropWhile trimmed ++ ch! '[' :: (label ++ py! "](" ++ link ++ py! ")" ++ rest) =
        s.dropWhile trimmed ++ linkText label link ++ rest := by simp [linkText]
    rw [e']
    exact .link (fun hm => h1 ((List.dropWhile_sublist _).mem hm)) h2 h3 h4 h5 h6

theorem Linked.dropRight {s : PyStr} {links : List (PyStr × PyStr)} (h : Linked s links) : Linked (s.reverse.dropWhile trimmed).reverse links := by
  induction h with
  | text h => exact .text fun hm => h (by simpa using (List.dropWhile_sublist _).mem (List.mem_reverse.1 hm))
  | @link s label link rest links h1 h2 h3 h4 h5 h6 ih =>
    have e : (s ++ linkText label link ++ rest).reverse = rest.reverse ++ ch! ')' :: (s ++ py! "[" ++ label ++ py! "](" ++ link).reverse := by
      simp [linkText]
    rw [e, dropWhile_stop (by rfl)]
    have e' : (rest.reverse.dropWhile trimmed ++ ch! ')' :: (s ++ py! "[" ++ label ++ py! "](" ++ link).reverse).reverse =
        s ++ linkText label link ++ (rest.reverse.dropWhile trimmed).reverse := by simp [linkText]
    rw [e']
    exact .link h1 h2 h3 h4 h5 ih

theorem Linked.trim {s : PyStr} {links : List (PyStr × PyStr)} (h : Linked s links) : Linked (trim s) links := h.dropWhile.dropRight

theorem mem_trim {s : PyStr} {c : Nat} (h : c ∈ trim s) : c ∈ s := by
  have := (List.dropWhile_sublist _).mem (List.mem_reverse.1 h)
  exact (List.dropWhile_sublist _).mem (List.mem_reverse.1 this)

theorem tags_append (a b : List Piece) : tags (a ++ b) = tags a ++ tags b := List.filterMap_append ..

theorem addElements_tags (pkg top : List PyStr) : ∀ (n : Nat) (line : PyStr) (links : List (PyStr × PyStr)), line.length < n →
    (∀ c ∈ line, terminator c = false) → Linked line links →
    tags (addElements pkg top n line) = links.filterMap fun l => (seeTagLink pkg top l.2).map fun name => (l.1, name)
  | 0, _, _, h, _, _ => absurd h (Nat.not_lt_zero _)
  | n + 1, line, links, h, ht, hl => by
    unfold addElements
    cases hl with
    | text hl => rw [matchLink_none hl]; rfl
    | @link s label link rest links h1 h2 h3 h4 h5 h6 =>
      rw [matchLink_eq h1 h2 h3 h4 h5 fun x hx => ht x (by simp [hx])]
      simp only
      have hrest : tags (if DocAttach.trim rest = [] then [] else addElements pkg top n (DocAttach.trim rest)) =
          links.filterMap fun l => (seeTagLink pkg top l.2).map fun name => (l.1, name) := by
        have h6' := h6.trim
        by_cases hr : DocAttach.trim rest = []
        · rw [if_pos hr]
          rw [hr] at h6'
          rw [h6'.nil_inv]; rfl
        · rw [if_neg hr]
          have hlen := length_trim rest
          have h7 : 0 < (linkText label link).length := by simp [linkText]
          simp only [List.length_append] at h
          exact addElements_tags pkg top n _ _ (by omega) (fun c hc => ht c (by simp [mem_trim hc])) h6'
      rw [tags_append, hrest]
      cases hs : seeTagLink pkg top link with
      | none => simp [hs, tags]
      | some name =>
        simp only [List.filterMap_cons, hs, Option.map_some, tags_append]
        split <;> simp [tags]

/-- C120: of a line nothing is lost but white space: its text is the texts of its elements, one after the other, where a tag stands for a link
which means it. -/
theorem C120_line (pkg top : List PyStr) (line : PyStr) :
    ∃ srcs, List.Forall₂ (Source pkg top) (elements pkg top line) srcs ∧ visible srcs.flatten = visible line :=
  addElements_source pkg top _ line (Nat.lt_succ_self _)

/-- C120: in a line in which all opening brackets belong to links, exactly the links to schema files become tags. -/
theorem C120_tags_partial (pkg top : List PyStr) (line : PyStr) (links : List (PyStr × PyStr)) (ht : ∀ c ∈ line, terminator c = false)
    (hl : Linked line links) :
    tags (elements pkg top line) = links.filterMap fun l => (seeTagLink pkg top l.2).map fun name => (l.1, name) :=
  addElements_tags pkg top _ line links (Nat.lt_succ_self _) ht hl

/-! ### Links to schema files -/

theorem intercalate_cons₂ (sep a b : PyStr) (l : List PyStr) :
    List.intercalate sep (a :: b :: l) = a ++ sep ++ List.intercalate sep (b :: l) := by
  simp [List.intercalate, List.intersperse]

theorem intercalate_single (sep a : PyStr) : List.intercalate sep [a] = a := by simp [List.intercalate, List.intersperse]

theorem mem_intercalate {sep : PyStr} {c : Nat} : ∀ {l : List PyStr}, c ∈ List.intercalate sep l → c ∈ sep ∨ ∃ a ∈ l, c ∈ a
  | [], h => by simp [List.intercalate, List.intersperse] at h
  | [a], h => by rw [intercalate_single] at h; exact .inr ⟨a, by simp, h⟩
  | a :: b :: l, h => by
    rw [intercalate_cons₂] at h
    simp only [List.mem_append, or_assoc] at h
    rcases h with h | h | h
    · exact .inr ⟨a, by simp, h⟩
    · exact .inl h
    · rcases mem_intercalate h with h | ⟨x, hx, h⟩
      · exact .inl h
      · exact .inr ⟨x, by simp [hx], h⟩

theorem pieces_ne_nil (sep : Nat) (s : PyStr) : pieces sep s ≠ [] := by
  cases s with
  | nil => simp [pieces]
  | cons c s =>
    unfold pieces
    split
    · simp
    · split <;> simp

theorem pieces_plain {sep : Nat} : ∀ {a : PyStr}, sep ∉ a → pieces sep a = [a]
  | [], _ => rfl
  | c :: a, h => by
    unfold pieces
    rw [if_neg (by intro e; subst e; simp at h), pieces_plain (a := a) (by simp at h; exact h.2)]

theorem pieces_append {sep : Nat} (r : PyStr) : ∀ {a : PyStr}, sep ∉ a → pieces sep (a ++ sep :: r) = a :: pieces sep r
  | [], _ => by simp [pieces]
  | c :: a, h => by
    rw [List.cons_append]
    conv_lhs => rw [pieces]
    rw [if_neg (by intro e; subst e; simp at h), pieces_append r (a := a) (by simp at h; exact h.2)]

theorem pieces_intercalate {sep : Nat} : ∀ {l : List PyStr}, l ≠ [] → (∀ a ∈ l, sep ∉ a) → pieces sep (List.intercalate [sep] l) = l
  | [], h, _ => absurd rfl h
  | [a], _, h => by rw [intercalate_single]; exact pieces_plain (h a (by simp))
  | a :: b :: l, _, h => by
    rw [intercalate_cons₂, List.append_assoc, List.singleton_append, pieces_append _ (h a (by simp)),
      pieces_intercalate (l := b :: l) (by simp) fun x hx => h x (List.mem_cons_of_mem _ hx)]

theorem IsName.not_dot {s : PyStr} (h : IsName s) : s ≠ py! "." ∧ s ≠ py! ".." := by
  constructor <;> rintro rfl <;> exact absurd (h.2 (ch! '.') (by decide)) (by decide)

theorem IsPath.chars {steps : List PyStr} (h : IsPath steps) : ∀ s ∈ steps, ∀ c ∈ s, isNameChar c = true ∨ c = ch! '.' := by
  intro s hs c hc
  rcases h.1 s hs with hn | rfl | rfl
  · exact .inl (hn.2 c hc)
  · exact .inr (by simpa using hc)
  · exact .inr (by simpa using hc)

theorem IsPath.ne_nil {steps : List PyStr} (h : IsPath steps) : steps ≠ [] := by
  rintro rfl
  obtain ⟨n, h, _⟩ := h.2
  cases h

theorem IsPath.file {steps : List PyStr} (h : IsPath steps) :
    List.intercalate (py! "/") steps ≠ [] ∧ (List.intercalate (py! "/") steps).all isFileChar = true ∧
      split (ch! '/') (List.intercalate (py! "/") steps) = steps := by
  have hp : pieces (ch! '/') (List.intercalate (py! "/") steps) = steps :=
    pieces_intercalate h.ne_nil fun a ha hc => by
      rcases h.chars a ha _ hc with h | h <;> exact absurd h (by decide)
  obtain ⟨n, hn, hn'⟩ := h.2
  refine ⟨?_, ?_, ?_⟩
  · intro e
    rw [e] at hp
    rw [← hp] at hn
    simp [pieces] at hn
    exact hn'.1 hn
  · rw [List.all_eq_true]
    intro c hc
    rcases mem_intercalate hc with hc | ⟨a, ha, hc⟩
    · simp at hc; subst hc; decide
    · rcases h.chars a ha c hc with h | h
      · simp [isFileChar, h]
      · subst h; decide
  · rw [split, hp]
    rw [List.getLast?_eq_some_iff] at hn
    obtain ⟨l, rfl⟩ := hn
    simp [hn'.1]

theorem fileChar_hash {s : PyStr} (h : s.all isFileChar = true) : ∀ c ∈ s, decide (c ≠ ch! '#') = true := by
  intro c hc
  simp only [decide_eq_true_eq]
  rintro rfl
  exact absurd (List.all_eq_true.1 h _ hc) (by decide)

theorem zsFile_fileLink {steps : List PyStr} (h : IsPath steps) {type : Option PyStr} (ht : ∀ t, type = some t → IsName t) :
    zsFile (fileLink steps type) = some (List.intercalate (py! "/") steps, type) := by
  obtain ⟨h1, h2, _⟩ := h.file
  have hl : fileLink steps type = (List.intercalate (py! "/") steps ++ py! ".zs") ++ (match type with | none => [] | some t => ch! '#' :: t) := by
    cases type <;> simp [fileLink]
  rw [hl]
  clear hl
  generalize List.intercalate (py! "/") steps = file at h1 h2 ⊢
  have hf : ∀ c ∈ file ++ py! ".zs", decide (c ≠ ch! '#') = true := by
    intro c hc
    rcases List.mem_append.1 hc with hc | hc
    · exact fileChar_hash h2 c hc
    · exact fileChar_hash (s := py! ".zs") (by decide) c hc
  have key : ∀ r : PyStr, (r = [] ∨ ∃ t, r = ch! '#' :: t) → ((file ++ py! ".zs") ++ r).takeWhile (fun c => decide (c ≠ ch! '#')) = file ++ py! ".zs" ∧
      ((file ++ py! ".zs") ++ r).dropWhile (fun c => decide (c ≠ ch! '#')) = r := by
    rintro r (rfl | ⟨t, rfl⟩)
    · rw [List.append_nil]
      exact ⟨List.takeWhile_eq_self_iff.2 hf, List.dropWhile_eq_nil_iff.2 hf⟩
    · exact ⟨(span_stop hf (by simp) t).2, (span_stop hf (by simp) t).1⟩
  have hsuf : (py! ".zs").isSuffixOf (file ++ py! ".zs") = true := by rw [List.isSuffixOf_iff_suffix]; exact ⟨file, rfl⟩
  have htake : (file ++ py! ".zs").take ((file ++ py! ".zs").length - 3) = file := by simp
  cases type with
  | none =>
    obtain ⟨k1, k2⟩ := key [] (.inl rfl)
    unfold zsFile
    simp only
    rw [k1, k2, htake, if_pos ⟨hsuf, h1, h2⟩]
  | some t =>
    obtain ⟨k1, k2⟩ := key (ch! '#' :: t) (.inr ⟨t, rfl⟩)
    unfold zsFile
    simp only
    rw [k1, k2, htake, if_pos ⟨hsuf, h1, h2⟩]
    simp only
    obtain ⟨n1, n2⟩ := ht t rfl
    rw [if_pos ⟨n1, List.all_eq_true.2 n2⟩]

theorem Path.steps_ne {dir steps file : List PyStr} (h : Path dir steps file) : steps ≠ [] := by cases h <;> simp

theorem follow_iff : ∀ {steps dir file : List PyStr}, IsPath steps → (follow dir steps = some file ↔ Path dir steps file)
  | [], _, _, h => absurd rfl h.ne_nil
  | [n], dir, file, h => by
    obtain ⟨m, hm, hn⟩ := h.2
    simp at hm
    subst hm
    obtain ⟨d1, d2⟩ := hn.not_dot
    rw [follow, if_neg d1, if_neg d2, follow]
    constructor
    · intro e; cases e; exact .file hn
    · intro hp
      cases hp with
      | file _ => rfl
      | here hp => exact absurd rfl d1
      | up hp => exact absurd rfl d2
      | down _ hp => exact absurd rfl hp.steps_ne
  | s :: s' :: rest, dir, file, h => by
    have h' : IsPath (s' :: rest) := ⟨fun x hx => h.1 x (List.mem_cons_of_mem _ hx), by simpa [List.getLast?_cons_cons] using h.2⟩
    have nd : ∀ {x : PyStr}, IsName x → x ≠ py! "." ∧ x ≠ py! ".." := IsName.not_dot
    rw [follow]
    by_cases h1 : s = py! "."
    · subst h1
      rw [if_pos rfl, follow_iff h']
      constructor
      · exact .here
      · intro hp
        cases hp with
        | here hp => exact hp
        | down hn _ => exact absurd rfl (nd hn).1
    · rw [if_neg h1]
      by_cases h2 : s = py! ".."
      · subst h2
        rw [if_pos rfl]
        by_cases hd : dir = []
        · subst hd
          rw [if_pos rfl]
          constructor
          · intro e; cases e
          · intro hp
            generalize hg : ([] : List PyStr) = dir at hp
            cases hp with
            | up hp => simp at hg
            | down hn _ => exact absurd rfl (nd hn).2
        · rw [if_neg hd, follow_iff h']
          constructor
          · intro hp
            have := Path.up (n := dir.getLast hd) hp
            rwa [List.dropLast_concat_getLast hd] at this
          · intro hp
            generalize hg : dir = dir' at hp
            cases hp with
            | up hp => simpa using hp
            | down hn _ => exact absurd rfl (nd hn).2
      · rw [if_neg h2, follow_iff h']
        constructor
        · intro hp
          rcases h.1 s (by simp) with hn | rfl | rfl
          · exact .down hn hp
          · exact absurd rfl h1
          · exact absurd rfl h2
        · intro hp
          cases hp with
          | here hp => exact absurd rfl h1
          | up hp => exact absurd rfl h2
          | down _ hp => exact hp

theorem names_concat {dir : List PyStr} {n : PyStr} (hd : ∀ d ∈ dir, d ≠ []) (hn : IsName n) : ∀ d ∈ dir ++ [n], d ≠ [] := by
  intro d h
  rcases List.mem_append.1 h with h | h
  · exact hd d h
  · simp at h; exact h ▸ hn.1

theorem Path.names {dir steps file : List PyStr} (h : Path dir steps file) (hd : ∀ d ∈ dir, d ≠ []) : file ≠ [] ∧ ∀ d ∈ file, d ≠ [] := by
  induction h with
  | file hn => exact ⟨by simp, names_concat hd hn⟩
  | here _ ih => exact ih hd
  | up _ ih => exact ih fun d h => hd d (by simp [h])
  | down hn _ ih => exact ih (names_concat hd hn)

theorem intercalate_concat (sep t : PyStr) : ∀ {l : List PyStr}, l ≠ [] → List.intercalate sep (l ++ [t]) = List.intercalate sep l ++ sep ++ t
  | [], h => absurd rfl h
  | [a], _ => by simp [List.intercalate, List.intersperse]
  | a :: b :: l, _ => by
    rw [List.cons_append, List.cons_append, intercalate_cons₂, intercalate_cons₂, ← List.cons_append, intercalate_concat sep t (by simp)]
    simp

theorem join_names {file : List PyStr} (hf : ∀ d ∈ file, d ≠ []) : join file = List.intercalate (py! ".") file := by
  rw [join, List.filter_eq_self.2]
  intro d hd
  simpa using hf d hd

theorem intercalate_ne_nil {sep : PyStr} : ∀ {l : List PyStr}, l ≠ [] → (∀ d ∈ l, d ≠ []) → List.intercalate sep l ≠ []
  | [], h, _ => absurd rfl h
  | [a], _, h => by rw [intercalate_single]; exact h a (by simp)
  | a :: b :: l, _, h => by rw [intercalate_cons₂]; simp [h a (by simp)]

/-- C120: a link to a schema file is the name of the package of the file, or of the type in it, to which the path leads from the directory of the
file with the comment; a path which leads out of the directory of the schemas is no link. -/
theorem C120_link_partial (top dir : List PyStr) (name : PyStr) (hd : ∀ d ∈ dir, d ≠ []) (steps : List PyStr) (h : IsPath steps) (type : Option PyStr)
    (ht : ∀ t, type = some t → IsName t) (link : PyStr) :
    seeTagLink (top ++ dir ++ [name]) top (fileLink steps type) = some link ↔ ∃ file, Path dir steps file ∧ link = fullName file type := by
  have hdir : ((top ++ dir ++ [name]).drop top.length).dropLast = dir := by simp [List.append_assoc]
  unfold seeTagLink
  rw [zsFile_fileLink h ht]
  simp only [createSeeTagLink, hdir, h.file.2.2]
  cases hf : follow dir steps with
  | none =>
    constructor
    · intro e; cases e
    · rintro ⟨file, hp, _⟩
      rw [(follow_iff h).2 hp] at hf
      cases hf
  | some file =>
    have hp := (follow_iff h).1 hf
    have hu : ∀ {file'}, Path dir steps file' → file' = file := fun hp' => by
      have := (follow_iff h).2 hp'
      rw [hf] at this
      exact (Option.some.inj this).symm
    obtain ⟨n1, n2⟩ := hp.names hd
    have hv : type.elim (some (join file)) (fun t => some (join [join file, t])) = some (fullName file type) := by
      cases type with
      | none => simp [join_names n2, fullName]
      | some t =>
        have n3 := intercalate_ne_nil (sep := py! ".") n1 n2
        simp only [Option.elim]
        rw [join_names n2, join_names (by
          intro d hd
          simp at hd
          rcases hd with rfl | rfl
          · exact n3
          · exact (ht _ rfl).1), intercalate_cons₂, intercalate_single, fullName, Option.toList, intercalate_concat _ _ n1]
    have hv' : type.elim (some (join file)) (fun t => some (join [join file, t])) = some link ↔ fullName file type = link := by
      rw [hv, Option.some.injEq]
    refine Iff.trans (Iff.of_eq ?_) (hv'.trans ⟨fun e => ⟨file, hp, e.symm⟩, fun ⟨file', hp', e⟩ => by rw [e, hu hp']⟩)
    cases type <;> rfl

/-- C120: nothing but links to files with the extension `.zs`, or to names in them, becomes a tag; other links are texts. -/
theorem C120_only_files (pkg top : List PyStr) (link name : PyStr) (h : seeTagLink pkg top link = some name) :
    ∃ file, file ≠ [] ∧ (∀ c ∈ file, isNameChar c = true ∨ c = ch! '.' ∨ c = ch! '/') ∧
      (link = file ++ py! ".zs" ∨ ∃ type, IsName type ∧ link = file ++ py! ".zs#" ++ type) := by
  unfold seeTagLink at h
  split at h
  · cases h
  · rename_i file type hz
    clear h
    unfold zsFile at hz
    simp only at hz
    have h0 := List.takeWhile_append_dropWhile (p := fun x => decide (x ≠ ch! '#')) (l := link)
    split at hz
    · rename_i hc
      obtain ⟨c1, c2, c3⟩ := hc
      have hx : ∀ x r, link.dropWhile (fun c => decide (c ≠ ch! '#')) = x :: r → x = ch! '#' := by
        intro x r hr
        have := List.head_dropWhile_not (fun x => decide (x ≠ ch! '#')) (l := link) (by rw [hr]; simp)
        simpa only [hr, List.head_cons, decide_eq_false_iff_not, ne_eq, not_not] using this
      generalize link.takeWhile (fun x => decide (x ≠ ch! '#')) = f at *
      rw [List.isSuffixOf_iff_suffix] at c1
      obtain ⟨g, rfl⟩ := c1
      have hg : (g ++ py! ".zs").take ((g ++ py! ".zs").length - 3) = g := by simp
      rw [hg] at c2 c3 hz
      refine ⟨g, c2, ?_, ?_⟩
      · intro c hc
        have := List.all_eq_true.1 c3 c hc
        simpa [isFileChar, or_assoc] using this
      · split at hz
        · rename_i hd
          left
          rw [hd, List.append_nil] at h0
          exact h0.symm
        · rename_i x t hd
          right
          split at hz
          · rename_i ht
            refine ⟨t, ⟨ht.1, List.all_eq_true.1 ht.2⟩, ?_⟩
            rw [hd, hx x t hd] at h0
            rw [← h0]; simp
          · cases hz
    · cases hz

/-! ### Paragraphs -/

theorem trim_nil {l : PyStr} : trim l = [] ↔ IsBlankLine l := by
  unfold IsBlankLine
  rw [← visible_trim]
  constructor
  · intro h; rw [h]; rfl
  · intro h
    by_contra hne
    -- the last character of a trimmed text is visible
    have hrev : (l.dropWhile trimmed).reverse.dropWhile trimmed ≠ [] := by
      intro e; apply hne; rw [trim, e]; rfl
    have hnot := List.head_dropWhile_not trimmed hrev
    have hmem : ((l.dropWhile trimmed).reverse.dropWhile trimmed).head hrev ∈ trim l := by
      rw [trim, List.mem_reverse]; exact List.head_mem _
    have : ((l.dropWhile trimmed).reverse.dropWhile trimmed).head hrev ∈ visible (trim l) := by
      rw [visible, List.mem_filter]
      exact ⟨hmem, by simpa [trimmed] using hnot⟩
    rw [h] at this
    cases this

theorem Blocks.cons {l : PyStr} {ls : List PyStr} {bs : List (List PyStr)} (hl : IsBlankLine l) (h : Blocks IsBlankLine ls bs) :
    Blocks IsBlankLine (l :: ls) bs := by
  cases h with
  | none h => exact .none (by intro x hx; rcases List.mem_cons.1 hx with rfl | hx; exacts [hl, h x hx])
  | @block before run rest blocks h1 h2 h3 h4 h5 =>
    exact .block (before := l :: before) (by intro x hx; rcases List.mem_cons.1 hx with rfl | hx; exacts [hl, h1 x hx]) h2 h3 h4 h5

theorem paragraphs_blocks : ∀ ls : List PyStr,
    (∃ bs, Blocks IsBlankLine ls bs ∧ paragraphs [] ls = bs.map fun b => b.map trim) ∧
    ∀ cur, cur ≠ [] → ∃ run rest bs, ls = run ++ rest ∧ (∀ l ∈ run, ¬ IsBlankLine l) ∧ (rest = [] ∨ ∃ l r, rest = l :: r ∧ IsBlankLine l) ∧
      Blocks IsBlankLine rest bs ∧ paragraphs cur ls = (cur ++ run.map trim) :: bs.map fun b => b.map trim
  | [] => ⟨⟨[], .none (by simp), rfl⟩, fun cur hc => ⟨[], [], [], rfl, by simp, .inl rfl, .none (by simp), by simp [paragraphs, hc]⟩⟩
  | l :: ls => by
    obtain ⟨⟨bs, h1, h2⟩, h3⟩ := paragraphs_blocks ls
    by_cases hl : trim l = []
    · have hb := trim_nil.1 hl
      refine ⟨⟨bs, h1.cons hb, by simp [paragraphs, hl, h2]⟩, fun cur hc => ?_⟩
      exact ⟨[], l :: ls, bs, rfl, by simp, .inr ⟨l, ls, rfl, hb⟩, h1.cons hb, by simp [paragraphs, hl, hc, h2]⟩
    · have hb : ¬ IsBlankLine l := fun h => hl (trim_nil.2 h)
      constructor
      · obtain ⟨run, rest, bs, rfl, r1, r2, r3, r4⟩ := h3 [trim l] (by simp)
        refine ⟨(l :: run) :: bs, ?_, ?_⟩
        · exact Blocks.block (before := []) (run := l :: run) (by simp) (by simp)
            (by intro x hx; rcases List.mem_cons.1 hx with rfl | hx; exacts [hb, r1 x hx]) r2 r3
        · rw [paragraphs, if_pos hl, List.nil_append, r4]; simp
      · intro cur hc
        obtain ⟨run, rest, bs, rfl, r1, r2, r3, r4⟩ := h3 (cur ++ [trim l]) (by simp)
        refine ⟨l :: run, rest, bs, rfl, ?_, r2, r3, ?_⟩
        · intro x hx; rcases List.mem_cons.1 hx with rfl | hx; exacts [hb, r1 x hx]
        · rw [paragraphs, if_pos hl, r4]; simp

/-- C120: the paragraphs are the longest runs of lines which are not blank, each line without white space around it. -/
theorem C120_paragraphs (pkg top : List PyStr) (markdown : PyStr) :
    ∃ blocks, Blocks IsBlankLine (splitLines markdown) blocks ∧
      convert pkg top markdown = blocks.map fun b => b.map fun l => elements pkg top (trim l) := by
  obtain ⟨⟨bs, h1, h2⟩, _⟩ := paragraphs_blocks (splitLines markdown)
  exact ⟨bs, h1, by rw [convert, h2]; simp [Function.comp_def]⟩

theorem splitLines_ne_nil (s : PyStr) : splitLines s ≠ [] := by
  rw [splitLines.eq_def]
  split
  · simp
  · simp
  · split
    · simp
    · split <;> simp

theorem intercalate_nil_cons (sep : PyStr) {l : List PyStr} (h : l ≠ []) : List.intercalate sep ([] :: l) = sep ++ List.intercalate sep l := by
  cases l with
  | nil => exact absurd rfl h
  | cons a l => rw [intercalate_cons₂]; rfl

theorem intercalate_cons_head (sep : PyStr) (c : Nat) (l : PyStr) (ls : List PyStr) :
    List.intercalate sep ((c :: l) :: ls) = c :: List.intercalate sep (l :: ls) := by
  cases ls with
  | nil => simp [intercalate_single]
  | cons a ls => rw [intercalate_cons₂, intercalate_cons₂]; rfl

theorem universal_char {c : Nat} (hc : c ≠ 13) (r : PyStr) : Json.universal (c :: r) = c :: Json.universal r := by
  rw [Json.universal.eq_def]
  split
  · rename_i he; cases he
  · rename_i he; cases he; exact absurd rfl hc
  · rename_i he; cases he; exact absurd rfl hc
  · rename_i he; cases he; rfl

theorem universal_cr {r : PyStr} (hr : ∀ r', r ≠ 10 :: r') : Json.universal (13 :: r) = 10 :: Json.universal r := by
  rw [Json.universal.eq_def]
  split
  · rename_i he; cases he
  · rename_i r' he; cases he; exact absurd rfl (hr r')
  · rename_i he; cases he; rfl
  · rename_i h he; cases he; exact (h rfl).elim

/-- C120: the lines of a comment are the texts between its line breaks, which are `\n`, `\r\n` and `\r`. -/
theorem C120_lines : ∀ s : PyStr, List.intercalate [ch! '\n'] (splitLines s) = Json.universal s ∧ ∀ l ∈ splitLines s, ch! '\n' ∉ l ∧ ch! '\r' ∉ l
  | [] => by simp [splitLines, Json.universal, List.intercalate, List.intersperse]
  | c :: r => by
    have ih := C120_lines r
    rw [splitLines.eq_def]
    split
    · rename_i he; cases he
    · rename_i r' he
      obtain ⟨rfl, rfl⟩ := List.cons_eq_cons.1 he
      have ih' := C120_lines r'
      refine ⟨by rw [intercalate_nil_cons _ (splitLines_ne_nil _), ih'.1]; rfl, ?_⟩
      intro l hl
      rcases List.mem_cons.1 hl with rfl | hl
      · simp
      · exact ih'.2 l hl
    · rename_i c' r' hne he
      obtain ⟨rfl, rfl⟩ := List.cons_eq_cons.1 he
      by_cases hc : c = 10 ∨ c = 13
      · rw [if_pos hc]
        constructor
        · rw [intercalate_nil_cons _ (splitLines_ne_nil _), ih.1]
          rcases hc with rfl | rfl
          · rw [universal_char (by omega)]; rfl
          · rw [universal_cr fun r' e => hne r' rfl e]; rfl
        · intro l hl
          rcases List.mem_cons.1 hl with rfl | hl
          · simp
          · exact ih.2 l hl
      · rw [if_neg hc]
        rw [universal_char (fun e => hc (.inr e)), ← ih.1]
        cases hs : splitLines r with
        | nil => exact absurd hs (splitLines_ne_nil r)
        | cons l ls =>
          simp only
          refine ⟨intercalate_cons_head _ _ _ _, ?_⟩
          intro x hx
          rcases List.mem_cons.1 hx with rfl | hx
          · have := ih.2 l (by rw [hs]; simp)
            simp only [List.mem_cons, not_or]
            exact ⟨⟨fun e => hc (.inl e.symm), this.1⟩, fun e => hc (.inr e.symm), this.2⟩
          · exact ih.2 x (by rw [hs]; simp [hx])

theorem visible_splitLines : ∀ s : PyStr, visible (splitLines s).flatten = visible s
  | [] => rfl
  | 13 :: 10 :: r => by rw [splitLines]; simpa [visible] using visible_splitLines r
  | c :: r => by
    have ih := visible_splitLines r
    rw [splitLines.eq_def]
    split
    · rename_i he; cases he
    · rename_i r' he
      obtain ⟨rfl, rfl⟩ := List.cons_eq_cons.1 he
      have ih' := visible_splitLines r'
      simpa [visible] using ih'
    · rename_i c' r' _ he
      obtain ⟨rfl, rfl⟩ := List.cons_eq_cons.1 he
      split
      · rename_i hc
        have : ¬ 32 < c := by omega
        simpa [visible, this] using ih
      · cases hs : splitLines r with
        | nil =>
          rw [hs] at ih
          simp only [List.flatten_cons, List.flatten_nil, List.append_nil]
          rw [show c :: r = [c] ++ r from rfl, visible_append, ← ih]; simp [visible]
        | cons l ls =>
          rw [hs] at ih
          simp only [List.flatten_cons, List.cons_append]
          rw [show c :: (l ++ ls.flatten) = [c] ++ (l :: ls).flatten by simp, show c :: r = [c] ++ r from rfl, visible_append, visible_append, ih]

theorem visible_blocks {ls : List PyStr} {bs : List (List PyStr)} (h : Blocks IsBlankLine ls bs) :
    visible bs.flatten.flatten = visible ls.flatten := by
  have hblank : ∀ {l : List PyStr}, (∀ x ∈ l, IsBlankLine x) → visible l.flatten = [] := by
    intro l hl
    induction l with
    | nil => rfl
    | cons x l ih =>
      rw [List.flatten_cons, visible_append, hl x (by simp), ih fun y hy => hl y (by simp [hy])]; rfl
  induction h with
  | none h => rw [hblank h]; rfl
  | block h1 _ _ _ _ ih =>
    rw [List.flatten_cons, List.flatten_append, visible_append, ih, List.flatten_append, List.flatten_append, visible_append, visible_append,
      hblank h1]; rfl

/-- C120: of a comment nothing is lost but white space. -/
theorem C120_text (pkg top : List PyStr) (markdown : PyStr) :
    ∃ srcs, List.Forall₂ (Source pkg top) (convert pkg top markdown).flatten.flatten srcs ∧ visible srcs.flatten = visible markdown := by
  obtain ⟨bs, h1, h2⟩ := C120_paragraphs pkg top markdown
  have hlines : ∀ ls : List PyStr, ∃ srcs, List.Forall₂ (Source pkg top) (ls.map fun l => elements pkg top (trim l)).flatten srcs ∧
      visible srcs.flatten = visible ls.flatten := by
    intro ls
    induction ls with
    | nil => exact ⟨[], .nil, rfl⟩
    | cons l ls ih =>
      obtain ⟨a, a1, a2⟩ := ih
      obtain ⟨b, b1, b2⟩ := C120_line pkg top (trim l)
      exact ⟨b ++ a, List.rel_append b1 a1, by rw [List.flatten_append, visible_append, a2, b2, visible_trim, List.flatten_cons, visible_append]⟩
  obtain ⟨srcs, s1, s2⟩ := hlines bs.flatten
  refine ⟨srcs, ?_, ?_⟩
  · rw [h2, ← List.map_flatten]; exact s1
  · rw [s2, visible_blocks h1, visible_splitLines]

/-! ### Whole comments -/

open DocAttach (stripIndent lineStart firstLineIndent commentIndent stripStart stripEnd) in
theorem stripIndent_inside (indent : PyStr) : ∀ (f p : Nat) (s : PyStr), terminator p = false → (∀ c ∈ s, terminator c = false) →
    stripIndent indent f (some p) s = s
  | _, _, [], _, _ => by simp [stripIndent]
  | 0, _, c :: s, _, _ => by simp [stripIndent]
  | f + 1, p, c :: s, hp, hs => by
    rw [stripIndent, if_neg (by simp [lineStart, hp]), stripIndent_inside indent f c s (hs c (by simp)) fun x hx => hs x (by simp [hx])]

open DocAttach (stripIndent lineStart) in
theorem stripIndent_keep {indent : PyStr} (hi : indent ≠ []) (hb : ∀ c ∈ indent, c ≤ 32) {e : Nat} {es : PyStr} (he : 32 < e)
    (ht : ∀ c ∈ e :: es, terminator c = false) : ∀ (f : Nat) (prev : Option Nat) (s : PyStr),
    ∃ s', stripIndent indent f prev (s ++ e :: es) = s' ++ e :: es ∧ visible s' = visible s
  | 0, prev, s => ⟨s, by cases s <;> simp [stripIndent], rfl⟩
  | f + 1, prev, [] => by
    refine ⟨[], ?_, rfl⟩
    have hp : ¬ (indent.isPrefixOf (e :: es) = true) := by
      rw [List.isPrefixOf_iff_prefix]
      rintro ⟨t, h⟩
      cases indent with
      | nil => exact hi rfl
      | cons i is =>
        have := (List.cons_eq_cons.1 h).1
        have := hb i (by simp)
        omega
    rw [List.nil_append, stripIndent, if_neg (by simp [hp]),
      stripIndent_inside indent f e es (ht e (by simp)) fun x hx => ht x (by simp [hx])]
  | f + 1, prev, c :: s => by
    rw [List.cons_append, stripIndent]
    split
    · rename_i h
      have hpre := List.isPrefixOf_iff_prefix.1 h.2
      obtain ⟨t, hpre⟩ := hpre
      have : ∃ a, c :: s = indent ++ a := by
        rw [← List.cons_append] at hpre
        rcases List.append_eq_append_iff.1 hpre with ⟨a, h1, h2⟩ | ⟨a, h1, h2⟩
        · exact ⟨a, h1⟩
        · cases a with
          | nil => exact ⟨[], by simpa using h1.symm⟩
          | cons x a =>
            have e1 := (List.cons_eq_cons.1 h2).1
            have := hb x (by rw [h1]; simp)
            omega
      obtain ⟨a, ha⟩ := this
      obtain ⟨s', h1, h2⟩ := stripIndent_keep hi hb he ht f indent.getLast? a
      refine ⟨s', ?_, ?_⟩
      · rw [← List.cons_append, ha, List.append_assoc, List.drop_left, h1]
      · rw [h2, ha, visible_append]
        have : visible indent = [] := by
          rw [visible, List.filter_eq_nil_iff]
          intro x hx
          have := hb x hx
          simpa using this
        rw [this, List.nil_append]
    · obtain ⟨s', h1, h2⟩ := stripIndent_keep hi hb he ht f (some c) s
      refine ⟨c :: s', by rw [h1, List.cons_append], ?_⟩
      rw [show c :: s' = [c] ++ s' from rfl, show c :: s = [c] ++ s from rfl, visible_append, visible_append, h2]

open DocAttach (firstLineIndent commentIndent) in
theorem commentIndent_blank {text : PyStr} {column : Nat} {indent : PyStr} (h : commentIndent text column = some indent) :
    indent ≠ [] ∧ ∀ c ∈ indent, c ≤ 32 := by
  have hf : ∀ ls : List PyStr, ∀ c ∈ firstLineIndent column ls, c ≤ 32 := by
    intro ls
    induction ls with
    | nil => simp [firstLineIndent]
    | cons l ls ih =>
      rw [firstLineIndent]
      split
      · exact ih
      · split
        · rename_i hl
          intro c hc
          have := List.all_eq_true.1 hl.2 c hc
          simp only [DocAttach.blank, decide_eq_true_eq] at this
          omega
        · simp
  unfold commentIndent at h
  split at h
  · split at h
    · simp only at h
      split at h
      · rename_i hc
        cases h
        exact ⟨hc.1, hf _⟩
      · cases h
    · cases h
  · cases h

open DocAttach (stripIndent commentIndent stripStart stripEnd lineStart) in
/-- C120: of the text between `/*!` and `!*/` nothing is lost but white space, wherever the comment is and however it is indented. -/
theorem C120_comment (pkg top : List PyStr) (body : PyStr) (column : Nat) :
    ∃ srcs, List.Forall₂ (Source pkg top) (convert pkg top (DocAttach.markdown (py! "/*!" ++ body ++ py! "!*/") column)).flatten.flatten srcs ∧
      visible srcs.flatten = visible body := by
  have hfin : ∀ body' : PyStr, stripEnd (stripStart (py! "/*!" ++ body' ++ py! "!*/")) = body' := by
    intro body'
    have h1 : (py! "/*!").isPrefixOf (py! "/*!" ++ body' ++ py! "!*/") = true := by
      rw [List.isPrefixOf_iff_prefix]; exact ⟨body' ++ py! "!*/", by simp⟩
    have h2 : (py! "/*!" ++ body' ++ py! "!*/").drop 3 = body' ++ py! "!*/" := by simp
    have h3 : (py! "!*/").isSuffixOf (body' ++ py! "!*/") = true := by
      rw [List.isSuffixOf_iff_suffix]; exact ⟨body', rfl⟩
    rw [stripStart, if_pos h1, h2, stripEnd, if_pos h3]
    simp
  have key : ∃ body', DocAttach.markdown (py! "/*!" ++ body ++ py! "!*/") column = body' ∧ visible body' = visible body := by
    unfold DocAttach.markdown
    split
    · rename_i indent hi
      obtain ⟨b1, b2⟩ := commentIndent_blank hi
      have hnp : ∀ r : PyStr, ¬ (indent.isPrefixOf (47 :: r) = true) := by
        intro r
        rw [List.isPrefixOf_iff_prefix]
        rintro ⟨t, h⟩
        cases indent with
        | nil => exact b1 rfl
        | cons i is =>
          have := (List.cons_eq_cons.1 h).1
          have := b2 i (by simp)
          omega
      obtain ⟨s', h1, h2⟩ := stripIndent_keep b1 b2 (e := 33) (es := [42, 47]) (by omega) (by decide) (body.length + 3) (some 33) body
      refine ⟨s', ?_, h2⟩
      have hlen : (py! "/*!" ++ body ++ py! "!*/").length = body.length + 3 + 3 := by simp
      have e : py! "/*!" ++ body ++ py! "!*/" = 47 :: 42 :: 33 :: (body ++ 33 :: [42, 47]) := by simp
      have hs : stripIndent indent (py! "/*!" ++ body ++ py! "!*/").length none (py! "/*!" ++ body ++ py! "!*/") =
          py! "/*!" ++ s' ++ py! "!*/" := by
        rw [hlen, e, stripIndent, if_neg (by simp [hnp]), stripIndent, if_neg (by simp [lineStart, terminator]), stripIndent,
          if_neg (by simp [lineStart, terminator]), h1]
        simp
      rw [hs, hfin]
    · exact ⟨body, hfin body, rfl⟩
  obtain ⟨body', h1, h2⟩ := key
  obtain ⟨srcs, s1, s2⟩ := C120_text pkg top body'
  exact ⟨srcs, by rw [h1]; exact s1, by rw [s2, h2]⟩

/-! ### Examples and deviations -/

/-- a comment in the file `lib/types/point.zs` with two paragraphs -/
example : convert [py! "top", py! "lib", py! "types", py! "point"] [py! "top"]
      (py! "\n A point, see [areas](../area.zs#Area) and [Lines](line.zs).\r\n  Also [web](https://a.b/c).\n \n More [out](../../../x.zs)\n") =
    [[[.text (py! "A point, see"), .see (py! "areas") (py! "lib.area.Area"), .text (py! "and"), .see (py! "Lines") (py! "lib.types.line"), .text (py! ".")],
      [.text (py! "Also [web](https://a.b/c)"), .text (py! ".")]],
     [[.text (py! "More [out](../../../x.zs)")]]] := by decide +kernel

example : IsPath [py! "..", py! "area"] ∧ Path [py! "lib", py! "types"] [py! "..", py! "area"] [py! "lib", py! "area"] :=
  ⟨⟨by simp only [List.mem_cons, List.not_mem_nil, or_false]
       rintro s (rfl | rfl)
       · exact .inr (.inr rfl)
       · exact .inl ⟨by decide, by decide⟩, py! "area", rfl, by decide, by decide⟩,
   .up (dir := [py! "lib"]) (.file ⟨by decide, by decide⟩)⟩

example : Linked (py! "see [areas](../area.zs#Area).") [(py! "areas", py! "../area.zs#Area")] :=
  .link (s := py! "see ") (label := py! "areas") (link := py! "../area.zs#Area") (rest := py! ".") (by decide) (by decide) (by decide) (by decide)
    (by decide) (.text (by decide))

/-- C120, the deviation: a bracket which belongs to no link hides all links of the rest of the line. -/
theorem C120_bracket_deviates : elements [py! "a"] [] (py! "values[i] of [the list](list.zs#List)") =
      [.text (py! "values[i] of [the list](list.zs#List)")] ∧
    elements [py! "a"] [] (py! "values of [the list](list.zs#List)") = [.text (py! "values of"), .see (py! "the list") (py! "list.List")] := by
  decide +kernel

/-- C120, the deviation: the path of a file whose name has a dot is taken for a path with one more directory; such files are no schemas. -/
theorem C120_dot_deviates : seeTagLink [py! "a"] [] (py! "lib.old/list.zs") = some (py! "lib.old.list") ∧
    seeTagLink [py! "a"] [] (py! "lib/old/list.zs") = some (py! "lib.old.list") := by decide +kernel

/-- C120, the deviation: in the comments of a type with a field `list`, a link to the file `list.zs` leads to the field. -/
theorem C120_field_deviates (S : DocLinks.Sources) (pkg : Visibility.Package) (d : DocLinks.Decl) (m : DocLinks.Member) (h : d.find (py! "list") = some m) :
    seeTagLink [py! "a"] [] (py! "list.zs") = some (py! "list") ∧ DocLinks.resolve S pkg (some d) [py! "list"] = .ok (.member d m) := by
  refine ⟨by decide +kernel, ?_⟩
  simp [DocLinks.resolve, DocLinks.resolveScopeSymbol, h]

example : (⟨⟨[py! "a"], py! "T"⟩, .scoped .compound [⟨py! "list", .field⟩], false⟩ : DocLinks.Decl).find (py! "list") = some ⟨py! "list", .field⟩ := by
  decide +kernel

end Zserio.Markdown
