import Verif.Spec.DocClassic
import Mathlib.Data.List.Basic
import Mathlib.Data.List.Chain
/-
Property C122: paragraphs of classic documentation comments.
-/
namespace Zserio.DocClassic

/-- the reference of an element to a node -/
def Ref.node : Ref → Option Nat
  | .see _ _ => none
  | .deprecated => none
  | .multiline n => some n
  | .todo n => some n
  | .param _ n => some n

/-- all references are smaller than `n` -/
def Below (n : Nat) (es : List Ref) : Prop := ∀ e ∈ es, ∀ i, e.node = some i → i < n

theorem Below.mono {n m : Nat} {es : List Ref} (h : Below n es) (hm : n ≤ m) : Below m es :=
  fun e he i hi => Nat.lt_of_lt_of_le (h e he i hi) hm

theorem deref_congr {a b : List (List Line)} {e : Ref} (h : ∀ i, e.node = some i → a.getD i [] = b.getD i []) : e.deref a = e.deref b := by
  cases e <;> simp only [Ref.deref] <;> rw [h _ rfl]

theorem deref_append {a : List (List Line)} {e : Ref} (x : List Line) (h : ∀ i, e.node = some i → i < a.length) :
    e.deref (a ++ [x]) = e.deref a :=
  deref_congr fun i hi => by simp [List.getD_eq_getElem?_getD, List.getElem?_append_left (h i hi)]

theorem deref_modify {a : List (List Line)} {e : Ref} (n : Nat) (f) (h : ∀ i, e.node = some i → i < n) :
    e.deref (a.modify n f) = e.deref a :=
  deref_congr fun i hi => by
    have := h i hi
    simp [List.getD_eq_getElem?_getD, show n ≠ i by omega]

theorem map_deref_append {a : List (List Line)} {es : List Ref} (x : List Line) (h : Below a.length es) :
    es.map (·.deref (a ++ [x])) = es.map (·.deref a) :=
  List.map_congr_left fun e he => deref_append x (h e he)

theorem map_deref_modify {a : List (List Line)} {es : List Ref} (n : Nat) (f) (h : Below n es) :
    es.map (·.deref (a.modify n f)) = es.map (·.deref a) :=
  List.map_congr_left fun e he => deref_modify n f (h e he)

theorem cut_ne (items : List Item) : cut items ≠ [] := by
  cases items with
  | nil => simp [cut]
  | cons i r => unfold cut; split; · simp
                split <;> simp

theorem cut_snoc_empty : ∀ items : List Item, cut (items ++ [.empty]) = cut items ++ [[]]
  | [] => by simp [cut]
  | i :: r => by
    have ih := cut_snoc_empty r
    rw [List.cons_append]
    unfold cut
    split
    · rw [ih]; rfl
    · rw [ih]
      rcases hc : cut r with _ | ⟨g, gs⟩
      · exact absurd hc (cut_ne r)
      · rfl

theorem cut_snoc {i : Item} (hi : i ≠ .empty) : ∀ (items : List Item) (G : List (List Item)) (g : List Item), cut items = G ++ [g] →
    cut (items ++ [i]) = G ++ [g ++ [i]]
  | [], G, g, h => by
    have : G = [] ∧ g = [] := by
      cases G with
      | nil => simpa [cut, eq_comm] using h
      | cons a b => simp [cut] at h
    obtain ⟨rfl, rfl⟩ := this
    simp [cut, hi]
  | j :: r, G, g, h => by
    rw [List.cons_append]
    unfold cut at h ⊢
    split at h
    · rename_i hj
      rw [if_pos hj]
      cases G with
      | nil =>
        have h' : cut r = [] := by simpa using (List.cons.inj h).2
        exact absurd h' (cut_ne r)
      | cons a b =>
        obtain ⟨rfl, h'⟩ := List.cons.inj h
        rw [cut_snoc hi r b g h']; rfl
    · rename_i hj
      rw [if_neg hj]
      rcases hc : cut r with _ | ⟨g', gs⟩
      · exact absurd hc (cut_ne r)
      · rw [hc] at h
        cases G with
        | nil =>
          obtain ⟨rfl, rfl⟩ : j :: g' = g ∧ gs = [] := by simpa using h
          rw [cut_snoc hi r [] g' hc]; rfl
        | cons a b =>
          obtain ⟨rfl, rfl⟩ : j :: g' = a ∧ gs = b ++ [g] := by simpa using h
          rw [cut_snoc hi r (g' :: b) g hc]; rfl

theorem modify_last {α : Type} (f : α → α) (x : α) : ∀ l : List α, (l ++ [x]).modify l.length f = l ++ [f x]
  | [] => rfl
  | a :: l => by simpa using modify_last f x l

/-- text follows neither text nor a tag with lines -/
def Sep (a b : Element) : Prop := ¬ (a.HasLines ∧ b.IsText)

/-- The state of the visitor after `items`: `P` are the finished paragraphs, `p` is the current one. -/
structure Inv (s : State) (items : List Item) (P : List (List Ref)) (p : List Ref) (G : List (List Item)) : Prop where
  paragraphs : s.paragraphs = P ++ (if p = [] then [] else [p])
  current : s.currentParagraph = if p = [] then none else some P.length
  belowP : ∀ q ∈ P, Below s.nodes.length q
  below : Below s.nodes.length p
  cut : DocClassic.cut items = G ++ [(p.map (·.deref s.nodes)).flatMap Element.written]
  groups : P.map (fun q => (q.map (·.deref s.nodes)).flatMap Element.written) = G.filter (· ≠ [])
  filled : ∀ n ∈ s.nodes, n ≠ []
  sepP : ∀ q ∈ P, (q.map (·.deref s.nodes)).IsChain Sep
  sep : (p.map (·.deref s.nodes)).IsChain Sep
  open_ : ∀ i, s.currentMultilineNode = some i → s.nodes.length = i + 1 ∧ (∀ q ∈ P, Below i q) ∧
    ∃ p' e, p = p' ++ [e] ∧ e.node = some i ∧ Below i p'
  closed : s.currentMultilineNode = none → ∀ e, p.getLast? = some e → e.node = none
  ne : ∀ q ∈ P, q ≠ []

theorem written_ne {nodes : List (List Line)} (hf : ∀ n ∈ nodes, n ≠ []) {e : Ref} (h : ∀ i, e.node = some i → i < nodes.length) :
    (e.deref nodes).written ≠ [] := by
  have key : ∀ i, e.node = some i → nodes.getD i [] ≠ [] := by
    intro i hi
    have := h i hi
    rw [List.getD_eq_getElem?_getD, List.getElem?_eq_getElem this]
    exact hf _ (List.getElem_mem this)
  cases e with
  | see => simp [Ref.deref, Element.written]
  | deprecated => simp [Ref.deref, Element.written]
  | multiline n => simpa [Ref.deref, Element.written] using key n rfl
  | todo n =>
    have := key n rfl
    simp only [Ref.deref, Element.written]
    split <;> simp_all
  | param _ n =>
    have := key n rfl
    simp only [Ref.deref, Element.written]
    split <;> simp_all

theorem para_ne {nodes : List (List Line)} (hf : ∀ n ∈ nodes, n ≠ []) {p : List Ref} (h : Below nodes.length p) (hp : p ≠ []) :
    (p.map (·.deref nodes)).flatMap Element.written ≠ [] := by
  cases p with
  | nil => exact absurd rfl hp
  | cons e p =>
    have := written_ne hf (e := e) fun i hi => h e (List.mem_cons_self ..) i hi
    simp [this]

/-- adding an element with possibly one new node -/
theorem Inv.add {s : State} {items P p G} (h : Inv s items P p G) (e : Ref) (i : Item) (new : List (List Line)) (hi : i ≠ .empty)
    (hnew : ∀ n ∈ new, n ≠ []) (hlen : new.length ≤ 1)
    (hnode : (new = [] ∧ e.node = none) ∨ (new ≠ [] ∧ e.node = some s.nodes.length))
    (hw : (e.deref (s.nodes ++ new)).written = [i])
    (htext : s.currentMultilineNode ≠ none → ¬ (e.deref (s.nodes ++ new)).IsText) :
    Inv ({ s with nodes := s.nodes ++ new, currentMultilineNode := e.node }.addDocElement e) (items ++ [i]) P (p ++ [e]) G := by
  have hd : ∀ es, Below s.nodes.length es → es.map (·.deref (s.nodes ++ new)) = es.map (·.deref s.nodes) := by
    intro es hes
    match new, hlen with
    | [], _ => simp
    | [x], _ => exact map_deref_append x hes
  have hst : ({ s with nodes := s.nodes ++ new, currentMultilineNode := e.node }.addDocElement e) =
      ⟨s.nodes ++ new, P ++ [p ++ [e]], some P.length, e.node⟩ := by
    unfold State.addDocElement
    rw [h.current, h.paragraphs]
    by_cases hp : p = []
    · simp [hp]
    · simp [hp, modify_last]
  have hl : s.nodes.length ≤ (s.nodes ++ new).length := by simp
  rw [hst]
  constructor
  · simp
  · simp
  · intro q hq; exact (h.belowP q hq).mono hl
  · intro e' he' j hj
    rcases List.mem_append.1 he' with he' | he'
    · exact Nat.lt_of_lt_of_le (h.below e' he' j hj) hl
    · rw [List.mem_singleton] at he'
      subst he'
      rcases hnode with ⟨_, h2⟩ | ⟨h1, h2⟩
      · rw [h2] at hj; cases hj
      · rw [h2, Option.some.injEq] at hj
        subst hj
        have := List.length_pos_iff.2 h1
        simp only [List.length_append]; omega
  · rw [cut_snoc hi _ _ _ h.cut]
    simp only [List.map_append, hd p h.below, List.flatMap_append, List.map_cons, List.map_nil, List.flatMap_cons, List.flatMap_nil,
      List.append_nil, hw]
  · rw [← h.groups]
    exact List.map_congr_left fun q hq => by rw [hd q (h.belowP q hq)]
  · intro n hn
    rcases List.mem_append.1 hn with hn | hn
    · exact h.filled n hn
    · exact hnew n hn
  · intro q hq; rw [hd q (h.belowP q hq)]; exact h.sepP q hq
  · simp only [List.map_append, hd p h.below, List.map_cons, List.map_nil]
    rw [List.isChain_append]
    refine ⟨h.sep, by simp, ?_⟩
    intro a ha b hb
    simp only [List.head?_cons, Option.mem_def, Option.some.injEq] at hb
    subst hb
    rintro ⟨hs1, hs2⟩
    rw [List.getLast?_map, Option.mem_def, Option.map_eq_some_iff] at ha
    obtain ⟨e', he', rfl⟩ := ha
    cases hc : s.currentMultilineNode with
    | some k => exact htext (by rw [hc]; simp) hs2
    | none =>
      have := h.closed hc e' he'
      cases e' <;> simp_all [Ref.node, Ref.deref, Element.HasLines]
  · intro k hk
    dsimp only at hk
    rcases hnode with ⟨_, h2⟩ | ⟨h1, h2⟩
    · rw [h2] at hk; cases hk
    · rw [h2, Option.some.injEq] at hk
      subst hk
      have := List.length_pos_iff.2 h1
      exact ⟨by simp only [List.length_append]; omega, h.belowP, p, e, rfl, h2, h.below⟩
  · intro hk e' he'
    simp only [List.getLast?_append, List.getLast?_singleton, Option.some_or, Option.some.injEq] at he'
    subst he'; exact hk
  · exact h.ne

theorem Inv.visit {s : State} {items P p G} (h : Inv s items P p G) (i : Item) : ∃ P' p' G', Inv (s.visit i) (items ++ [i]) P' p' G' := by
  cases i with
  | see a l =>
    have := h.add (.see a l) (.see a l) [] (by simp) (by simp) (by simp) (.inl ⟨rfl, rfl⟩) rfl (by simp [Ref.deref, Element.IsText])
    simp only [List.append_nil] at this
    exact ⟨_, _, _, this⟩
  | deprecated =>
    have := h.add .deprecated .deprecated [] (by simp) (by simp) (by simp) (.inl ⟨rfl, rfl⟩) rfl (by simp [Ref.deref, Element.IsText])
    simp only [List.append_nil] at this
    exact ⟨_, _, _, this⟩
  | todo l =>
    exact ⟨_, _, _, h.add (.todo s.nodes.length) (.todo l) [[l]] (by simp) (by simp) (by simp) (.inr ⟨by simp, rfl⟩)
      (by simp [Ref.deref, Element.written]) (by simp [Ref.deref, Element.IsText])⟩
  | param n l =>
    exact ⟨_, _, _, h.add (.param n s.nodes.length) (.param n l) [[l]] (by simp) (by simp) (by simp) (.inr ⟨by simp, rfl⟩)
      (by simp [Ref.deref, Element.written]) (by simp [Ref.deref, Element.IsText])⟩
  | empty =>
    refine ⟨P ++ (if p = [] then [] else [p]), [], G ++ [(p.map (·.deref s.nodes)).flatMap Element.written], ?_⟩
    constructor
    · simp [State.visit, h.paragraphs]
    · simp [State.visit]
    · intro q hq
      rcases List.mem_append.1 hq with hq | hq
      · exact h.belowP q hq
      · split at hq
        · cases hq
        · rw [List.mem_singleton] at hq; subst hq; exact h.below
    · intro e he; cases he
    · rw [cut_snoc_empty, h.cut]; rfl
    · show List.map (fun q : List Ref => (q.map (·.deref s.nodes)).flatMap Element.written) _ = _
      rw [List.map_append, h.groups, List.filter_append]
      congr 1
      by_cases hp : p = []
      · simp [hp]
      · have := para_ne h.filled h.below hp
        simp only [if_neg hp, List.map_cons, List.map_nil]
        rw [List.filter_cons_of_pos (by simpa using this)]; rfl
    · exact h.filled
    · intro q hq
      rcases List.mem_append.1 hq with hq | hq
      · exact h.sepP q hq
      · split at hq
        · cases hq
        · rw [List.mem_singleton] at hq; subst hq; exact h.sep
    · exact List.isChain_nil
    · intro i hi; cases hi
    · intro _ e he; cases he
    · intro q hq
      rcases List.mem_append.1 hq with hq | hq
      · exact h.ne q hq
      · split at hq
        · cases hq
        · rename_i hp; rw [List.mem_singleton] at hq; subst hq; exact hp
  | line l =>
    cases hc : s.currentMultilineNode with
    | none =>
      have := h.add (.multiline s.nodes.length) (.line l) [[l]] (by simp) (by simp) (by simp) (.inr ⟨by simp, rfl⟩)
        (by simp [Ref.deref, Element.written]) (by rw [hc]; simp)
      refine ⟨P, p ++ [.multiline s.nodes.length], G, ?_⟩
      simp only [State.visit, hc]; exact this
    | some n =>
      obtain ⟨h1, h2, p', e, rfl, he, hb⟩ := h.open_ n hc
      have hv : s.visit (.line l) = s.addLine n l := by simp only [State.visit, hc]
      rw [hv]
      have hlen : (s.addLine n l).nodes.length = s.nodes.length := by simp [State.addLine]
      have hget : s.nodes.getD n [] ≠ [] := by
        have hn : n < s.nodes.length := by omega
        rw [List.getD_eq_getElem?_getD, List.getElem?_eq_getElem hn]
        exact h.filled _ (List.getElem_mem hn)
      have hnew : (s.nodes.modify n (· ++ [l])).getD n [] = s.nodes.getD n [] ++ [l] := by
        have hn : n < s.nodes.length := by omega
        simp [List.getD_eq_getElem?_getD, hn]
      have hwe : (e.deref (s.nodes.modify n (· ++ [l]))).written = (e.deref s.nodes).written ++ [.line l] := by
        cases e <;> simp only [Ref.node, reduceCtorEq, Option.some.injEq] at he <;> subst he <;>
          simp only [Ref.deref, hnew, Element.written]
        · simp
        all_goals
          rcases hg : s.nodes.getD _ [] with _ | ⟨x, xs⟩
          · exact absurd hg hget
          · simp
      have hse : ∀ a, Sep a (e.deref s.nodes) → Sep a (e.deref (s.nodes.modify n (· ++ [l]))) := by
        intro a; cases e <;> simp [Sep, Ref.deref, Element.IsText]
      have hdP : ∀ q ∈ P, q.map (·.deref (s.nodes.modify n (· ++ [l]))) = q.map (·.deref s.nodes) :=
        fun q hq => map_deref_modify n _ (h2 q hq)
      have hdp := map_deref_modify (a := s.nodes) n (· ++ [l]) hb
      refine ⟨P, p' ++ [e], G, ?_⟩
      constructor
      · exact h.paragraphs
      · exact h.current
      · rw [hlen]; exact h.belowP
      · rw [hlen]; exact h.below
      · rw [cut_snoc (by simp) _ _ _ h.cut]
        simp only [State.addLine, List.map_append, hdp, List.flatMap_append, List.map_cons, List.map_nil, List.flatMap_cons,
          List.flatMap_nil, List.append_nil, hwe, List.append_assoc]
      · rw [← h.groups]
        exact List.map_congr_left fun q hq => by simp only [State.addLine]; rw [hdP q hq]
      · intro x hx
        obtain ⟨k, hk, rfl⟩ := List.mem_iff_getElem.1 hx
        simp only [State.addLine, List.getElem_modify]
        split
        · simp
        · exact h.filled _ (List.getElem_mem _)
      · intro q hq; simp only [State.addLine]; rw [hdP q hq]; exact h.sepP q hq
      · have hs := h.sep
        simp only [State.addLine, List.map_append, hdp, List.map_cons, List.map_nil, List.isChain_append] at hs ⊢
        refine ⟨hs.1, by simp, ?_⟩
        intro a ha b hb'
        simp only [List.head?_cons, Option.mem_def, Option.some.injEq] at hb'
        subst hb'
        exact hse a (hs.2.2 a ha _ (by simp))
      · intro i hi
        rw [hlen]
        exact h.open_ i hi
      · intro hk; rw [show (s.addLine n l).currentMultilineNode = some n from hc] at hk; cases hk
      · exact h.ne

theorem Inv.all (items : List Item) : ∃ P p G, Inv (items.foldl State.visit State.init) items P p G := by
  induction items using List.reverseRecOn with
  | nil =>
    refine ⟨[], [], [], ?_⟩
    constructor <;> simp [State.init, DocClassic.cut, Below]
  | append_singleton items i ih =>
    obtain ⟨P, p, G, h⟩ := ih
    rw [List.foldl_append]
    exact h.visit i

/-- C122: the paragraphs of a comment are what is between empty lines: together, what was written for the elements of a paragraph is
one of the non-empty parts of the comment, in the same order, and nothing is lost or added. -/
theorem C122_paragraphs (items : List Item) :
    (build items).map (·.flatMap Element.written) = (cut items).filter (· ≠ []) := by
  obtain ⟨P, p, G, h⟩ := Inv.all items
  unfold build
  simp only
  rw [h.cut, h.paragraphs, List.filter_append, ← h.groups, List.map_append, List.map_append, List.map_map]
  congr 1
  by_cases hp : p = []
  · simp [hp]
  · have := para_ne h.filled h.below hp
    simp only [if_neg hp, List.map_cons, List.map_nil]
    rw [List.filter_cons_of_pos (by simpa using this)]; rfl

/-- C122: lines belong to the text or the `@todo` or `@param` tag above, as long as there is no empty line or other tag: no text comes
directly after such an element of the same paragraph. -/
theorem C122_lines (items : List Item) (pre post : List Element) (a b : Element) (h : pre ++ a :: b :: post ∈ build items) :
    ¬ (a.HasLines ∧ b.IsText) := by
  obtain ⟨P, p, G, hI⟩ := Inv.all items
  have hc : (pre ++ a :: b :: post).IsChain Sep := by
    unfold build at h
    simp only [List.mem_map] at h
    obtain ⟨q, hq, e⟩ := h
    rw [← e]
    rw [hI.paragraphs, List.mem_append] at hq
    rcases hq with hq | hq
    · exact hI.sepP q hq
    · split at hq
      · cases hq
      · rw [List.mem_singleton] at hq; subst hq; exact hI.sep
  rw [List.isChain_append] at hc
  exact (List.isChain_cons_cons.1 hc.2.1).1

/-- C122: no paragraph and no element is empty. -/
theorem C122_filled (items : List Item) (q : List Element) (h : q ∈ build items) : q ≠ [] ∧ ∀ e ∈ q, e.written ≠ [] := by
  obtain ⟨P, p, G, hI⟩ := Inv.all items
  unfold build at h
  simp only [List.mem_map] at h
  obtain ⟨r, hr, rfl⟩ := h
  rw [hI.paragraphs, List.mem_append] at hr
  have hr' : Below (items.foldl State.visit State.init).nodes.length r ∧ r ≠ [] := by
    rcases hr with hr | hr
    · exact ⟨hI.belowP r hr, hI.ne r hr⟩
    · split at hr
      · cases hr
      · rename_i hp; rw [List.mem_singleton] at hr; subst hr; exact ⟨hI.below, hp⟩
  refine ⟨by simpa using hr'.2, ?_⟩
  intro e he
  obtain ⟨x, hx, rfl⟩ := List.mem_map.1 he
  exact written_ne hI.filled fun i hi => hr'.1 x hx i hi

/-- the first item is no line -/
def NoLine (is : List Item) : Prop := ∀ l r, is ≠ .line l :: r

theorem lines_inj : ∀ (ls ms : List Line) (r q : List Item), NoLine r → NoLine q → ls.map Item.line ++ r = ms.map Item.line ++ q → ls = ms ∧ r = q
  | [], [], _, _, _, _, h => ⟨rfl, by simpa using h⟩
  | [], m :: ms, r, _, hr, _, h => absurd (by simpa using h) (hr m (ms.map Item.line ++ _))
  | l :: ls, [], _, q, _, hq, h => absurd (by simpa using h.symm) (hq l (ls.map Item.line ++ _))
  | l :: ls, m :: ms, r, q, hr, hq, h => by
    simp only [List.map_cons, List.cons_append, List.cons.injEq, Item.line.injEq] at h
    obtain ⟨rfl, h⟩ := h
    obtain ⟨h1, h2⟩ := lines_inj ls ms r q hr hq h
    exact ⟨by rw [h1], h2⟩

/-- filled, with text only where it has to be -/
def Good (es : List Element) : Prop := (∀ e ∈ es, e.written ≠ []) ∧ es.IsChain Sep

theorem Good.tail {e : Element} {es : List Element} (h : Good (e :: es)) : Good es :=
  ⟨fun x hx => h.1 x (List.mem_cons_of_mem _ hx), h.2.tail⟩

theorem Good.noLine {e : Element} {es : List Element} (h : Good (e :: es)) (he : e.HasLines) : NoLine (es.flatMap Element.written) := by
  cases es with
  | nil => intro l r h'; cases h'
  | cons f fs =>
    have hs := (List.isChain_cons_cons.1 h.2).1
    have hf := h.1 f (by simp)
    have ht : ¬ f.IsText := fun hf => hs ⟨he, hf⟩
    intro l r h'
    rw [List.flatMap_cons] at h'
    cases f with
    | see => simp [Element.written] at h'
    | deprecated => simp [Element.written] at h'
    | multiline => exact ht trivial
    | todo ls => cases ls <;> simp [Element.written] at h' hf
    | param n ls => cases ls <;> simp [Element.written] at h' hf

theorem good_unique : ∀ es fs : List Element, Good es → Good fs → es.flatMap Element.written = fs.flatMap Element.written → es = fs
  | [], [], _, _, _ => rfl
  | [], f :: fs, _, hf, h => by
    have := hf.1 f (by simp)
    rw [List.flatMap_cons] at h
    exact absurd (List.append_eq_nil_iff.1 h.symm).1 this
  | e :: es, [], he, _, h => by
    have := he.1 e (by simp)
    simp [this] at h
  | e :: es, f :: fs, he, hf, h => by
    have ih := good_unique es fs he.tail hf.tail
    have h1 := he.1 e (by simp)
    have h2 := hf.1 f (by simp)
    have h3 := he.noLine
    have h4 := hf.noLine
    rw [List.flatMap_cons, List.flatMap_cons] at h
    rcases e with ⟨a, l⟩ | _ | ls | (_ | ⟨l, ls⟩) | ⟨n, (_ | ⟨l, ls⟩)⟩ <;>
      rcases f with ⟨b, m⟩ | _ | ms | (_ | ⟨m, ms⟩) | ⟨k, (_ | ⟨m, ms⟩)⟩ <;>
      try (first | exact absurd rfl h1 | exact absurd rfl h2)
    all_goals try (cases ls; · exact absurd rfl h1)
    all_goals try (cases ms; · exact absurd rfl h2)
    all_goals simp only [Element.written, List.map_cons, List.cons_append, List.nil_append, List.cons.injEq, reduceCtorEq, false_and,
      Item.see.injEq, Item.todo.injEq, Item.param.injEq, Item.line.injEq, true_and] at h
    · obtain ⟨⟨rfl, rfl⟩, h⟩ := h; rw [ih h]
    · rw [ih h]
    · obtain ⟨rfl, h⟩ := h
      obtain ⟨rfl, h'⟩ := lines_inj _ _ _ _ (h3 trivial) (h4 trivial) h
      rw [ih h']
    · obtain ⟨rfl, h⟩ := h
      obtain ⟨rfl, h'⟩ := lines_inj _ _ _ _ (h3 trivial) (h4 trivial) h
      rw [ih h']
    · obtain ⟨⟨rfl, rfl⟩, h⟩ := h
      obtain ⟨rfl, h'⟩ := lines_inj _ _ _ _ (h3 trivial) (h4 trivial) h
      rw [ih h']

theorem paragraphs_unique : ∀ ps qs : List (List Element), (∀ p ∈ ps, Good p) → (∀ q ∈ qs, Good q) →
    ps.map (·.flatMap Element.written) = qs.map (·.flatMap Element.written) → ps = qs
  | [], [], _, _, _ => rfl
  | [], _ :: _, _, _, h => by cases h
  | _ :: _, [], _, _, h => by cases h
  | p :: ps, q :: qs, hp, hq, h => by
    rw [List.map_cons, List.map_cons, List.cons.injEq] at h
    rw [good_unique p q (hp p (by simp)) (hq q (by simp)) h.1,
      paragraphs_unique ps qs (fun x hx => hp x (by simp [hx])) (fun x hx => hq x (by simp [hx])) h.2]

/-- C122: this determines the result: whatever has the same text in its paragraphs, no empty elements, and no text directly after an element
with lines, is what the compiler makes of the comment. -/
theorem C122_unique (items : List Item) (result : List (List Element))
    (hw : result.map (·.flatMap Element.written) = (cut items).filter (· ≠ []))
    (hf : ∀ q ∈ result, ∀ e ∈ q, e.written ≠ [])
    (hl : ∀ pre a b post, pre ++ a :: b :: post ∈ result → ¬ (a.HasLines ∧ b.IsText)) : result = build items := by
  have chain : ∀ r : List (List Element), (∀ pre a b post, pre ++ a :: b :: post ∈ r → ¬ (a.HasLines ∧ b.IsText)) → ∀ q ∈ r, q.IsChain Sep := by
    intro r hr q hq
    rw [List.isChain_iff_forall_rel_of_append_cons_cons]
    rintro a b l1 l2 rfl
    exact hr _ _ _ _ hq
  refine paragraphs_unique _ _ (fun q hq => ⟨hf q hq, chain _ hl q hq⟩)
    (fun q hq => ⟨(C122_filled items q hq).2, chain _ (fun pre a b post => C122_lines items pre post a b) q hq⟩) (hw.trans (C122_paragraphs items).symm)

/-! A non-trivial comment: text of two lines, an empty line, `@param x` with a line below, `@see` with a line below, `@todo`. -/

example : build [.line [[1]], .line [[2]], .empty, .empty, .param [3] [], .line [[4]], .see none [5], .line [[6]], .todo [[7]]] =
    [[.multiline [[[1]], [[2]]]], [.param [3] [[], [[4]]], .see none [5], .multiline [[[6]]], .todo [[[7]]]]] := by decide

example : [] ++ Element.see none [5] :: .multiline [[[6]]] :: [] ∈ build [.see none [5], .line [[6]]] := by decide

end Zserio.DocClassic
