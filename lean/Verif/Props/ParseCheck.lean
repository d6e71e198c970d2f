import Verif.Spec.ParseCheck
/-
C111: what the checks on parse trees accept.
-/
set_option linter.unusedSimpArgs false
namespace Zserio.ParseCheck
open Zserio.ExprParse (Tree Token)

theorem bind_ok {α β : Type} (x : Except Problem α) (f : α → Except Problem β) (b : β) :
    (x >>= f) = .ok b ↔ ∃ a, x = .ok a ∧ f a = .ok b := by
  cases x with
  | error e => simp [bind, Except.bind]
  | ok a => simp [bind, Except.bind]

theorem pure_ok {α : Type} (a b : α) : (pure a : Except Problem α) = .ok b ↔ a = b := by
  simp [pure, Except.pure]

theorem refuseIf_ok (b : Bool) (p : Problem) (s s' : Flags) : refuseIf b p s = .ok s' ↔ b = false ∧ s' = s := by
  unfold refuseIf
  cases b
  · simp [eq_comm]
  · simp

/-- outside of offsets -/
theorem visitExpr_plain (e : Tree) : ∀ (s s' : Flags), s.offset = false → s.offsetArray = false →
    (visitExpr s e = .ok s' ↔ s' = s ∧ (s.indexAllowed = true ∨ indexes e = 0)) := by
  induction e with
  | paren l e r ih =>
    intro s s' h1 h2
    simp only [visitExpr, bind_ok, refuseIf_ok, h1, true_and, exists_eq_left, indexes, ih s s' h1 h2]
  | call e l r ih =>
    intro s s' h1 h2
    simp only [visitExpr, bind_ok, refuseIf_ok, h1, true_and, exists_eq_left, indexes, ih s s' h1 h2]
  | array e l i r ihe ihi =>
    intro s s' h1 h2
    simp only [visitExpr, bind_ok, refuseIf_ok, h2, true_and, exists_eq_left, indexes, ihe s _ h1 h2, pure_ok]
    constructor
    · rintro ⟨a, ⟨rfl, ha⟩, b, hb, hc⟩
      rw [if_neg (by simp [h1])] at hb
      obtain ⟨rfl, hb⟩ := (ihi _ b h1 h2).1 hb
      rw [if_neg (by simp [h1])] at hc
      refine ⟨hc.symm, ?_⟩
      rcases ha with ha | ha
      · exact .inl ha
      · rcases hb with hb | hb
        · exact .inl hb
        · exact .inr (by omega)
    · rintro ⟨rfl, h⟩
      refine ⟨s', ⟨rfl, h.imp id (by omega)⟩, s', ?_, by rw [if_neg (by simp [h1])]⟩
      rw [if_neg (by simp [h1])]
      exact (ihi s' s' h1 h2).2 ⟨rfl, h.imp id (by omega)⟩
  | dot e d n ih =>
    intro s s' h1 h2
    simp only [visitExpr, bind_ok, refuseIf_ok, h2, true_and, exists_eq_left, indexes, ih s _ h1 h2]
    constructor
    · rintro ⟨a, ⟨rfl, ha⟩, _, rfl⟩
      exact ⟨rfl, ha⟩
    · rintro ⟨rfl, h⟩
      exact ⟨s', ⟨rfl, h⟩, h2, rfl⟩
  | isset o l a c b r iha ihb =>
    intro s s' h1 h2
    simp only [visitExpr, bind_ok, refuseIf_ok, h1, true_and, exists_eq_left, indexes, iha s _ h1 h2, and_assoc, ihb s s' h1 h2]
    constructor
    · rintro ⟨ha, rfl, hb⟩
      exact ⟨rfl, by rcases ha with ha | ha <;> rcases hb with hb | hb <;> first | exact .inl ha | exact .inl hb | exact .inr (by omega)⟩
    · rintro ⟨rfl, h⟩
      exact ⟨h.imp id (by omega), rfl, h.imp id (by omega)⟩
  | function o l e r ih =>
    intro s s' h1 h2
    simp only [visitExpr, bind_ok, refuseIf_ok, h1, true_and, exists_eq_left, indexes, ih s s' h1 h2]
  | unary o e ih =>
    intro s s' h1 h2
    simp only [visitExpr, bind_ok, refuseIf_ok, h1, true_and, exists_eq_left, indexes, ih s s' h1 h2]
  | binary a o b iha ihb =>
    intro s s' h1 h2
    simp only [visitExpr, bind_ok, refuseIf_ok, h1, true_and, exists_eq_left, indexes, iha s _ h1 h2, and_assoc, ihb s s' h1 h2]
    constructor
    · rintro ⟨ha, rfl, hb⟩
      exact ⟨rfl, by rcases ha with ha | ha <;> rcases hb with hb | hb <;> first | exact .inl ha | exact .inl hb | exact .inr (by omega)⟩
    · rintro ⟨rfl, h⟩
      exact ⟨h.imp id (by omega), rfl, h.imp id (by omega)⟩
  | rshift a o o' b iha ihb =>
    intro s s' h1 h2
    simp only [visitExpr, bind_ok, refuseIf_ok, h1, true_and, exists_eq_left, indexes, iha s _ h1 h2, and_assoc, ihb s s' h1 h2]
    constructor
    · rintro ⟨ha, rfl, hb⟩
      exact ⟨rfl, by rcases ha with ha | ha <;> rcases hb with hb | hb <;> first | exact .inl ha | exact .inl hb | exact .inr (by omega)⟩
    · rintro ⟨rfl, h⟩
      exact ⟨h.imp id (by omega), rfl, h.imp id (by omega)⟩
  | ternary a q b c d iha ihb ihd =>
    intro s s' h1 h2
    simp only [visitExpr, bind_ok, refuseIf_ok, h1, true_and, exists_eq_left, indexes, iha s _ h1 h2, and_assoc, ihb s _ h1 h2, ihd s s' h1 h2]
    constructor
    · rintro ⟨ha, hb, rfl, hd⟩
      refine ⟨rfl, ?_⟩
      rcases ha with ha | ha
      · exact .inl ha
      · rcases hb with hb | hb
        · exact .inl hb
        · rcases hd with hd | hd
          · exact .inl hd
          · exact .inr (by omega)
    · rintro ⟨rfl, h⟩
      exact ⟨h.imp id (by omega), h.imp id (by omega), rfl, h.imp id (by omega)⟩
  | atom t =>
    intro s s' h1 h2
    simp only [visitExpr, indexes]
    split
    · rename_i hk
      unfold visitIndex
      rw [hk]
      cases hi : s.indexAllowed
      · cases s.implicitField <;> simp
      · simp [h1, eq_comm]
    · rename_i hk
      simp [refuseIf_ok, h1, hk]
    · rename_i hk _
      simp only [refuseIf_ok, h2, true_and]
      rw [if_neg hk]
      simp

/-- in the brackets of an offset -/
theorem visitExpr_bracket (e : Tree) (s s' : Flags) (h1 : s.offset = true) (h2 : s.offsetArray = true) :
    visitExpr s e = .ok s' ↔ (∃ t, e = .atom t ∧ t.kind = .index) ∧ s.indexAllowed = true ∧ s.indexUsed = false ∧ s' = { s with indexUsed := true } := by
  cases e with
  | atom t =>
    simp only [visitExpr, Tree.atom.injEq, exists_eq_left']
    split
    · rename_i hk
      unfold visitIndex
      cases hi : s.indexAllowed
      · cases s.implicitField <;> simp
      · cases hu : s.indexUsed <;> simp [h1, hk, eq_comm, hu]
    · rename_i hk
      simp [refuseIf_ok, h1, hk]
    · rename_i hk _
      simp only [refuseIf_ok, h2, Bool.true_eq_false, false_and, false_iff]
      exact fun h => hk h.1
  | _ => simp [visitExpr, bind_ok, refuseIf_ok, h1, h2]

/-- in an offset -/
theorem visitExpr_offset (e : Tree) : ∀ (s s' : Flags), s.offset = true → s.offsetArray = false → s.indexAllowed = false →
    (visitExpr s e = .ok s' ↔ Path e ∧ (indexes e = 0 ∧ s' = s ∨
      indexes e = 1 ∧ s.arrayField = true ∧ s.implicitField = false ∧ s.indexUsed = false ∧ s' = { s with indexUsed := true })) := by
  induction e with
  | array e l i r ihe _ =>
    intro s s' h1 h2 h3
    simp only [visitExpr, bind_ok, refuseIf_ok, h2, true_and, exists_eq_left, pure_ok]
    constructor
    · rintro ⟨a, ha, b, hb, hc⟩
      obtain ⟨hp, ha⟩ := (ihe s a h1 h2 h3).1 ha
      have ha1 : a.offset = true := by rcases ha with ⟨_, rfl⟩ | ⟨_, _, _, _, rfl⟩ <;> exact h1
      have ha3 : a.indexAllowed = false := by rcases ha with ⟨_, rfl⟩ | ⟨_, _, _, _, rfl⟩ <;> exact h3
      rw [if_pos ha1] at hb
      obtain ⟨⟨t, rfl, ht⟩, hal, hu, rfl⟩ := (visitExpr_bracket i _ b (by exact ha1) rfl).1 hb
      simp only [ha3] at hal
      simp only at hu
      have hai : (a.arrayField && !a.implicitField) = true := by
        by_contra h
        rw [if_neg h] at hal
        simp at hal
      rcases ha with ⟨h0, rfl⟩ | ⟨_, _, _, _, rfl⟩
      · refine ⟨.element e l t r hp ht, .inr ⟨by simp [indexes, h0, ht], ?_⟩⟩
        simp only [Bool.and_eq_true, Bool.not_eq_true'] at hai
        refine ⟨hai.1, hai.2, hu, ?_⟩
        rw [← hc]
        simp only [ha1, if_true]
        cases a
        simp only at h2 h3
        rw [h2, h3]
      · simp at hu
    · rintro ⟨hp, h⟩
      cases hp with
      | element _ _ t _ hp ht =>
        have hi : indexes (.array e l (.atom t) r) = indexes e + 1 := by simp [indexes, ht]
        rw [hi] at h
        rcases h with ⟨h, _⟩ | ⟨h, ha, hm, hu, rfl⟩
        · omega
        · refine ⟨s, (ihe s s h1 h2 h3).2 ⟨hp, .inl ⟨by omega, rfl⟩⟩, { s with indexAllowed := true, offsetArray := true, indexUsed := true }, ?_, ?_⟩
          · rw [if_pos h1, visitExpr_bracket _ _ _ (by exact h1) rfl]
            refine ⟨⟨t, rfl, ht⟩, ?_, hu, ?_⟩
            · simp [ha, hm]
            · simp [ha, hm]
          · simp only [h1, if_true]
            cases s
            simp only at h2 h3
            rw [h2, h3]
  | dot e d n ih =>
    intro s s' h1 h2 h3
    have hp : Path (.dot e d n) ↔ Path e := ⟨fun h => by cases h; assumption, .member e d n⟩
    have hi : indexes (.dot e d n) = indexes e := rfl
    rw [hp, hi, visitExpr]
    simp only [bind_ok, refuseIf_ok]
    constructor
    · rintro ⟨_, ⟨_, rfl⟩, a, ha, _, rfl⟩
      exact (ih _ _ h1 h2 h3).1 ha
    · intro h
      refine ⟨s, ⟨h2, rfl⟩, s', (ih s s' h1 h2 h3).2 h, ?_, rfl⟩
      rcases h.2 with ⟨_, rfl⟩ | ⟨_, _, _, _, rfl⟩ <;> exact h2
  | atom t =>
    intro s s' h1 h2 h3
    simp only [visitExpr, indexes]
    split
    · rename_i hk
      unfold visitIndex
      rw [h3]
      constructor
      · intro h
        cases hm : s.implicitField <;> simp [hm] at h
      · rintro ⟨hp, _⟩
        cases hp with
        | name _ hn _ => exact absurd hk hn
    · rename_i n hk
      simp only [refuseIf_ok, h1, Bool.true_eq_false, false_and, false_iff]
      rintro ⟨hp, _⟩
      cases hp with
      | name _ _ hl => exact hl n hk
    · rename_i hk hl
      rw [refuseIf_ok, if_neg hk]
      simp only [h2, true_and, Nat.zero_ne_one, false_and, or_false]
      exact ⟨fun h => ⟨.name t hk hl, h⟩, fun h => h.2⟩
  | paren l e r _ =>
    intro s s' h1 h2 h3
    simp only [visitExpr, bind_ok, refuseIf_ok, h1, Bool.true_eq_false, false_and, exists_false, false_iff]
    rintro ⟨hp, _⟩; cases hp
  | call e l r _ =>
    intro s s' h1 h2 h3
    simp only [visitExpr, bind_ok, refuseIf_ok, h1, Bool.true_eq_false, false_and, exists_false, false_iff]
    rintro ⟨hp, _⟩; cases hp
  | isset o l a c b r _ _ =>
    intro s s' h1 h2 h3
    simp only [visitExpr, bind_ok, refuseIf_ok, h1, Bool.true_eq_false, false_and, exists_false, false_iff]
    rintro ⟨hp, _⟩; cases hp
  | function o l e r _ =>
    intro s s' h1 h2 h3
    simp only [visitExpr, bind_ok, refuseIf_ok, h1, Bool.true_eq_false, false_and, exists_false, false_iff]
    rintro ⟨hp, _⟩; cases hp
  | unary o e _ =>
    intro s s' h1 h2 h3
    simp only [visitExpr, bind_ok, refuseIf_ok, h1, Bool.true_eq_false, false_and, exists_false, false_iff]
    rintro ⟨hp, _⟩; cases hp
  | binary a o b _ _ =>
    intro s s' h1 h2 h3
    simp only [visitExpr, bind_ok, refuseIf_ok, h1, Bool.true_eq_false, false_and, exists_false, false_iff]
    rintro ⟨hp, _⟩; cases hp
  | rshift a o o' b _ _ =>
    intro s s' h1 h2 h3
    simp only [visitExpr, bind_ok, refuseIf_ok, h1, Bool.true_eq_false, false_and, exists_false, false_iff]
    rintro ⟨hp, _⟩; cases hp
  | ternary a q b c d _ _ _ =>
    intro s s' h1 h2 h3
    simp only [visitExpr, bind_ok, refuseIf_ok, h1, Bool.true_eq_false, false_and, exists_false, false_iff]
    rintro ⟨hp, _⟩; cases hp

/-- no index is allowed and no offset is visited -/
structure Plain (s : Flags) : Prop where
  offset : s.offset = false
  offsetArray : s.offsetArray = false
  indexAllowed : s.indexAllowed = false
  indexUsed : s.indexUsed = false

theorem visitExpr_none {s : Flags} (h : Plain s) (e : Tree) (s' : Flags) : visitExpr s e = .ok s' ↔ s' = s ∧ indexes e = 0 := by
  rw [visitExpr_plain e s s' h.offset h.offsetArray, h.indexAllowed]
  simp

theorem visitOpt_ok {s : Flags} (h : Plain s) (e : Option Tree) (s' : Flags) : visitOpt s e = .ok s' ↔ s' = s ∧ NoIndex e := by
  cases e with
  | none => simp [visitOpt, NoIndex, eq_comm]
  | some e => simp [visitOpt, NoIndex, visitExpr_none h]

theorem visitArgument_ok {s : Flags} (h : Plain s) (a : Argument) (s' : Flags) : visitArgument s a = .ok s' ↔ s' = s ∧
    (match a with
      | .explicit => s.sqlField = true
      | .expr e => s.arrayField = true ∨ indexes e = 0) := by
  unfold visitArgument
  obtain ⟨h1, h2, h3, h4⟩ := h
  cases a with
  | explicit =>
    simp only [bind_ok, refuseIf_ok, pure_ok, decide_true, Bool.true_and, Bool.not_eq_false', Except.ok.injEq]
    cases hs : s.arrayField
    · constructor
      · rintro ⟨a, ⟨hq, rfl⟩, b, hb, hc⟩
        rw [hs] at hb
        simp only [Bool.false_eq_true, if_false] at hb
        subst hb
        refine ⟨?_, hq⟩
        rw [← hc]
        cases a
        simp only at h3
        rw [h3]
      · rintro ⟨rfl, hq⟩
        refine ⟨s', ⟨hq, rfl⟩, s', by rw [hs]; simp, ?_⟩
        cases s'
        simp only at h3
        rw [h3]
    · constructor
      · rintro ⟨a, ⟨hq, rfl⟩, b, hb, hc⟩
        rw [if_pos hs] at hb
        subst hb
        refine ⟨?_, hq⟩
        rw [← hc]
        cases a
        simp only at h3
        rw [h3]
      · rintro ⟨rfl, hq⟩
        refine ⟨s', ⟨hq, rfl⟩, { s' with indexAllowed := true }, by rw [if_pos hs], ?_⟩
        cases s'
        simp only at h3
        rw [h3]
  | expr e =>
    simp only [bind_ok, refuseIf_ok, pure_ok, reduceCtorEq, decide_false, Bool.false_and, true_and, exists_eq_left]
    have hset : { s with indexAllowed := false } = s := by
      cases s
      simp only at h3
      rw [h3]
    by_cases hs : s.arrayField = true
    · rw [if_pos hs]
      constructor
      · rintro ⟨a, ha, hc⟩
        obtain ⟨rfl, _⟩ := (visitExpr_plain e _ a (by exact h1) (by exact h2)).1 ha
        exact ⟨by rw [← hc]; exact hset, .inl hs⟩
      · rintro ⟨rfl, _⟩
        exact ⟨{ s' with indexAllowed := true }, (visitExpr_plain e _ _ (by exact h1) (by exact h2)).2 ⟨rfl, .inl rfl⟩, hset⟩
    · rw [if_neg hs]
      constructor
      · rintro ⟨a, ha, hc⟩
        obtain ⟨rfl, ha'⟩ := (visitExpr_none ⟨h1, h2, h3, h4⟩ e a).1 ha
        exact ⟨by rw [← hc]; exact hset, .inr ha'⟩
      · rintro ⟨rfl, ha⟩
        exact ⟨s', (visitExpr_none ⟨h1, h2, h3, h4⟩ e s').2 ⟨rfl, ha.resolve_left hs⟩, hset⟩

theorem visitType_ok {s : Flags} (h : Plain s) (t : TypeUse) (s' : Flags) :
    visitType s t = .ok s' ↔ s' = s ∧ GoodType s.sqlField s.arrayField t := by
  have hargs : ∀ (l : List Argument) (a : Flags), visitArguments s l = .ok a ↔ a = s ∧ ∀ x ∈ l, (match x with
      | .explicit => s.sqlField = true
      | .expr e => s.arrayField = true ∨ indexes e = 0) := by
    intro l
    induction l with
    | nil =>
      intro a
      simp only [visitArguments, Except.ok.injEq, List.not_mem_nil, false_implies, implies_true, and_true]
      exact eq_comm
    | cons x l ih =>
      intro a
      simp only [visitArguments, bind_ok, visitArgument_ok h, List.forall_mem_cons]
      constructor
      · rintro ⟨b, ⟨rfl, hb⟩, hc⟩
        obtain ⟨ha, hl⟩ := (ih a).1 hc
        exact ⟨ha, hb, hl⟩
      · rintro ⟨ha, hb, hl⟩
        exact ⟨s, ⟨rfl, hb⟩, (ih a).2 ⟨ha, hl⟩⟩
  unfold visitType GoodType
  rw [bind_ok]
  constructor
  · rintro ⟨a, ha, hb⟩
    obtain ⟨rfl, ha'⟩ := (hargs _ a).1 ha
    obtain ⟨hb', hn⟩ := (visitOpt_ok h _ _).1 hb
    exact ⟨hb', ha', hn⟩
  · rintro ⟨hb, ha, hn⟩
    exact ⟨s, (hargs _ s).2 ⟨rfl, ha⟩, (visitOpt_ok h _ _).2 ⟨hb, hn⟩⟩

theorem visitTypeId_ok {s : Flags} (h : Plain s) (al : Bool) (t : TypeId) (s' : Flags) :
    visitTypeId al s t = .ok s' ↔ s' = s ∧ GoodTypeId al t ∧ GoodType s.sqlField s.arrayField t.type ∧ NoIndex t.range.join := by
  unfold visitTypeId GoodTypeId
  simp only [bind_ok, refuseIf_ok, and_assoc, exists_and_left, exists_eq_left]
  have hr : ∀ s', (∃ x, visitType s t.type = .ok x ∧ visitOpt x t.range.join = .ok s') ↔
      s' = s ∧ GoodType s.sqlField s.arrayField t.type ∧ NoIndex t.range.join := by
    intro s'
    constructor
    · rintro ⟨x, hx, hy⟩
      obtain ⟨rfl, hx⟩ := (visitType_ok h _ _).1 hx
      obtain ⟨hy, hn⟩ := (visitOpt_ok h _ _).1 hy
      exact ⟨hy, hx, hn⟩
    · rintro ⟨hy, hx, hn⟩
      exact ⟨s, (visitType_ok h _ _).2 ⟨rfl, hx⟩, (visitOpt_ok h _ _).2 ⟨hy, hn⟩⟩
  rw [hr]
  cases hi : t.implicit <;> cases hp : t.packed <;> cases al <;> rcases ht : t.range with _ | _ | e <;> simp

theorem visitOffset_ok {s : Flags} (h : Plain s) (e : Option Tree) (s' : Flags) :
    visitOffset s e = .ok s' ↔ s' = s ∧ ∀ t, e = some t → Path t ∧
      (indexes t = 0 ∨ indexes t = 1 ∧ s.arrayField = true ∧ s.implicitField = false) := by
  obtain ⟨h1, h2, h3, h4⟩ := h
  cases e with
  | none =>
    simp only [visitOffset, Except.ok.injEq, reduceCtorEq, false_implies, implies_true, and_true]
    exact eq_comm
  | some e =>
    simp only [visitOffset, bind_ok, pure_ok, Option.some.injEq, forall_eq']
    have hs : { s with offset := false, indexUsed := false } = s := by
      cases s
      simp only at h1 h4
      rw [h1, h4]
    constructor
    · rintro ⟨a, ha, hb⟩
      obtain ⟨hp, ha⟩ := (visitExpr_offset e _ a rfl (by exact h2) (by exact h3)).1 ha
      rcases ha with ⟨hi, rfl⟩ | ⟨hi, hf, hm, _, rfl⟩
      · exact ⟨by rw [← hb]; exact hs, hp, .inl hi⟩
      · exact ⟨by rw [← hb]; exact hs, hp, .inr ⟨hi, hf, hm⟩⟩
    · rintro ⟨rfl, hp, hi | ⟨hi, hf, hm⟩⟩
      · exact ⟨{ s' with offset := true }, (visitExpr_offset e _ _ rfl (by exact h2) (by exact h3)).2 ⟨hp, .inl ⟨hi, rfl⟩⟩, hs⟩
      · exact ⟨{ s' with offset := true, indexUsed := true },
          (visitExpr_offset e _ _ rfl (by exact h2) (by exact h3)).2 ⟨hp, .inr ⟨hi, hf, hm, h4, rfl⟩⟩, hs⟩

theorem visitStructField_ok (al : Bool) (f : StructField) (s' : Flags) :
    visitStructField al {} f = .ok s' ↔ s' = {} ∧ GoodStructField al f := by
  unfold visitStructField
  rw [bind_ok]
  simp only [refuseIf_ok, and_assoc, exists_and_left, exists_eq_left]
  generalize hs : (if f.typeId.range.isSome then ({ ({} : Flags) with arrayField := true, implicitField := if f.typeId.implicit then true else
    ({} : Flags).implicitField } : Flags) else ({} : Flags)) = s
  have hplain : Plain s := by
    subst hs
    split <;> exact ⟨rfl, rfl, rfl, rfl⟩
  have harr : s.arrayField = f.typeId.range.isSome := by
    subst hs
    cases hr : f.typeId.range <;> rfl
  have himp : s.implicitField = (f.typeId.range.isSome && f.typeId.implicit) := by
    subst hs
    cases hr : f.typeId.range <;> cases hi : f.typeId.implicit <;> rfl
  have hsql : s.sqlField = false := by
    subst hs
    split <;> rfl
  have hend : { s with arrayField := false, implicitField := false } = ({} : Flags) := by
    subst hs
    cases hr : f.typeId.range <;> cases hi : f.typeId.implicit <;> rfl
  have hoff : (∀ t, f.offset = some t → Path t ∧ (indexes t = 0 ∨ indexes t = 1 ∧ s.arrayField = true ∧ s.implicitField = false)) ↔ GoodOffset f := by
    unfold GoodOffset
    rw [harr, himp]
    cases hr : f.typeId.range <;> cases hi : f.typeId.implicit <;> simp
  have hopt : ((f.optional && f.clause.isSome) = false) ↔ ¬ (f.optional = true ∧ f.clause ≠ none) := by
    cases f.optional <;> cases f.clause <;> simp
  simp only [bind_ok, pure_ok]
  unfold GoodStructField
  rw [hopt, ← hoff]
  constructor
  · rintro ⟨ho, a, ha, b, hb, c, hc, d, hd, e, he, g, hg, hz⟩
    obtain ⟨rfl, ja⟩ := (visitOpt_ok hplain _ _).1 ha
    obtain ⟨rfl, jb⟩ := (visitOffset_ok hplain _ _).1 hb
    obtain ⟨rfl, jc, jc', jc''⟩ := (visitTypeId_ok hplain _ _ _).1 hc
    obtain ⟨rfl, jd⟩ := (visitOpt_ok hplain _ _).1 hd
    obtain ⟨rfl, je⟩ := (visitOpt_ok hplain _ _).1 he
    obtain ⟨rfl, jg⟩ := (visitOpt_ok hplain _ _).1 hg
    rw [hsql, harr] at jc'
    exact ⟨by rw [← hz, hend], ho, jb, jc, jc', jc'', ja, jd, je, jg⟩
  · rintro ⟨rfl, ho, hb, hc, hc', hc'', ha, hd, he, hg⟩
    rw [← hsql, ← harr] at hc'
    exact ⟨ho, s, (visitOpt_ok hplain _ _).2 ⟨rfl, ha⟩, s, (visitOffset_ok hplain _ _).2 ⟨rfl, hb⟩, s, (visitTypeId_ok hplain _ _ _).2 ⟨rfl, hc, hc', hc''⟩,
      s, (visitOpt_ok hplain _ _).2 ⟨rfl, hd⟩, s, (visitOpt_ok hplain _ _).2 ⟨rfl, he⟩, s, (visitOpt_ok hplain _ _).2 ⟨rfl, hg⟩, hend⟩

theorem plain_empty : Plain {} := ⟨rfl, rfl, rfl, rfl⟩

theorem visitBranchField_ok (al : Bool) (f : BranchField) (s' : Flags) :
    visitBranchField al {} f = .ok s' ↔ s' = {} ∧ GoodBranchField al false f := by
  unfold visitBranchField GoodBranchField
  rw [bind_ok]
  constructor
  · rintro ⟨a, ha, hb⟩
    obtain ⟨rfl, h1, h2, h3⟩ := (visitTypeId_ok plain_empty _ _ _).1 ha
    obtain ⟨hb, h4⟩ := (visitOpt_ok plain_empty _ _).1 hb
    exact ⟨hb, h1, h2, h3, h4⟩
  · rintro ⟨hb, h1, h2, h3, h4⟩
    exact ⟨{}, (visitTypeId_ok plain_empty _ _ _).2 ⟨rfl, h1, h2, h3⟩, (visitOpt_ok plain_empty _ _).2 ⟨hb, h4⟩⟩

theorem visitSqlTable_ok (t : SqlTable) (s' : Flags) : visitSqlTable {} t = .ok s' ↔ s' = {} ∧ GoodSqlTable t := by
  have hfield : ∀ (f : TypeUse × Option Tree) (a : Flags), visitSqlField {} f = .ok a ↔ a = {} ∧ GoodType true false f.1 ∧ NoIndex f.2 := by
    intro f a
    have hp : Plain { ({} : Flags) with sqlField := true } := ⟨rfl, rfl, rfl, rfl⟩
    unfold visitSqlField
    simp only [bind_ok, pure_ok]
    constructor
    · rintro ⟨b, hb, c, hc, hd⟩
      obtain ⟨rfl, jb⟩ := (visitType_ok hp _ _).1 hb
      obtain ⟨rfl, jc⟩ := (visitOpt_ok hp _ _).1 hc
      exact ⟨hd.symm, jb, jc⟩
    · rintro ⟨rfl, hb, hc⟩
      exact ⟨_, (visitType_ok hp _ _).2 ⟨rfl, hb⟩, _, (visitOpt_ok hp _ _).2 ⟨rfl, hc⟩, rfl⟩
  have hfields : ∀ (l : List (TypeUse × Option Tree)) (a : Flags), visitSqlFields {} l = .ok a ↔
      a = {} ∧ ∀ f ∈ l, GoodType true false f.1 ∧ NoIndex f.2 := by
    intro l
    induction l with
    | nil => intro a; simp [visitSqlFields, eq_comm]
    | cons f l ih =>
      intro a
      simp only [visitSqlFields, bind_ok, hfield, List.forall_mem_cons]
      constructor
      · rintro ⟨b, ⟨rfl, hb⟩, hc⟩
        obtain ⟨ha, hl⟩ := (ih a).1 hc
        exact ⟨ha, hb, hl⟩
      · rintro ⟨ha, hb, hl⟩
        exact ⟨{}, ⟨rfl, hb⟩, (ih a).2 ⟨ha, hl⟩⟩
  unfold visitSqlTable GoodSqlTable
  simp only [bind_ok, refuseIf_ok, and_assoc, exists_and_left, exists_eq_left]
  constructor
  · rintro ⟨h, a, ha, hb⟩
    obtain ⟨rfl, ja⟩ := (hfields _ _).1 ha
    obtain ⟨jb, jc⟩ := (visitOpt_ok plain_empty _ _).1 hb
    refine ⟨jb, ?_, ja, jc⟩
    rintro ⟨h1, h2⟩
    simp [h1, h2] at h
  · rintro ⟨hb, h, ha, hc⟩
    refine ⟨?_, {}, (hfields _ _).2 ⟨rfl, ha⟩, (visitOpt_ok plain_empty _ _).2 ⟨hb, hc⟩⟩
    cases h1 : t.virtual <;> cases h2 : t.withoutRowId <;> simp_all

theorem visitItem_ok (al : Bool) (i : Item) (s' : Flags) : visitItem al {} i = .ok s' ↔ s' = {} ∧ Good al false i := by
  cases i with
  | structField f => exact visitStructField_ok al f s'
  | branchField f => exact visitBranchField_ok al f s'
  | sqlTable t => exact visitSqlTable_ok t s'
  | type t => exact visitType_ok plain_empty t s'
  | expr e => exact visitExpr_none plain_empty e s'

/-- A file passes the checks exactly if each of its parts is right, whatever the parts before and behind it are.  What is missing: `@index` in the
arguments of arrays in choices and unions, see `C111_branch_deviates`. -/
theorem C111_accepted_partial (allowImplicit : Bool) (items : List Item) :
    check allowImplicit items = .ok () ↔ ∀ i ∈ items, Good allowImplicit false i := by
  have h : ∀ (s' : Flags), visitItems allowImplicit {} items = .ok s' ↔ s' = {} ∧ ∀ i ∈ items, Good allowImplicit false i := by
    induction items with
    | nil => intro s'; simp [visitItems, eq_comm]
    | cons i l ih =>
      intro a
      simp only [visitItems, bind_ok, visitItem_ok, List.forall_mem_cons]
      constructor
      · rintro ⟨b, ⟨rfl, hb⟩, hc⟩
        obtain ⟨ha, hl⟩ := (ih a).1 hc
        exact ⟨ha, hb, hl⟩
      · rintro ⟨ha, hb, hl⟩
        exact ⟨{}, ⟨rfl, hb⟩, (ih a).2 ⟨ha, hl⟩⟩
  unfold check
  cases hv : visitItems allowImplicit {} items with
  | error e =>
    simp only [reduceCtorEq, false_iff]
    intro hg
    have := (h {}).2 ⟨rfl, hg⟩
    rw [hv] at this
    simp at this
  | ok s => simpa using ((h s).1 hv).2

/-- Files without `@index` in choices and unions pass the checks exactly if they are right in the sense of the language guide. -/
theorem C111_documented_partial (allowImplicit : Bool) (items : List Item)
    (h : ∀ f, .branchField f ∈ items → ∀ e, .expr e ∈ f.typeId.type.arguments → indexes e = 0) :
    check allowImplicit items = .ok () ↔ ∀ i ∈ items, Good allowImplicit true i := by
  rw [C111_accepted_partial]
  refine forall₂_congr fun i hi => ?_
  cases i with
  | branchField f =>
    simp only [Good, GoodBranchField, GoodType]
    refine and_congr_right fun _ => and_congr_left fun _ => and_congr_left fun _ => forall₂_congr fun a ha => ?_
    cases a with
    | explicit => rfl
    | expr e => simp [h f hi e ha]
  | _ => rfl

/-- What is used as an offset says where something is stored: a name with members and elements; whether it is a constant is checked later. -/
theorem C111_offset (f : StructField) (e : Tree) (allowImplicit : Bool) (items : List Item) (h : check allowImplicit items = .ok ())
    (hf : .structField f ∈ items) (he : f.offset = some e) : Path e ∧ indexes e ≤ 1 := by
  have := ((C111_accepted_partial _ _).1 h _ hf).2.1 e he
  refine ⟨this.1, ?_⟩
  rcases this.2 with h | h <;> omega

/-- The order of the declarations does not matter. -/
theorem C111_order (allowImplicit : Bool) (items items' : List Item) (h : ∀ i, i ∈ items ↔ i ∈ items') :
    check allowImplicit items = .ok () ↔ check allowImplicit items' = .ok () := by
  rw [C111_accepted_partial, C111_accepted_partial]
  exact forall_congr' fun i => by rw [h]

/-! ### Examples -/

namespace Demo

def tok (k : ExprParse.Kind) : Token := ⟨k, 1, 1⟩
def name (n : Nat) : Tree := .atom (tok (.id n))
def index : Tree := .atom (tok .index)
/-- `headers[@index]` -/
def element (n : Nat) : Tree := .array (name n) (tok .lbracket) index (tok .rbracket)

/-- `offsets[@index]: Block(headers[@index]) blocks[n];` -/
def field : StructField := { offset := some (element 1), typeId := { type := { arguments := [.expr (element 2)] }, range := some (some (name 3)) } }

example : check false [.structField field, .expr (name 4), .sqlTable { fields := [({ arguments := [.explicit] }, none)] }] = .ok () := by decide
example : Good false true (.structField field) := (C111_documented_partial false [.structField field] (by simp)).1 (by decide) _ (by simp)
/-- not an array, an implicit array, `@index` twice, an operator in an offset, `@index` in a condition -/
example : check true [.structField { field with typeId := { type := {} } }] = .error .indexNotAllowed := by decide
example : check true [.structField { offset := some (element 1), typeId := { implicit := true, type := {}, range := some none } }] = .error .implicitIndexed := by
  decide
example : check true [.structField { field with offset := some (.array (element 1) (tok .lbracket) index (tok .rbracket)) }] = .error .indexTwice := by decide
example : check true [.structField { field with offset := some (.unary (tok (.sym .plus)) (name 1)) }] = .error .forbiddenInOffset := by decide
example : check true [.structField { field with clause := some index }] = .error .indexNotAllowed := by decide
example : check false [.structField { typeId := { implicit := true, type := {}, range := some none } }] = .error .implicitDeprecated := by decide
example : check true [.structField { typeId := { packed := true, type := {} } }] = .error .packedNoArray := by decide
example : check true [.type { arguments := [.explicit] }] = .error .explicitNotAllowed := by decide
example : check true [.sqlTable { virtual := true, withoutRowId := true }] = .error .virtualWithoutRowId := by decide

/-- `Block(headers[@index]) blocks[n];` in a choice or a union -/
def branch : BranchField := { typeId := { type := { arguments := [.expr (element 2)] }, range := some (some (name 3)) } }

/-- The same field which is accepted in a structure is refused in a choice or a union, though the guide says that the elements of an array can be
instantiated with the current index. -/
theorem C111_branch_deviates : check true [.branchField branch] = .error .indexNotAllowed ∧ Good true true (.branchField branch) ∧
    check true [.structField { typeId := branch.typeId }] = .ok () := by
  refine ⟨by decide, ⟨⟨by decide, by decide⟩, ⟨?_, by intro t h; simp [branch] at h⟩, ?_, ?_⟩, by decide⟩
  · intro a ha
    simp only [branch, List.mem_singleton] at ha
    subst ha
    exact .inl rfl
  · intro t h
    have : t = name 3 := by simpa [branch, Option.join] using h.symm
    subst this
    rfl
  · intro t h
    simp [branch] at h

end Demo

end Zserio.ParseCheck
