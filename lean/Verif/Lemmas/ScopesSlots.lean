import Verif.Lemmas.ScopesEval
set_option linter.unusedSimpArgs false
/-
Lemmas for C89: the scopes of all expressions of a compound type, and what holds after they have been evaluated.
-/
namespace Zserio.Scopes

/-! ### Which slots there are -/

theorem mem_structSlots {slot : Slot} {fs : List Field} : ∀ {s : Scope} {i : Nat}, slot ∈ structSlots s i fs ↔
    ∃ (j : Nat) (f : Field), fs[j]? = some f ∧ slot ∈ fieldSlots (s.push ((fs.take j).map (fun f => (f.name, .field)))) (i + j) f := by
  induction fs with
  | nil => intro s i; simp [structSlots]
  | cons f fs ih =>
    intro s i
    simp only [structSlots, List.mem_append, ih]
    constructor
    · rintro (h | ⟨j, f', h1, h2⟩)
      · exact ⟨0, f, rfl, by simpa [Scope.push_nil] using h⟩
      · refine ⟨j + 1, f', by simpa using h1, ?_⟩
        rw [Scope.push_push, show i + 1 + j = i + (j + 1) by omega] at h2
        simpa using h2
    · rintro ⟨j, f', h1, h2⟩
      cases j with
      | zero =>
        simp only [List.getElem?_cons_zero, Option.some.injEq] at h1
        subst h1
        exact .inl (by simpa [Scope.push_nil] using h2)
      | succ j =>
        refine .inr ⟨j, f', by simpa using h1, ?_⟩
        rw [Scope.push_push, show i + 1 + j = i + (j + 1) by omega]
        simpa using h2

theorem mem_unionSlots {slot : Slot} {fs : List Field} : ∀ {s : Scope} {i : Nat}, slot ∈ unionSlots s i fs ↔
    ∃ (j : Nat) (f : Field), fs[j]? = some f ∧ slot ∈ fieldSlots s (i + j) f := by
  induction fs with
  | nil => intro s i; simp [unionSlots]
  | cons f fs ih =>
    intro s i
    simp only [unionSlots, List.mem_append, ih]
    constructor
    · rintro (h | ⟨j, f', h1, h2⟩)
      · exact ⟨0, f, rfl, by simpa using h⟩
      · refine ⟨j + 1, f', by simpa using h1, ?_⟩
        rw [show i + 1 + j = i + (j + 1) by omega] at h2
        exact h2
    · rintro ⟨j, f', h1, h2⟩
      cases j with
      | zero =>
        simp only [List.getElem?_cons_zero, Option.some.injEq] at h1
        subst h1
        exact .inl (by simpa using h2)
      | succ j =>
        refine .inr ⟨j, f', by simpa using h1, ?_⟩
        rw [show i + 1 + j = i + (j + 1) by omega]
        exact h2

theorem mem_caseSlots {slot : Slot} {items : List Name} {cs : List Case} : ∀ {s : Scope} {i : Nat}, slot ∈ caseSlots s items i cs ↔
    ∃ (j : Nat) (d : Case), cs[j]? = some d ∧ ((∃ e ∈ d.exprs, slot = ⟨.case (i + j), e, s.addItems items⟩) ∨
      ∃ f, d.field = some f ∧ slot ∈ fieldSlots s (i + j) f) := by
  induction cs with
  | nil => intro s i; simp [caseSlots]
  | cons d cs ih =>
    intro s i
    simp only [caseSlots, List.mem_append, ih, List.mem_map]
    constructor
    · rintro ((⟨e, h1, rfl⟩ | h) | ⟨j, d', h1, h2⟩)
      · exact ⟨0, d, rfl, .inl ⟨e, h1, rfl⟩⟩
      · rcases hd : d.field with _ | f
        · rw [hd] at h; cases h
        · rw [hd] at h
          exact ⟨0, d, rfl, .inr ⟨f, hd, h⟩⟩
      · refine ⟨j + 1, d', by simpa using h1, ?_⟩
        rw [show i + 1 + j = i + (j + 1) by omega] at h2
        exact h2
    · rintro ⟨j, d', h1, h2⟩
      cases j with
      | zero =>
        simp only [List.getElem?_cons_zero, Option.some.injEq] at h1
        subst h1
        rcases h2 with ⟨e, he, rfl⟩ | ⟨f, hf, hs⟩
        · exact .inl (.inl ⟨e, he, rfl⟩)
        · exact .inl (.inr (by rw [hf]; exact hs))
      | succ j =>
        refine .inr ⟨j, d', by simpa using h1, ?_⟩
        rw [show i + 1 + j = i + (j + 1) by omega]
        exact h2

theorem mem_bodySlots {slot : Slot} {fs : List (Name × Expr)} : ∀ {s : Scope}, slot ∈ bodySlots s fs ↔
    ∃ (k : Nat) (f : Name × Expr), fs[k]? = some f ∧
      slot = ⟨.body f.1, f.2, s.push ((fs.eraseIdx k).map (fun f => (f.1, .func)))⟩ := by
  induction fs with
  | nil => intro s; simp [bodySlots]
  | cons f fs ih =>
    intro s
    simp only [bodySlots, List.mem_cons, ih]
    constructor
    · rintro (rfl | ⟨j, f', h1, rfl⟩)
      · exact ⟨0, f, rfl, rfl⟩
      · exact ⟨j + 1, f', by simpa using h1, by simp [Scope.push_push]⟩
    · rintro ⟨j, f', h1, h2⟩
      cases j with
      | zero =>
        simp only [List.getElem?_cons_zero, Option.some.injEq] at h1
        subst h1
        exact .inl h2
      | succ j =>
        refine .inr ⟨j, f', by simpa using h1, ?_⟩
        rw [h2]
        simp [Scope.push_push]

/-- the fields which are visible for the expressions of a field -/
def Members.seen : Members → Nat → List (Name × Kind)
  | .struct fs, i => (fs.take i).map (fun f => (f.name, .field))
  | _, _ => []

theorem mem_members {slot : Slot} {m : Members} {s : Scope} : slot ∈ m.slots s ↔
    (∃ i f, m.field? i = some f ∧ slot ∈ fieldSlots (s.push (m.seen i)) i f) ∨
    (∃ sel items cs, m = .choice sel items cs ∧ (slot = ⟨.selector, sel, s⟩ ∨
      ∃ (i : Nat) (d : Case), cs[i]? = some d ∧ ∃ e ∈ d.exprs, slot = ⟨.case i, e, s.addItems items⟩)) := by
  rcases m with fs | fs | ⟨sel, items, cs⟩
  · simp only [Members.slots, mem_structSlots, Nat.zero_add, Members.field?, Members.seen, reduceCtorEq, false_and, exists_false, or_false]
  · simp only [Members.slots, mem_unionSlots, Nat.zero_add, Members.field?, Members.seen, Scope.push_nil, reduceCtorEq, false_and,
      exists_false, or_false]
  · simp only [Members.slots, List.mem_cons, mem_caseSlots, Nat.zero_add, Members.field?, Members.seen, Scope.push_nil,
      Members.choice.injEq]
    constructor
    · rintro (rfl | ⟨j, d, h1, h2 | ⟨f, h2, h3⟩⟩)
      · exact .inr ⟨_, _, _, ⟨rfl, rfl, rfl⟩, .inl rfl⟩
      · exact .inr ⟨_, _, _, ⟨rfl, rfl, rfl⟩, .inr ⟨j, d, h1, h2⟩⟩
      · exact .inl ⟨j, f, by rw [h1]; exact h2, h3⟩
    · rintro (⟨j, f, h1, h2⟩ | ⟨_, _, _, ⟨rfl, rfl, rfl⟩, rfl | ⟨j, d, h1, h2⟩⟩)
      · rw [Option.bind_eq_some_iff] at h1
        obtain ⟨d, h3, h4⟩ := h1
        exact .inr ⟨j, d, h3, .inr ⟨f, h4, h2⟩⟩
      · exact .inl rfl
      · exact .inr ⟨j, d, h1, .inl h2⟩

theorem mem_fieldSlots {slot : Slot} {s : Scope} {i : Nat} {f : Field} : slot ∈ fieldSlots s i f ↔
    (∃ e ∈ f.before, slot = ⟨.before i, e, s⟩) ∨ (∃ e, f.constraint = some e ∧ slot = ⟨.constraint i, e, s.push [(f.name, .field)]⟩) := by
  unfold fieldSlots
  simp only [List.mem_append, List.mem_map, Option.mem_toList]
  constructor
  · rintro (⟨e, h, rfl⟩ | ⟨e, h, rfl⟩)
    · exact .inl ⟨e, h, rfl⟩
    · exact .inr ⟨e, h, rfl⟩
  · rintro (⟨e, h, rfl⟩ | ⟨e, h, rfl⟩)
    · exact .inl ⟨e, h, rfl⟩
    · exact .inr ⟨e, h, rfl⟩

theorem mem_names {c : Compound} {n : Name} : n ∈ c.members.names ↔ ∃ i, c.IsField i n := by
  unfold Compound.IsField
  rcases c.members with fs | fs | ⟨sel, items, cs⟩
  · simp only [Members.names, Members.field?, List.mem_iff_getElem?, List.getElem?_map, Option.map_eq_some_iff]
  · simp only [Members.names, Members.field?, List.mem_iff_getElem?, List.getElem?_map, Option.map_eq_some_iff]
  · simp only [Members.names, Members.field?, List.mem_map, List.mem_filterMap, Option.bind_eq_some_iff]
    constructor
    · rintro ⟨f, ⟨d, h1, h2⟩, rfl⟩
      obtain ⟨i, hi⟩ := List.mem_iff_getElem?.1 h1
      exact ⟨i, f, ⟨d, hi, h2⟩, rfl⟩
    · rintro ⟨i, f, ⟨d, h1, h2⟩, rfl⟩
      exact ⟨f, ⟨d, List.mem_iff_getElem?.2 ⟨i, h1⟩, h2⟩, rfl⟩

theorem seen_iff {c : Compound} {i : Nat} {n : Name} {k : Kind} : (n, k) ∈ c.members.seen i ↔
    k = .field ∧ ∃ j, c.IsField j n ∧ (∃ fs, c.members = .struct fs) ∧ j < i := by
  unfold Compound.IsField
  rcases c.members with fs | fs | ⟨sel, items, cs⟩
  · simp only [Members.seen, Members.field?, List.mem_map, Prod.mk.injEq, Members.struct.injEq, exists_eq', true_and]
    constructor
    · rintro ⟨f, hf, rfl, rfl⟩
      obtain ⟨j, hj⟩ := List.mem_iff_getElem?.1 hf
      rw [List.getElem?_take] at hj
      split at hj
      · rename_i hlt; exact ⟨rfl, j, ⟨f, hj, rfl⟩, hlt⟩
      · cases hj
    · rintro ⟨rfl, j, ⟨f, hf, rfl⟩, hlt⟩
      exact ⟨f, List.mem_iff_getElem?.2 ⟨j, by rw [List.getElem?_take, if_pos hlt]; exact hf⟩, rfl, rfl⟩
  · simp [Members.seen]
  · simp [Members.seen]

theorem paramScope_iff {c : Compound} {n : Name} {k : Kind} : (n, k) ∈ c.paramScope.symbols ↔ k = .param ∧ n ∈ c.params := by
  simp only [Compound.paramScope, List.mem_map, Prod.mk.injEq]
  constructor
  · rintro ⟨m, hm, rfl, rfl⟩; exact ⟨rfl, hm⟩
  · rintro ⟨rfl, hm⟩; exact ⟨n, hm, rfl, rfl⟩

theorem funcs_iff {fs : List (Name × Expr)} {n : Name} {k : Kind} :
    (n, k) ∈ fs.map (fun f => (f.1, Kind.func)) ↔ k = .func ∧ n ∈ fs.map Prod.fst := by
  simp only [List.mem_map, Prod.mk.injEq]
  constructor
  · rintro ⟨m, hm, rfl, rfl⟩; exact ⟨rfl, m, hm, rfl⟩
  · rintro ⟨rfl, m, hm, rfl⟩; exact ⟨m, hm, rfl, rfl⟩

/-- what a scope with these parts contains -/
theorem push_iff {s : Scope} {ps : List (Name × Kind)} {p : Name × Kind} : p ∈ (s.push ps).symbols ↔ p ∈ s.symbols ∨ p ∈ ps := by
  simp [Scope.push]

/-- the right scope of an expression -/
structure Slot.Right (c : Compound) (slot : Slot) : Prop where
  has : c.Has slot.role slot.expr
  param : ∀ n, (n, .param) ∈ slot.scope.symbols ↔ n ∈ c.params
  field : ∀ n, (n, .field) ∈ slot.scope.symbols ↔ ∃ i, c.IsField i n ∧ c.MayUse slot.role i
  func : ∀ n, (n, .func) ∈ slot.scope.symbols ↔ n ∈ c.funcs.map Prod.fst ∧ slot.role ≠ .body n
  items : slot.scope.items = c.caseItems slot.role

theorem eraseIdx_names {fs : List (Name × Expr)} (hn : (fs.map Prod.fst).Nodup) {k : Nat} {f : Name × Expr} (hk : fs[k]? = some f)
    {n : Name} : n ∈ (fs.eraseIdx k).map Prod.fst ↔ n ∈ fs.map Prod.fst ∧ f.1 ≠ n := by
  induction fs generalizing k with
  | nil => simp at hk
  | cons g fs ih =>
    cases k with
    | zero =>
      simp only [List.getElem?_cons_zero, Option.some.injEq] at hk
      subst hk
      simp only [List.map_cons, List.nodup_cons] at hn
      simp only [List.eraseIdx_cons_zero, List.map_cons, List.mem_cons]
      constructor
      · intro h; exact ⟨.inr h, fun hc => hn.1 (hc ▸ h)⟩
      · rintro ⟨rfl | h, h2⟩
        · exact absurd rfl h2
        · exact h
    | succ k =>
      simp only [List.getElem?_cons_succ] at hk
      simp only [List.map_cons, List.nodup_cons] at hn
      simp only [List.eraseIdx_cons_succ, List.map_cons, List.mem_cons, ih hn.2 hk]
      have : f.1 ∈ fs.map Prod.fst := List.mem_map.2 ⟨f, List.mem_of_getElem? hk, rfl⟩
      constructor
      · rintro (rfl | ⟨h1, h2⟩)
        · exact ⟨.inl rfl, fun hc => hn.1 (hc ▸ this)⟩
        · exact ⟨.inr h1, h2⟩
      · rintro ⟨rfl | h1, h2⟩
        · exact .inl rfl
        · exact .inr ⟨h1, h2⟩

theorem allSlots_right {c : Compound} (hn : c.names.Nodup) {slot : Slot} (h : slot ∈ c.allSlots) : slot.Right c := by
  have hfn : (c.funcs.map Prod.fst).Nodup := (List.nodup_append.1 hn).2.1
  unfold Compound.allSlots at h
  simp only [List.mem_append, List.mem_map] at h
  rcases h with ⟨slot, h, rfl⟩ | h
  · rcases mem_members.1 h with ⟨i, f, h1, h2⟩ | ⟨sel, items, cs, h1, rfl | ⟨i, d, h2, e, h3, rfl⟩⟩
    · rcases mem_fieldSlots.1 h2 with ⟨e, h3, rfl⟩ | ⟨e, h3, rfl⟩
      · refine ⟨.before h1 h3, ?_, ?_, ?_, rfl⟩
        all_goals
          intro n
          simp only [Slot.push, push_iff, paramScope_iff, seen_iff, funcs_iff, reduceCtorEq, false_and, true_and, or_false, false_or,
            Compound.MayUse, ne_eq, not_false_eq_true, and_true]
      · refine ⟨.constraint h1 h3, ?_, ?_, ?_, rfl⟩
        · intro n
          simp only [Slot.push, push_iff, paramScope_iff, seen_iff, funcs_iff, reduceCtorEq, false_and, true_and, or_false, false_or,
            List.mem_singleton, Prod.mk.injEq, and_false]
        · intro n
          simp only [Slot.push, push_iff, paramScope_iff, seen_iff, funcs_iff, reduceCtorEq, false_and, true_and, or_false, false_or,
            List.mem_singleton, Prod.mk.injEq, and_true, Compound.MayUse]
          constructor
          · rintro (⟨j, h4, h5⟩ | rfl)
            · exact ⟨j, h4, .inl h5⟩
            · exact ⟨i, ⟨f, h1, rfl⟩, .inr rfl⟩
          · rintro ⟨j, h4, h5 | rfl⟩
            · exact .inl ⟨j, h4, h5⟩
            · obtain ⟨f', h6, rfl⟩ := h4
              rw [h1] at h6
              cases h6
              exact .inr rfl
        · intro n
          simp only [Slot.push, push_iff, paramScope_iff, seen_iff, funcs_iff, reduceCtorEq, false_and, true_and, or_false, false_or,
            List.mem_singleton, Prod.mk.injEq, and_false, ne_eq, not_false_eq_true, and_true]
    · refine ⟨.selector h1, ?_, ?_, ?_, rfl⟩
      all_goals
        intro n
        simp only [Slot.push, push_iff, paramScope_iff, seen_iff, funcs_iff, reduceCtorEq, false_and, true_and, or_false, false_or,
          Compound.MayUse, ne_eq, not_false_eq_true, and_true, and_false, exists_false]
    · refine ⟨.case h1 h2 h3, ?_, ?_, ?_, ?_⟩
      · intro n
        simp only [Slot.push, push_iff, Scope.addItems, paramScope_iff, funcs_iff, reduceCtorEq, false_and, true_and, or_false]
      · intro n
        simp only [Slot.push, push_iff, Scope.addItems, paramScope_iff, funcs_iff, reduceCtorEq, false_and, true_and, or_false,
          Compound.MayUse, and_false, exists_false]
      · intro n
        simp only [Slot.push, push_iff, Scope.addItems, paramScope_iff, funcs_iff, reduceCtorEq, false_and, true_and, false_or, ne_eq,
          not_false_eq_true, and_true]
      · simp only [Slot.push, Scope.push, Scope.addItems, Compound.caseItems, h1, Compound.paramScope, List.nil_append]
  · obtain ⟨k, f, h1, rfl⟩ := mem_bodySlots.1 h
    have hfield : ∀ n k, (n, k) ∈ c.members.names.map (·, Kind.field) ↔ k = .field ∧ n ∈ c.members.names := by
      intro n k
      simp only [List.mem_map, Prod.mk.injEq]
      constructor
      · rintro ⟨m, hm, rfl, rfl⟩; exact ⟨rfl, hm⟩
      · rintro ⟨rfl, hm⟩; exact ⟨n, hm, rfl, rfl⟩
    refine ⟨.body (List.mem_of_getElem? h1), ?_, ?_, ?_, rfl⟩
    · intro n
      simp only [Compound.fieldScope, push_iff, paramScope_iff, hfield, funcs_iff, reduceCtorEq, false_and, true_and, or_false]
    · intro n
      simp only [Compound.fieldScope, push_iff, paramScope_iff, hfield, funcs_iff, reduceCtorEq, false_and, true_and, or_false, false_or,
        Compound.MayUse, and_true, mem_names]
    · intro n
      simp only [Compound.fieldScope, push_iff, paramScope_iff, hfield, funcs_iff, reduceCtorEq, false_and, true_and, or_false, false_or,
        eraseIdx_names hfn h1, ne_eq, Role.body.injEq]

theorem has_slot {c : Compound} {r : Role} {e : Expr} (h : c.Has r e) : ∃ slot ∈ c.allSlots, slot.role = r ∧ slot.expr = e := by
  unfold Compound.allSlots
  simp only [List.mem_append, List.mem_map]
  have key : ∀ {slot : Slot}, slot ∈ c.members.slots c.paramScope → slot.role = r → slot.expr = e →
      ∃ slot, ((∃ a ∈ c.members.slots c.paramScope, a.push c.funcs = slot) ∨ slot ∈ bodySlots c.fieldScope c.funcs) ∧
        slot.role = r ∧ slot.expr = e := by
    intro slot h1 h2 h3
    exact ⟨_, .inl ⟨slot, h1, rfl⟩, h2, h3⟩
  cases h with
  | before h1 h2 => exact key (mem_members.2 (.inl ⟨_, _, h1, mem_fieldSlots.2 (.inl ⟨_, h2, rfl⟩)⟩)) rfl rfl
  | constraint h1 h2 => exact key (mem_members.2 (.inl ⟨_, _, h1, mem_fieldSlots.2 (.inr ⟨_, h2, rfl⟩)⟩)) rfl rfl
  | selector h1 => exact key (mem_members.2 (.inr ⟨_, _, _, h1, .inl rfl⟩)) rfl rfl
  | case h1 h2 h3 => exact key (mem_members.2 (.inr ⟨_, _, _, h1, .inr ⟨_, _, h2, _, h3, rfl⟩⟩)) rfl rfl
  | body h1 =>
    obtain ⟨k, hk⟩ := List.mem_iff_getElem?.1 h1
    exact ⟨_, .inr (mem_bodySlots.2 ⟨k, _, hk, rfl⟩), rfl, rfl⟩

/-- the result of each function is evaluated once -/
theorem allSlots_once {c : Compound} (hn : c.names.Nodup) :
    c.allSlots.Pairwise (fun a b => ∀ f, b.role = .body f → a.role ≠ .body f) := by
  have hfn : (c.funcs.map Prod.fst).Nodup := (List.nodup_append.1 hn).2.1
  unfold Compound.allSlots
  have hno : ∀ slot ∈ (c.members.slots c.paramScope).map (·.push c.funcs), ∀ f, slot.role ≠ .body f := by
    intro slot h f
    obtain ⟨slot, h', rfl⟩ := List.mem_map.1 h
    rcases mem_members.1 h' with ⟨i, f, h1, h2⟩ | ⟨sel, items, cs, h1, rfl | ⟨i, d, h2, e, h3, rfl⟩⟩
    · rcases mem_fieldSlots.1 h2 with ⟨e, h3, rfl⟩ | ⟨e, h3, rfl⟩ <;> simp [Slot.push]
    · simp [Slot.push]
    · simp [Slot.push]
  rw [List.pairwise_append]
  refine ⟨?_, ?_, fun a ha b _ f _ => hno a ha f⟩
  · exact List.pairwise_of_forall_mem_list (fun a ha b _ f _ => hno a ha f)
  · generalize c.fieldScope = s
    clear hno hn
    generalize c.funcs = fs at hfn ⊢
    induction fs generalizing s with
    | nil => simp [bodySlots]
    | cons f fs ih =>
      simp only [List.map_cons, List.nodup_cons] at hfn
      simp only [bodySlots, List.pairwise_cons]
      refine ⟨?_, ih _ hfn.2⟩
      intro b hb g hg
      obtain ⟨k, f', h1, rfl⟩ := mem_bodySlots.1 hb
      simp only [Role.body.injEq] at hg
      subst hg
      simp only [Slot.push, ne_eq, Role.body.injEq]
      exact fun hc => hfn.1 (hc ▸ List.mem_map.2 ⟨f', List.mem_of_getElem? h1, rfl⟩)

end Zserio.Scopes
