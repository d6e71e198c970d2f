import Verif.Spec.Scopes
import Mathlib.Data.List.Nodup
import Mathlib.Tactic.Tauto
set_option linter.unusedSimpArgs false
/-
Lemmas for C89: what the scope setter does.
-/
namespace Zserio.Scopes

/-- the names defined in a scope -/
def Scope.keys (s : Scope) : List Name := s.symbols.map Prod.fst

/-- the scope with more symbols -/
def Scope.push (s : Scope) (ps : List (Name × Kind)) : Scope := { s with symbols := s.symbols ++ ps }

theorem Scope.push_nil (s : Scope) : s.push [] = s := by simp [Scope.push]

theorem Scope.push_push (s : Scope) (ps qs : List (Name × Kind)) : (s.push ps).push qs = s.push (ps ++ qs) := by simp [Scope.push]

theorem Scope.keys_push (s : Scope) (ps : List (Name × Kind)) : (s.push ps).keys = s.keys ++ ps.map Prod.fst := by
  simp [Scope.push, Scope.keys]

theorem Scope.add_ok {s s' : Scope} {n : Name} {k : Kind} : s.add n k = .ok s' ↔ n ∉ s.keys ∧ s' = s.push [(n, k)] := by
  unfold Scope.add Scope.keys
  split
  · rename_i h; simp [h]
  · rename_i h
    simp only [Except.ok.injEq, h, not_false_eq_true, true_and]
    exact eq_comm

theorem exprs_eq (st : Setter) (r : Role) (es : List Expr) :
    st.exprs r es = { st with slots := st.slots ++ es.map (fun e => (⟨r, e, st.current⟩ : Slot)) } := by
  unfold Setter.exprs
  induction es generalizing st with
  | nil => simp
  | cons e es ih => rw [List.foldl_cons, ih]; simp [Setter.expr]

theorem addParams_ok (ns : List Name) : ∀ {s s' : Scope}, s.keys.Nodup →
    (addParams s ns = .ok s' ↔ (s.keys ++ ns).Nodup ∧ s' = s.push (ns.map (·, Kind.param))) := by
  induction ns with
  | nil => intro s s' hn; simp [addParams, Scope.push_nil, hn, eq_comm]
  | cons n ns ih =>
    intro s s' hn
    unfold addParams
    rcases h : s.add n .param with e | s1
    · have : n ∈ s.keys := by
        by_contra hc
        have := (Scope.add_ok (s := s) (n := n) (k := .param) (s' := s.push [(n, .param)])).2 ⟨hc, rfl⟩
        rw [h] at this; cases this
      simp only [bind, Except.bind, reduceCtorEq, false_iff]
      intro hx
      have := (List.nodup_append.1 hx.1).2.2 n this n (by simp)
      exact this rfl
    · obtain ⟨h1, rfl⟩ := Scope.add_ok.1 h
      have hn' : (s.push [(n, Kind.param)]).keys.Nodup := by
        rw [Scope.keys_push]
        simp only [List.map_cons, List.map_nil]
        rw [List.nodup_append]
        exact ⟨hn, by simp, by simp; exact fun a ha => fun hc => h1 (hc ▸ ha)⟩
      simp only [bind, Except.bind]
      rw [ih hn', Scope.keys_push, Scope.push_push]
      simp

/-- the slots of a field -/
def fieldSlots (s : Scope) (i : Nat) (f : Field) : List Slot :=
  f.before.map (fun e => (⟨.before i, e, s⟩ : Slot)) ++
    f.constraint.toList.map (fun e => (⟨.constraint i, e, s.push [(f.name, .field)]⟩ : Slot))

theorem field_ok {st st' : Setter} {i : Nat} {f : Field} :
    st.field i f = .ok st' ↔ f.name ∉ st.current.keys ∧
      st' = ⟨st.current.push [(f.name, .field)], st.outer, st.slots ++ fieldSlots st.current i f⟩ := by
  unfold Setter.field
  simp only [exprs_eq]
  rcases h : st.current.add f.name .field with e | s
  · have : f.name ∈ st.current.keys := by
      by_contra hc
      have := (Scope.add_ok (s := st.current) (n := f.name) (k := .field)).2 ⟨hc, rfl⟩
      rw [h] at this; cases this
    simp [this]
  · obtain ⟨h1, rfl⟩ := Scope.add_ok.1 h
    simp [h1, fieldSlots, eq_comm]

theorem choiceField_ok {st st' : Setter} {i : Nat} {f : Field} :
    st.choiceField i f = .ok st' ↔ f.name ∉ st.current.keys ∧ f.name ∉ st.outer.keys ∧
      st' = ⟨st.current, st.outer.push [(f.name, .field)], st.slots ++ fieldSlots st.current i f⟩ := by
  unfold Setter.choiceField
  simp only [exprs_eq]
  rcases h : st.current.add f.name .field with e | s
  · have : f.name ∈ st.current.keys := by
      by_contra hc
      have := (Scope.add_ok (s := st.current) (n := f.name) (k := .field)).2 ⟨hc, rfl⟩
      rw [h] at this; cases this
    simp [this]
  · obtain ⟨h1, rfl⟩ := Scope.add_ok.1 h
    rcases h' : st.outer.add f.name .field with e | s
    · have : f.name ∈ st.outer.keys := by
        by_contra hc
        have := (Scope.add_ok (s := st.outer) (n := f.name) (k := .field)).2 ⟨hc, rfl⟩
        rw [h'] at this; cases this
      simp [this]
    · obtain ⟨h2, rfl⟩ := Scope.add_ok.1 h'
      have hr : (st.current.push [(f.name, .field)]).remove f.name = st.current := by
        have : st.current.symbols.filter (fun p => decide (p.1 ≠ f.name)) = st.current.symbols := by
          rw [List.filter_eq_self]
          intro p hp
          simp only [decide_eq_true_eq]
          intro hc
          exact h1 (List.mem_map.2 ⟨p, hp, hc⟩)
        simp only [Scope.remove, Scope.push, List.filter_append, this]
        simp
      simp only [Except.ok.injEq, h1, h2, not_false_eq_true, true_and, hr]
      simp [fieldSlots, eq_comm]

/-! ### Structures -/

/-- the slots of all fields of a structure -/
def structSlots (s : Scope) (i : Nat) : List Field → List Slot
  | [] => []
  | f :: fs => fieldSlots s i f ++ structSlots (s.push [(f.name, .field)]) (i + 1) fs

theorem nodup_push {s : Scope} {n : Name} {k : Kind} (hn : s.keys.Nodup) (h : n ∉ s.keys) : (s.push [(n, k)]).keys.Nodup := by
  rw [Scope.keys_push]
  simp only [List.map_cons, List.map_nil]
  rw [List.nodup_append]
  exact ⟨hn, by simp, by simp; exact fun a ha hc => h (hc ▸ ha)⟩

theorem not_nodup {xs ys : List Name} {n : Name} (h : n ∈ xs) : ¬ (xs ++ n :: ys).Nodup := by
  intro hn
  exact (List.nodup_append.1 hn).2.2 n h n (by simp) rfl

theorem fields_ok (fs : List Field) : ∀ {st st' : Setter} {i : Nat}, st.current.keys.Nodup →
    (st.fields i fs = .ok st' ↔ (st.current.keys ++ fs.map Field.name).Nodup ∧
      st' = ⟨st.current.push (fs.map (fun f => (f.name, .field))), st.outer, st.slots ++ structSlots st.current i fs⟩) := by
  induction fs with
  | nil => intro st st' i hn; simp [Setter.fields, structSlots, Scope.push_nil, hn]; exact eq_comm
  | cons f fs ih =>
    intro st st' i hn
    unfold Setter.fields
    rcases h : st.field i f with e | s1
    · have : f.name ∈ st.current.keys := by
        by_contra hc
        rw [field_ok.2 ⟨hc, rfl⟩] at h; cases h
      simp only [bind, Except.bind, reduceCtorEq, false_iff, List.map_cons]
      exact fun hx => not_nodup this hx.1
    · obtain ⟨h1, rfl⟩ := field_ok.1 h
      simp only [bind, Except.bind]
      rw [ih (nodup_push hn h1)]
      simp only [Scope.keys_push, Scope.push_push, structSlots, List.map_cons, List.map_nil, List.append_assoc, List.cons_append,
        List.nil_append]

/-! ### Unions and choices -/

/-- the slots of all fields of a union -/
def unionSlots (s : Scope) (i : Nat) : List Field → List Slot
  | [] => []
  | f :: fs => fieldSlots s i f ++ unionSlots s (i + 1) fs

theorem choiceFields_ok (fs : List Field) : ∀ {st st' : Setter} {i : Nat}, st.outer.keys.Nodup →
    (∀ n ∈ st.current.keys, n ∈ st.outer.keys) →
    (st.choiceFields i fs = .ok st' ↔ (st.outer.keys ++ fs.map Field.name).Nodup ∧
      st' = ⟨st.current, st.outer.push (fs.map (fun f => (f.name, .field))), st.slots ++ unionSlots st.current i fs⟩) := by
  induction fs with
  | nil => intro st st' i hn _; simp [Setter.choiceFields, unionSlots, Scope.push_nil, hn]; exact eq_comm
  | cons f fs ih =>
    intro st st' i hn hs
    unfold Setter.choiceFields
    rcases h : st.choiceField i f with e | s1
    · have : f.name ∈ st.outer.keys := by
        by_contra hc
        rw [choiceField_ok.2 ⟨fun h => hc (hs _ h), hc, rfl⟩] at h; cases h
      simp only [bind, Except.bind, reduceCtorEq, false_iff, List.map_cons]
      exact fun hx => not_nodup this hx.1
    · obtain ⟨h1, h2, rfl⟩ := choiceField_ok.1 h
      simp only [bind, Except.bind]
      rw [ih (nodup_push hn h2) (by intro n hm; rw [Scope.keys_push]; exact List.mem_append_left _ (hs n hm))]
      simp only [Scope.keys_push, Scope.push_push, unionSlots, List.map_cons, List.map_nil, List.append_assoc, List.cons_append,
        List.nil_append]

/-- the slots of all cases of a choice -/
def caseSlots (s : Scope) (items : List Name) (i : Nat) : List Case → List Slot
  | [] => []
  | c :: cs => c.exprs.map (fun e => (⟨.case i, e, s.addItems items⟩ : Slot)) ++
      (match c.field with
      | none => []
      | some f => fieldSlots s i f) ++ caseSlots s items (i + 1) cs

theorem cases_ok (items : List Name) (cs : List Case) : ∀ {st st' : Setter} {i : Nat}, st.outer.keys.Nodup →
    (∀ n ∈ st.current.keys, n ∈ st.outer.keys) →
    (st.cases items i cs = .ok st' ↔ (st.outer.keys ++ (cs.filterMap Case.field).map Field.name).Nodup ∧
      st' = ⟨st.current, st.outer.push ((cs.filterMap Case.field).map (fun f => (f.name, .field))),
        st.slots ++ caseSlots st.current items i cs⟩) := by
  induction cs with
  | nil => intro st st' i hn _; simp [Setter.cases, caseSlots, Scope.push_nil, hn]; exact eq_comm
  | cons c cs ih =>
    intro st st' i hn hs
    unfold Setter.cases
    rcases hc : c.field with _ | f
    · simp only [Setter.caseField, bind, Except.bind]
      rw [ih (by exact hn) (by exact hs)]
      simp [Setter.caseExprs, caseSlots, hc]
    · simp only [Setter.caseField]
      rcases h : (st.caseExprs items i c.exprs).choiceField i f with e | s1
      · have : f.name ∈ st.outer.keys := by
          by_contra hc
          rw [(choiceField_ok (st := st.caseExprs items i c.exprs)).2 ⟨fun h => hc (hs _ h), hc, rfl⟩] at h; cases h
        simp only [bind, Except.bind, reduceCtorEq, false_iff, List.filterMap_cons, hc, List.map_cons]
        exact fun hx => not_nodup this hx.1
      · obtain ⟨h1, h2, rfl⟩ := choiceField_ok.1 h
        simp only [bind, Except.bind]
        rw [ih (nodup_push hn h2) (by intro n hm; simp only [Scope.keys_push]; exact List.mem_append_left _ (hs n hm))]
        simp [Scope.keys_push, Scope.push_push, caseSlots, hc, Setter.caseExprs]

/-! ### Functions -/

theorem mapM_add {n : Name} : ∀ {slots slots' : List Slot},
    (slots.mapM (fun slot => do .ok { slot with scope := ← slot.scope.add n .func }) = (.ok slots' : Except Problem _) ↔
      (∀ slot ∈ slots, n ∉ slot.scope.keys) ∧
      slots' = slots.map (fun slot => { slot with scope := slot.scope.push [(n, .func)] })) := by
  intro slots
  induction slots with
  | nil => intro slots'; simp [pure, Except.pure, eq_comm]
  | cons slot slots ih =>
    intro slots'
    rw [List.mapM_cons]
    rcases h : slot.scope.add n .func with e | s
    · have : n ∈ slot.scope.keys := by
        by_contra hc
        rw [Scope.add_ok.2 ⟨hc, rfl⟩] at h; cases h
      simp [bind, Except.bind, this]
    · obtain ⟨h1, rfl⟩ := Scope.add_ok.1 h
      rcases h2 : slots.mapM (fun slot => do .ok { slot with scope := ← slot.scope.add n .func }) with e | ss
      · simp only [bind, Except.bind] at h2
        simp only [bind, Except.bind, h2, reduceCtorEq, List.mem_cons, forall_eq_or_imp, false_iff]
        rintro ⟨⟨-, hx⟩, -⟩
        have := (ih (slots' := _)).2 ⟨hx, rfl⟩
        simp only [bind, Except.bind] at this
        rw [h2] at this; cases this
      · have h3 := ih.1 h2
        simp only [bind, Except.bind] at h2
        simp only [bind, Except.bind, h2, pure, Except.pure, Except.ok.injEq, List.mem_cons, forall_eq_or_imp, List.map_cons, h1,
          not_false_eq_true, true_and]
        rw [h3.2]
        constructor
        · rintro rfl; exact ⟨h3.1, rfl⟩
        · rintro ⟨-, rfl⟩; rfl

/-- a slot after all functions `fs` have been added to its scope -/
def Slot.push (slot : Slot) (fs : List (Name × Expr)) : Slot := { slot with scope := slot.scope.push (fs.map (fun f => (f.1, .func))) }

/-- the slots of all functions: `done` are the functions before them -/
def bodySlots (s : Scope) : List (Name × Expr) → List Slot
  | [] => []
  | f :: fs => (⟨.body f.1, f.2, s⟩ : Slot).push fs :: bodySlots (s.push [(f.1, .func)]) fs

theorem func_ok {st st' : Setter} {f : Name × Expr} (hs : ∀ slot ∈ st.slots, ∀ n ∈ slot.scope.keys, n ∈ st.current.keys) :
    st.func f = .ok st' ↔ f.1 ∉ st.current.keys ∧
      st' = ⟨st.current.push [(f.1, .func)], st.outer, st.slots.map (·.push [f]) ++ [⟨.body f.1, f.2, st.current⟩]⟩ := by
  unfold Setter.func
  rcases h : st.slots.mapM (fun slot => do .ok { slot with scope := ← slot.scope.add f.1 .func }) with e | ss
  · simp only [bind, Except.bind] at h
    simp only [bind, Except.bind, h, reduceCtorEq, false_iff]
    rintro ⟨hx, -⟩
    have := (mapM_add (n := f.1) (slots := st.slots) (slots' := _)).2 ⟨fun slot hm hc => hx (hs slot hm _ hc), rfl⟩
    simp only [bind, Except.bind] at this
    rw [h] at this; cases this
  · obtain ⟨h1, rfl⟩ := mapM_add.1 h
    simp only [bind, Except.bind] at h
    simp only [bind, Except.bind, h, Setter.expr]
    rcases h2 : st.current.add f.1 .func with e | s
    · have : f.1 ∈ st.current.keys := by
        by_contra hc
        rw [Scope.add_ok.2 ⟨hc, rfl⟩] at h2; cases h2
      simp [this]
    · obtain ⟨h3, rfl⟩ := Scope.add_ok.1 h2
      simp only [Except.ok.injEq, h3, not_false_eq_true, true_and, Slot.push, List.map_cons, List.map_nil]
      exact eq_comm

theorem functions_ok (fs : List (Name × Expr)) : ∀ {st st' : Setter}, st.current.keys.Nodup →
    (∀ slot ∈ st.slots, ∀ n ∈ slot.scope.keys, n ∈ st.current.keys) →
    (st.functions fs = .ok st' ↔ (st.current.keys ++ fs.map Prod.fst).Nodup ∧
      st' = ⟨st.current.push (fs.map (fun f => (f.1, .func))), st.outer, st.slots.map (·.push fs) ++ bodySlots st.current fs⟩) := by
  induction fs with
  | nil =>
    intro st st' hn _
    have : st.slots.map (·.push []) = st.slots := by
      rw [List.map_congr_left (g := id) (fun slot _ => by simp [Slot.push, Scope.push_nil])]; simp
    simp [Setter.functions, bodySlots, Scope.push_nil, hn, this]
    exact eq_comm
  | cons f fs ih =>
    intro st st' hn hs
    unfold Setter.functions
    rcases h : st.func f with e | s1
    · have : f.1 ∈ st.current.keys := by
        by_contra hc
        rw [(func_ok hs).2 ⟨hc, rfl⟩] at h; cases h
      simp only [bind, Except.bind, reduceCtorEq, false_iff, List.map_cons]
      exact fun hx => not_nodup this hx.1
    · obtain ⟨h1, rfl⟩ := (func_ok hs).1 h
      simp only [bind, Except.bind]
      rw [ih (nodup_push hn h1)]
      · simp only [Scope.keys_push, Scope.push_push, bodySlots, List.map_cons, List.map_nil, List.append_assoc, List.cons_append,
          List.nil_append, List.map_append, List.map_map]
        have : ∀ slot : Slot, (fun slot : Slot => slot.push fs) (slot.push [f]) = slot.push (f :: fs) := by
          intro slot; simp [Slot.push, Scope.push_push]
        have h2 : st.slots.map ((fun slot : Slot => slot.push fs) ∘ fun slot => slot.push [f]) = st.slots.map (·.push (f :: fs)) :=
          List.map_congr_left (fun slot _ => this slot)
        rw [h2]
      · intro slot hm n hk
        rw [Scope.keys_push]
        simp only [List.mem_append, List.mem_map, List.mem_singleton] at hm
        rcases hm with ⟨slot, hm, rfl⟩ | rfl
        · simp only [Slot.push, Scope.keys_push, List.map_cons, List.map_nil, List.mem_append, List.mem_singleton] at hk ⊢
          rcases hk with hk | hk
          · exact .inl (hs slot hm n hk)
          · exact .inr hk
        · exact List.mem_append_left _ hk

/-! ### All slots of a compound type -/

/-- the scope with all parameters -/
def Compound.paramScope (c : Compound) : Scope := ⟨c.params.map (·, .param), []⟩

/-- the slots of the members of a compound type, without functions -/
def Members.slots (s : Scope) : Members → List Slot
  | .struct fs => structSlots s 0 fs
  | .union fs => unionSlots s 0 fs
  | .choice sel items cs => ⟨.selector, sel, s⟩ :: caseSlots s items 0 cs

/-- the scope with all parameters and fields -/
def Compound.fieldScope (c : Compound) : Scope := c.paramScope.push (c.members.names.map (·, .field))

/-- all slots -/
def Compound.allSlots (c : Compound) : List Slot :=
  (c.members.slots c.paramScope).map (·.push c.funcs) ++ bodySlots c.fieldScope c.funcs

theorem fieldSlots_keys {s : Scope} {i : Nat} {f : Field} {slot : Slot} (h : slot ∈ fieldSlots s i f) {n : Name}
    (hn : n ∈ slot.scope.keys) : n ∈ s.keys ∨ n = f.name := by
  unfold fieldSlots at h
  simp only [List.mem_append, List.mem_map] at h
  rcases h with ⟨e, -, rfl⟩ | ⟨e, -, rfl⟩
  · exact .inl hn
  · simp only [Scope.keys_push, List.map_cons, List.map_nil, List.mem_append, List.mem_singleton] at hn
    exact hn

theorem structSlots_keys {fs : List Field} : ∀ {s : Scope} {i : Nat} {slot : Slot}, slot ∈ structSlots s i fs → ∀ {n : Name},
    n ∈ slot.scope.keys → n ∈ s.keys ∨ n ∈ fs.map Field.name := by
  induction fs with
  | nil => intro s i slot h; cases h
  | cons f fs ih =>
    intro s i slot h n hn
    simp only [structSlots, List.mem_append] at h
    rcases h with h | h
    · rcases fieldSlots_keys h hn with h | rfl
      · exact .inl h
      · exact .inr (by simp)
    · rcases ih h hn with h | h
      · simp only [Scope.keys_push, List.map_cons, List.map_nil, List.mem_append, List.mem_singleton] at h
        rcases h with h | rfl
        · exact .inl h
        · exact .inr (by simp)
      · exact .inr (by simp [List.map_cons, h])

theorem unionSlots_keys {fs : List Field} : ∀ {s : Scope} {i : Nat} {slot : Slot}, slot ∈ unionSlots s i fs → ∀ {n : Name},
    n ∈ slot.scope.keys → n ∈ s.keys ∨ n ∈ fs.map Field.name := by
  induction fs with
  | nil => intro s i slot h; cases h
  | cons f fs ih =>
    intro s i slot h n hn
    simp only [unionSlots, List.mem_append] at h
    rcases h with h | h
    · rcases fieldSlots_keys h hn with h | rfl
      · exact .inl h
      · exact .inr (by simp)
    · rcases ih h hn with h | h
      · exact .inl h
      · exact .inr (by simp [List.map_cons, h])

theorem caseSlots_keys {items : List Name} {cs : List Case} : ∀ {s : Scope} {i : Nat} {slot : Slot}, slot ∈ caseSlots s items i cs →
    ∀ {n : Name}, n ∈ slot.scope.keys → n ∈ s.keys ∨ n ∈ (cs.filterMap Case.field).map Field.name := by
  induction cs with
  | nil => intro s i slot h; cases h
  | cons c cs ih =>
    intro s i slot h n hn
    simp only [caseSlots, List.mem_append, List.mem_map] at h
    rcases h with (⟨e, -, rfl⟩ | h) | h
    · exact .inl hn
    · rcases hc : c.field with _ | f
      · rw [hc] at h; cases h
      · rw [hc] at h
        rcases fieldSlots_keys h hn with h | rfl
        · exact .inl h
        · exact .inr (by simp [List.filterMap_cons, hc])
    · rcases ih h hn with h | h
      · exact .inl h
      · refine .inr ?_
        rw [List.filterMap_cons]
        split
        · exact h
        · simp only [List.map_cons, List.mem_cons]; exact .inr h

theorem members_ok {s : Scope} {m : Members} {st' : Setter} (hn : s.keys.Nodup) :
    Setter.members ⟨s, s, []⟩ m = .ok st' ↔ (s.keys ++ m.names).Nodup ∧
      st'.current = s.push (m.names.map (·, .field)) ∧ st'.slots = m.slots s ∧ st'.outer = (match m with
        | .struct _ => s
        | _ => s.push (m.names.map (·, .field))) := by
  have ext : ∀ (st : Setter) a b c, (st' = ⟨a, b, c⟩ ↔ st'.current = a ∧ st'.slots = c ∧ st'.outer = b) := by
    intro st a b c
    cases st'
    simp only [Setter.mk.injEq]
    tauto
  rcases m with fs | fs | ⟨sel, items, cs⟩
  · simp only [Setter.members, fields_ok fs (st := ⟨s, s, []⟩) hn, Members.names, Members.slots, List.nil_append, List.map_map,
      ext ⟨s, s, []⟩]
    rfl
  · simp only [Setter.members, Members.names, Members.slots, List.map_map]
    rcases h : Setter.choiceFields ⟨s, s, []⟩ 0 fs with e | st1
    · simp only [bind, Except.bind, reduceCtorEq, false_iff]
      rintro ⟨h1, -⟩
      rw [(choiceFields_ok fs (st := ⟨s, s, []⟩) hn (fun _ h => h)).2 ⟨h1, rfl⟩] at h
      cases h
    · obtain ⟨h1, rfl⟩ := (choiceFields_ok fs (st := ⟨s, s, []⟩) hn (fun _ h => h)).1 h
      simp only [bind, Except.bind, Except.ok.injEq, h1, true_and, List.nil_append]
      rw [eq_comm, ext ⟨s, s, []⟩]
      rfl
  · simp only [Setter.members, Members.names, Members.slots, List.map_map]
    rcases h : (Setter.expr ⟨s, s, []⟩ .selector sel).cases items 0 cs with e | st1
    · simp only [bind, Except.bind, reduceCtorEq, false_iff]
      rintro ⟨h1, -⟩
      rw [(cases_ok items cs (st := Setter.expr ⟨s, s, []⟩ .selector sel) hn (fun _ h => h)).2 ⟨h1, rfl⟩] at h
      cases h
    · obtain ⟨h1, rfl⟩ := (cases_ok items cs (st := Setter.expr ⟨s, s, []⟩ .selector sel) hn (fun _ h => h)).1 h
      simp only [bind, Except.bind, Except.ok.injEq, show (s.keys ++ _).Nodup from h1, true_and, List.nil_append]
      rw [eq_comm, ext ⟨s, s, []⟩]
      rfl

theorem members_keys {s : Scope} {m : Members} {slot : Slot} (h : slot ∈ m.slots s) {n : Name} (hn : n ∈ slot.scope.keys) :
    n ∈ s.keys ∨ n ∈ m.names := by
  rcases m with fs | fs | ⟨sel, items, cs⟩
  · exact structSlots_keys h hn
  · exact unionSlots_keys h hn
  · rcases List.mem_cons.1 h with rfl | h
    · exact .inl hn
    · exact caseSlots_keys h hn

theorem slots_ok {c : Compound} {slots : List Slot} : c.slots = .ok slots ↔ c.names.Nodup ∧ slots = c.allSlots := by
  unfold Compound.slots
  have h0 : (⟨[], []⟩ : Scope).keys.Nodup := by simp [Scope.keys]
  have hp : (⟨[], []⟩ : Scope).push (c.params.map (·, Kind.param)) = c.paramScope := by simp [Scope.push, Compound.paramScope]
  have hk : c.paramScope.keys = c.params := by simp [Scope.keys, Compound.paramScope, List.map_map, Function.comp_def]
  have hfk : c.fieldScope.keys = c.params ++ c.members.names := by
    simp [Compound.fieldScope, Scope.keys_push, hk, List.map_map, Function.comp_def]
  rcases h : addParams ⟨[], []⟩ c.params with e | s
  · simp only [bind, Except.bind, reduceCtorEq, false_iff]
    rintro ⟨h1, -⟩
    rw [(addParams_ok c.params h0).2 ⟨by simp only [Scope.keys, List.map_nil, List.nil_append]
                                         unfold Compound.names at h1
                                         rw [List.append_assoc] at h1
                                         exact (List.nodup_append.1 h1).1, rfl⟩] at h
    cases h
  · obtain ⟨h1, rfl⟩ := (addParams_ok c.params h0).1 h
    rw [hp]
    have hpn : c.paramScope.keys.Nodup := by rw [hk]; simpa [Scope.keys] using h1
    simp only [bind, Except.bind]
    rcases h2 : Setter.members ⟨c.paramScope, c.paramScope, []⟩ c.members with e | st
    · simp only [reduceCtorEq, false_iff]
      rintro ⟨h3, -⟩
      have := (members_ok (s := c.paramScope) (m := c.members) (st' := ⟨_, _, _⟩) hpn).2
        ⟨by rw [hk]; exact (List.nodup_append.1 h3).1, rfl, rfl, rfl⟩
      rw [h2] at this; cases this
    · obtain ⟨h3, h4, h5, -⟩ := (members_ok hpn).1 h2
      have hc : st.current = c.fieldScope := h4
      have hn2 : st.current.keys.Nodup := by rw [hc, hfk, ← hk]; exact h3
      have hs : ∀ slot ∈ st.slots, ∀ n ∈ slot.scope.keys, n ∈ st.current.keys := by
        intro slot hm n hn
        rw [hc, hfk]
        rw [h5] at hm
        rcases members_keys hm hn with h | h
        · rw [hk] at h; exact List.mem_append_left _ h
        · exact List.mem_append_right _ h
      simp only
      rcases h6 : st.functions c.funcs with e | st'
      · simp only [reduceCtorEq, false_iff]
        rintro ⟨h7, -⟩
        rw [(functions_ok c.funcs hn2 hs).2 ⟨by rw [hc, hfk]; exact h7, rfl⟩] at h6
        cases h6
      · obtain ⟨h7, rfl⟩ := (functions_ok c.funcs hn2 hs).1 h6
        rw [hc, hfk] at h7
        simp only [Except.ok.injEq, show c.names.Nodup from h7, true_and, hc, h5, Compound.allSlots]
        exact eq_comm

end Zserio.Scopes
