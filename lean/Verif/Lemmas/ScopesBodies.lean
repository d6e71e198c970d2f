import Verif.Lemmas.ScopesSlots
set_option linter.unusedSimpArgs false
/-
Lemmas for C89: what holds of the results of functions while expressions are evaluated.
-/
namespace Zserio.Scopes

/-- all names of the scope are names of the compound type, of this kind -/
def Compound.ScopeOk (c : Compound) (s : Scope) : Prop :=
  ∀ n k, (n, k) ∈ s.symbols → match k with
    | .param => n ∈ c.params
    | .field => n ∈ c.members.names
    | .func => n ∈ c.funcs.map Prod.fst

theorem scopeOk_field {c : Compound} (hn : c.names.Nodup) {s : Scope} (hs : c.ScopeOk s) {n : Name} {k : Kind} (h : (n, k) ∈ s.symbols)
    (hf : n ∈ c.members.names) : k = .field := by
  have h1 := hs n k h
  unfold Compound.names at hn
  rw [List.nodup_append] at hn
  cases k with
  | param => exact absurd rfl ((List.nodup_append.1 hn.1).2.2 n h1 n hf)
  | field => rfl
  | func => exact absurd rfl (hn.2.2 n (List.mem_append_right _ hf) n h1)

theorem scopeOk_kind {c : Compound} (hn : c.names.Nodup) {s : Scope} (hs : c.ScopeOk s) {n : Name} {k k' : Kind} (h : (n, k) ∈ s.symbols)
    (h' : (n, k') ∈ s.symbols) : k = k' := by
  have h1 := hs n k h
  have h2 := hs n k' h'
  unfold Compound.names at hn
  rw [List.nodup_append] at hn
  have a := (List.nodup_append.1 hn.1).2.2
  have b := hn.2.2
  cases k <;> cases k' <;> first
    | rfl
    | exact absurd rfl (a n h1 n h2)
    | exact absurd rfl (a n h2 n h1)
    | exact absurd rfl (b n (List.mem_append_left _ h1) n h2)
    | exact absurd rfl (b n (List.mem_append_right _ h1) n h2)
    | exact absurd rfl (b n (List.mem_append_left _ h2) n h1)
    | exact absurd rfl (b n (List.mem_append_right _ h2) n h1)

theorem scopeOk_find {c : Compound} (hn : c.names.Nodup) {s : Scope} (hs : c.ScopeOk s) {n : Name} {k : Kind} :
    s.find n = some (.sym k n) ↔ (n, k) ∈ s.symbols := by
  refine ⟨fun h => (find_key h).2, fun h => ?_⟩
  rcases hf : s.find n with _ | r
  · exact absurd (List.mem_map.2 ⟨_, h, rfl⟩) (find_none hf).1
  · rcases find_kinds hf with ⟨k', rfl⟩ | rfl
    · rw [scopeOk_kind hn hs h (find_key hf).2]
    · exact absurd (List.mem_map.2 ⟨_, h, rfl⟩) (find_item hf).2.2

theorem Slot.Right.scopeOk {c : Compound} {slot : Slot} (h : slot.Right c) : c.ScopeOk slot.scope := by
  intro n k hk
  cases k with
  | param => exact (h.param n).1 hk
  | field => obtain ⟨i, h1, -⟩ := (h.field n).1 hk; exact mem_names.2 ⟨i, h1⟩
  | func => exact ((h.func n).1 hk).1

theorem body_has {c : Compound} {f : Name} {e : Expr} (h : c.body f = some e) : c.Has (.body f) e := by
  unfold Compound.body at h
  rw [Option.map_eq_some_iff] at h
  obtain ⟨p, hp, rfl⟩ := h
  have := List.find?_some hp
  simp only [decide_eq_true_eq] at this
  subst this
  exact .body (List.mem_of_find?_eq_some hp)

theorem has_body {c : Compound} (hn : c.names.Nodup) {f : Name} {e : Expr} (h : c.Has (.body f) e) : c.body f = some e := by
  have hfn : (c.funcs.map Prod.fst).Nodup := (List.nodup_append.1 hn).2.1
  cases h with
  | body h =>
    unfold Compound.body
    rw [Option.map_eq_some_iff]
    rcases hf : c.funcs.find? (fun p => decide (p.1 = f)) with _ | p
    · rw [List.find?_eq_none] at hf
      exact absurd (by simp) (hf _ h)
    · have h1 := List.find?_some hf
      simp only [decide_eq_true_eq] at h1
      have := List.inj_on_of_nodup_map hfn (List.mem_of_find?_eq_some hf) h h1
      exact ⟨p, hf, by rw [this]⟩

/-- without clashes, names of fields are not names of items -/
def Compound.ItemsOk (c : Compound) (pkg : List Name) (items : List Name) : Prop := c.NoClash pkg → ∀ i ∈ items, i ∉ c.members.names

theorem has_items {c : Compound} {pkg : List Name} {r : Role} {e : Expr} (h : c.Has r e) : c.ItemsOk pkg e.items := by
  intro hc i hi hm
  obtain ⟨j, hj⟩ := mem_names.1 hm
  exact (hc j i hj).2.1 r e h hi

theorem Slot.Right.items_ok {c : Compound} {pkg : List Name} {slot : Slot} (h : slot.Right c) : c.ItemsOk pkg slot.scope.items := by
  intro hc i hi hm
  obtain ⟨j, hj⟩ := mem_names.1 hm
  rw [h.items] at hi
  unfold Compound.caseItems at hi
  split at hi
  · split at hi
    · rename_i hmem; exact (hc j i hj).2.2 _ _ _ hmem hi
    · cases hi
  · cases hi

/-- the references of an expression in a compound type -/
structure Compound.Refers (c : Compound) (pkg : List Name) (e : Expr) (rs : List Ref) : Prop where
  fields : ∀ n, .sym .field n ∈ rs → n ∈ e.ids ∧ n ∈ c.members.names
  calls : ∀ f, .call f ∈ rs ↔ f ∈ e.calls
  found : c.NoClash pkg → ∀ n ∈ e.ids, n ∈ c.members.names → .sym .field n ∈ rs

theorem resolve_refers {c : Compound} (hn : c.names.Nodup) {call : Scope → Name → Bodies → Except Problem Bodies} {pkg : List Name}
    {own : Bool} {e : Expr} {s : Scope} (hs : c.ScopeOk s) (hi : c.ItemsOk pkg s.items) (he : c.ItemsOk pkg e.items) {b : Bodies}
    {r : List Ref × Bodies} (h : e.resolve call pkg own s b = .ok r) : c.Refers pkg e r.1 := by
  have h1 := resolve_shows h
  refine ⟨fun n hm => ⟨(h1.fields n hm).1, hs n .field (h1.fields n hm).2⟩, h1.calls, fun hc n hm hf => ?_⟩
  refine resolve_found (N := fun n => n ∈ c.members.names) ?_ (fun n k hk hf => scopeOk_field hn hs hk hf) (hi hc) (he hc) h n hm hf
  intro n hp hm
  obtain ⟨j, hj⟩ := mem_names.1 hm
  exact (hc j n hj).1 hp

/-- what holds of the results of functions -/
def Compound.BodiesOk (c : Compound) (pkg : List Name) (b : Bodies) : Prop :=
  ∀ f rs, (f, rs) ∈ b → ∃ e, c.body f = some e ∧ ¬ c.Calls e f ∧ c.Refers pkg e rs

theorem evalBody_ok {c : Compound} (hn : c.names.Nodup) {pkg : List Name} : ∀ (k : Nat) {stack : List Name} {s : Scope} {f : Name}
    {b b' : Bodies}, c.ScopeOk s → c.ItemsOk pkg s.items → c.evalBody pkg k stack s f b = .ok b' → c.BodiesOk pkg b →
    c.BodiesOk pkg b' := by
  intro k
  induction k with
  | zero => intro stack s f b b' _ _ h; cases h
  | succ k ih =>
    intro stack s f b b' hs hi h hb
    obtain ⟨k', e, r, hk, h1, h2, h3, rfl⟩ := evalBody_inv h
    have hk : k' = k := by omega
    subst hk
    have he := has_items (pkg := pkg) (body_has h2)
    have hr : c.BodiesOk pkg r.2 := by
      refine resolve_keeps (c.BodiesOk pkg) (fun s _ => c.ScopeOk s ∧ c.ItemsOk pkg s.items)
        (fun s f hq b b' h hb => ih hq.1 hq.2 h hb) ?_ h3 hb
      intro s' h4 h5 g _
      refine ⟨fun n k hk => hs n k (h4 ▸ hk), fun hc i hm => ?_⟩
      rcases h5 i hm with h | h
      · exact hi hc i h
      · exact he hc i h
    intro g rs hg
    rcases List.mem_cons.1 hg with hg | hg
    · simp only [Prod.mk.injEq] at hg
      obtain ⟨rfl, rfl⟩ := hg
      exact ⟨e, h2, fun hc => (forced_calls hc h3).2.1 (by simp), resolve_refers hn hs hi he h3⟩
    · exact hr g rs hg

theorem resolve_bodies {c : Compound} (hn : c.names.Nodup) {pkg : List Name} {k : Nat} {stack : List Name} {own : Bool} {e : Expr}
    {s : Scope} (hs : c.ScopeOk s) (hi : c.ItemsOk pkg s.items) (he : c.ItemsOk pkg e.items) {b : Bodies}
    {r : List Ref × Bodies} (h : e.resolve (c.evalBody pkg k stack) pkg own s b = .ok r) (hb : c.BodiesOk pkg b) :
    c.BodiesOk pkg r.2 := by
  refine resolve_keeps (c.BodiesOk pkg) (fun s _ => c.ScopeOk s ∧ c.ItemsOk pkg s.items)
    (fun s f hq b b' h hb => evalBody_ok hn k hq.1 hq.2 h hb) ?_ h hb
  intro s' h4 h5 g _
  refine ⟨fun n k hk => hs n k (h4 ▸ hk), fun hc i hm => ?_⟩
  rcases h5 i hm with h | h
  · exact hi hc i h
  · exact he hc i h

/-! ### Which functions have been evaluated -/

theorem get_some {b : Bodies} {f : Name} {rs : List Ref} (h : b.get f = some rs) : (f, rs) ∈ b := by
  unfold Bodies.get at h
  rw [Option.map_eq_some_iff] at h
  obtain ⟨p, hp, rfl⟩ := h
  have := List.find?_some hp
  simp only [decide_eq_true_eq] at this
  subst this
  exact List.mem_of_find?_eq_some hp

theorem get_none {b : Bodies} {f : Name} : b.get f = none ↔ f ∉ b.map Prod.fst := by
  unfold Bodies.get
  rw [Option.map_eq_none_iff, List.find?_eq_none]
  constructor
  · intro h hc
    obtain ⟨p, hp, rfl⟩ := List.mem_map.1 hc
    exact h p hp (by simp)
  · intro h p hp hc
    simp only [decide_eq_true_eq] at hc
    exact h (List.mem_map.2 ⟨p, hp, hc⟩)

theorem Compound.Calls.trans {c : Compound} {e : Expr} {f : Name} (h : c.Calls e f) {b : Expr} (hb : c.body f = some b) {g : Name}
    (hg : c.Calls b g) : c.Calls e g := by
  induction h with
  | direct h => exact .through h hb hg
  | through h1 h2 _ ih => exact .through h1 h2 (ih hb)

theorem resolve_keys_of {c : Compound} {pkg : List Name} {k : Nat} {stack : List Name}
    (ih : ∀ {s : Scope} {f : Name} {b b' : Bodies}, c.evalBody pkg k stack s f b = .ok b' →
      ∀ g, g ∈ b'.map Prod.fst ↔ g ∈ b.map Prod.fst ∨ g = f ∨ ∃ e, c.body f = some e ∧ c.Calls e g) {own : Bool} {e : Expr} {s : Scope}
    {b : Bodies} {r : List Ref × Bodies} (h : e.resolve (c.evalBody pkg k stack) pkg own s b = .ok r) :
    ∀ g, g ∈ r.2.map Prod.fst ↔ g ∈ b.map Prod.fst ∨ c.Calls e g := by
  intro g
  constructor
  · have := resolve_keeps (fun b' => ∀ g ∈ b'.map Prod.fst, g ∈ b.map Prod.fst ∨ c.Calls e g) (fun _ f => f ∈ e.calls)
      (by intro s f hf b1 b2 h1 hb g hg
          rcases (ih h1 g).1 hg with hg | rfl | ⟨e', h2, h3⟩
          · exact hb g hg
          · exact .inr (.direct hf)
          · exact .inr (.through hf h2 h3)) (fun _ _ _ f hf => hf) h (fun g hg => .inl hg)
    exact this g
  · have hmono : ∀ s f b b', c.evalBody pkg k stack s f b = .ok b' → g ∈ b.map Prod.fst → g ∈ b'.map Prod.fst :=
      fun s f b b' h hg => (ih h g).2 (.inl hg)
    rintro (hg | hg)
    · exact resolve_keeps (fun b => g ∈ b.map Prod.fst) (fun _ _ => True) (fun s f _ b b' => hmono s f b b') (fun _ _ _ _ _ => trivial) h hg
    · cases hg with
      | direct hd => exact resolve_makes (fun b => g ∈ b.map Prod.fst) hmono g (fun s b b' h => (ih h g).2 (.inr (.inl rfl))) h hd
      | through hd hb hc =>
        exact resolve_makes (fun b => g ∈ b.map Prod.fst) hmono _ (fun s b b' h => (ih h g).2 (.inr (.inr ⟨_, hb, hc⟩))) h hd

theorem evalBody_keys {c : Compound} {pkg : List Name} : ∀ (k : Nat) {stack : List Name} {s : Scope} {f : Name} {b b' : Bodies},
    c.evalBody pkg k stack s f b = .ok b' →
    ∀ g, g ∈ b'.map Prod.fst ↔ g ∈ b.map Prod.fst ∨ g = f ∨ ∃ e, c.body f = some e ∧ c.Calls e g := by
  intro k
  induction k with
  | zero => intro stack s f b b' h; cases h
  | succ k ih =>
    intro stack s f b b' h g
    obtain ⟨k', e, r, hk, h1, h2, h3, rfl⟩ := evalBody_inv h
    have hk : k' = k := by omega
    subst hk
    have := resolve_keys_of (fun h => ih h) h3 g
    simp only [List.map_cons, List.mem_cons, this]
    constructor
    · rintro (rfl | h | h)
      · exact .inr (.inl rfl)
      · exact .inl h
      · exact .inr (.inr ⟨e, h2, h⟩)
    · rintro (h | rfl | ⟨e', h4, h5⟩)
      · exact .inr (.inl h)
      · exact .inl rfl
      · rw [h2] at h4; cases h4; exact .inr (.inr h5)

theorem resolve_keys {c : Compound} {pkg : List Name} {k : Nat} {stack : List Name} {own : Bool} {e : Expr} {s : Scope}
    {b : Bodies} {r : List Ref × Bodies} (h : e.resolve (c.evalBody pkg k stack) pkg own s b = .ok r) :
    ∀ g, g ∈ r.2.map Prod.fst ↔ g ∈ b.map Prod.fst ∨ c.Calls e g :=
  resolve_keys_of (fun h => evalBody_keys k h) h

/-! ### All slots -/

theorem calls_leaf {c : Compound} {e : Expr} {g : Name} (h : c.Calls e g) (s : Scope) : ∃ l ∈ e.leaves s, c.Calls l.2 g := by
  cases h with
  | direct h => obtain ⟨s', hs⟩ := leaves_calls s h; exact ⟨_, hs, .direct (by simp [Expr.calls])⟩
  | through h hb hc => obtain ⟨s', hs⟩ := leaves_calls s h; exact ⟨_, hs, .through (by simp [Expr.calls]) hb hc⟩

theorem uses_leaf {c : Compound} {e : Expr} {n : Name} (h : c.Uses e n) (s : Scope) : ∃ l ∈ e.leaves s, c.Uses l.2 n := by
  cases h with
  | direct h => obtain ⟨s', hs⟩ := leaves_ids s h; exact ⟨_, hs, .direct (by simp [Expr.ids])⟩
  | through h hb hc => obtain ⟨s', hs⟩ := leaves_calls s h; exact ⟨_, hs, .through (by simp [Expr.calls]) hb hc⟩

theorem leaf_calls {c : Compound} {e : Expr} {g : Name} {s : Scope} {l : Scope × Expr} (hl : l ∈ e.leaves s) (h : c.Calls l.2 g) :
    c.Calls e g := by
  rcases leaf_kinds hl with ⟨n, hn, he⟩ | ⟨f, hf, he⟩ <;> rw [he] at h
  · cases h with
    | direct h => simp [Expr.calls] at h
    | through h => simp [Expr.calls] at h
  · cases h with
    | direct h => simp only [Expr.calls, List.mem_singleton] at h; exact .direct (h ▸ hf)
    | through h hb hc => simp only [Expr.calls, List.mem_singleton] at h; exact .through (h ▸ hf) hb hc

theorem own_calls {c : Compound} {pkg : List Name} {e : Expr} {g : Name} (hc : c.Calls e g) {k : Nat} {stack : List Name} {s : Scope}
    {b : Bodies} {r : List Ref × Bodies} (h : e.resolve (c.evalBody pkg k stack) pkg true s b = .ok r) :
    (∃ e', c.body g = some e' ∧ ¬ c.Calls e' g) ∧ g ∉ stack := by
  obtain ⟨l, hl, hc⟩ := calls_leaf hc s
  obtain ⟨b', r', h'⟩ := own_leaves h l hl
  have h1 := (forced_allowed h').2 g hc
  exact ⟨h1.2, (forced_calls hc h').2.1⟩

theorem evalSlot_inv {c : Compound} {pkg : List Name} {ev ev' : Evaluated} {slot : Slot} (h : c.evalSlot pkg ev slot = .ok ev') :
    (∃ f, slot.role = .body f ∧ f ∈ ev.bodies.map Prod.fst ∧ ev' = ev) ∨
    (∃ f r, slot.role = .body f ∧ f ∉ ev.bodies.map Prod.fst ∧
      slot.expr.resolve (c.evalBody pkg c.funcs.length [f]) pkg true slot.scope ev.bodies = .ok r ∧
      ev' = { ev with bodies := (f, r.1) :: r.2 }) ∨
    ((∀ f, slot.role ≠ .body f) ∧ ∃ r,
      slot.expr.resolve (c.evalBody pkg (c.funcs.length + 1) []) pkg true slot.scope ev.bodies = .ok r ∧
      ev' = ⟨ev.refs ++ [(slot.role, r.1)], r.2⟩) := by
  unfold Compound.evalSlot at h
  split at h
  · rename_i f hr
    split at h
    · rename_i rs hg
      simp only [Except.ok.injEq] at h
      refine .inl ⟨f, hr, ?_, h.symm⟩
      by_contra hc
      rw [get_none.2 hc] at hg; cases hg
    · rename_i hg
      obtain ⟨r, h1, h2⟩ := bind_ok h
      simp only [Except.ok.injEq] at h2
      exact .inr (.inl ⟨f, r, hr, get_none.1 hg, h1, h2.symm⟩)
  · rename_i hr
    obtain ⟨r, h1, h2⟩ := bind_ok h
    simp only [Except.ok.injEq] at h2
    exact .inr (.inr ⟨fun f hc => hr f hc, r, h1, h2.symm⟩)

/-- what holds after some slots have been evaluated -/
structure After (c : Compound) (pkg : List Name) (done : List Slot) (ev : Evaluated) : Prop where
  right : ∀ slot ∈ done, slot.Right c
  bodies : c.BodiesOk pkg ev.bodies
  keys : ∀ f, f ∈ ev.bodies.map Prod.fst ↔ ∃ slot ∈ done, slot.role = .body f ∨ c.Calls slot.expr f
  refs : ∀ r rs, (r, rs) ∈ ev.refs → ∃ slot ∈ done, slot.role = r ∧ (∀ f, r ≠ .body f) ∧ ∃ b b',
    slot.expr.resolve (c.evalBody pkg (c.funcs.length + 1) []) pkg true slot.scope b = .ok (rs, b')
  all : ∀ slot ∈ done, (∀ f, slot.role ≠ .body f) → ∃ rs, (slot.role, rs) ∈ ev.refs ∧ ∃ b b',
    slot.expr.resolve (c.evalBody pkg (c.funcs.length + 1) []) pkg true slot.scope b = .ok (rs, b')

theorem evalSlot_after {c : Compound} (hn : c.names.Nodup) {pkg : List Name} {done : List Slot} {slot : Slot} {ev ev' : Evaluated}
    (hr : slot.Right c) (ha : After c pkg done ev) (h : c.evalSlot pkg ev slot = .ok ev') : After c pkg (done ++ [slot]) ev' := by
  have he : c.ItemsOk pkg slot.expr.items := has_items hr.has
  have hright : ∀ s ∈ done ++ [slot], s.Right c := by
    intro s hs
    rcases List.mem_append.1 hs with hs | hs
    · exact ha.right s hs
    · rw [List.mem_singleton] at hs
      exact hs ▸ hr
  replace h := evalSlot_inv h
  rcases h with ⟨f, h1, h2, rfl⟩ | ⟨f, r, h1, h2, h3, rfl⟩ | ⟨h1, r, h2, rfl⟩
  · refine ⟨hright, ha.bodies, ?_, ?_, ?_⟩
    · intro g
      rw [ha.keys]
      simp only [List.mem_append, List.mem_singleton]
      constructor
      · rintro ⟨s, hs, h⟩; exact ⟨s, .inl hs, h⟩
      · rintro ⟨s, hs | rfl, h⟩
        · exact ⟨s, hs, h⟩
        · rcases h with h | h
          · have : f = g := by rw [h1] at h; injection h
            subst this
            exact (ha.keys _).1 h2
          · have hb := has_body hn (h1 ▸ hr.has)
            obtain ⟨s', h3, h4 | h4⟩ := (ha.keys _).1 h2
            · have hb' := has_body hn (h4 ▸ (ha.right s' h3).has)
              rw [hb'] at hb
              injection hb with hb
              exact ⟨s', h3, .inr (hb ▸ h)⟩
            · exact ⟨s', h3, .inr (h4.trans hb h)⟩
    · intro r rs hm
      obtain ⟨s, hs, h⟩ := ha.refs r rs hm
      exact ⟨s, List.mem_append_left _ hs, h⟩
    · intro s hs hb
      rcases List.mem_append.1 hs with hs | hs
      · exact ha.all s hs hb
      · rw [List.mem_singleton] at hs
        subst hs
        exact absurd h1 (hb f)
  · refine ⟨hright, ?_, ?_, ?_, ?_⟩
    · have := resolve_bodies hn hr.scopeOk hr.items_ok he h3 ha.bodies
      intro g rs hg
      rcases List.mem_cons.1 hg with hg | hg
      · simp only [Prod.mk.injEq] at hg
        obtain ⟨rfl, rfl⟩ := hg
        refine ⟨slot.expr, has_body hn (h1 ▸ hr.has), ?_, resolve_refers hn hr.scopeOk hr.items_ok he h3⟩
        intro hc
        exact (own_calls hc h3).2 (List.mem_singleton.2 rfl)
      · exact this g rs hg
    · intro g
      simp only [List.map_cons, List.mem_cons, resolve_keys h3 g, ha.keys, List.mem_append, List.not_mem_nil, or_false]
      constructor
      · rintro (rfl | ⟨s, hs, h⟩ | h)
        · exact ⟨slot, .inr rfl, .inl h1⟩
        · exact ⟨s, .inl hs, h⟩
        · exact ⟨slot, .inr rfl, .inr h⟩
      · rintro ⟨s, hs | rfl, h⟩
        · exact .inr (.inl ⟨s, hs, h⟩)
        · rcases h with h | h
          · left; rw [h1] at h; injection h with h; exact h.symm
          · exact .inr (.inr h)
    · intro r rs hm
      obtain ⟨s, hs, h⟩ := ha.refs r rs hm
      exact ⟨s, List.mem_append_left _ hs, h⟩
    · intro s hs hb
      rcases List.mem_append.1 hs with hs | hs
      · exact ha.all s hs hb
      · rw [List.mem_singleton] at hs
        subst hs
        exact absurd h1 (hb f)
  · refine ⟨hright, resolve_bodies hn hr.scopeOk hr.items_ok he h2 ha.bodies, ?_, ?_, ?_⟩
    · intro g
      simp only [resolve_keys h2 g, ha.keys, List.mem_append, List.mem_singleton]
      constructor
      · rintro (⟨s, hs, h⟩ | h)
        · exact ⟨s, .inl hs, h⟩
        · exact ⟨slot, .inr rfl, .inr h⟩
      · rintro ⟨s, hs | rfl, h⟩
        · exact .inl ⟨s, hs, h⟩
        · rcases h with h | h
          · exact absurd h (h1 g)
          · exact .inr h
    · intro r' rs hm
      rcases List.mem_append.1 hm with hm | hm
      · obtain ⟨s, hs, h⟩ := ha.refs r' rs hm
        exact ⟨s, List.mem_append_left _ hs, h⟩
      · rw [List.mem_singleton] at hm
        cases hm
        exact ⟨slot, by simp, rfl, h1, _, _, h2⟩
    · intro s hs hb
      rcases List.mem_append.1 hs with hs | hs
      · obtain ⟨rs, h3, h4⟩ := ha.all s hs hb
        exact ⟨rs, List.mem_append_left _ h3, h4⟩
      · rw [List.mem_singleton] at hs
        subst hs
        exact ⟨r.1, by simp, _, _, h2⟩

theorem evalSlots_after {c : Compound} (hn : c.names.Nodup) {pkg : List Name} : ∀ {slots done : List Slot} {ev ev' : Evaluated},
    (∀ slot ∈ slots, slot.Right c) → After c pkg done ev → c.evalSlots pkg ev slots = .ok ev' → After c pkg (done ++ slots) ev' := by
  intro slots
  induction slots with
  | nil =>
    intro done ev ev' _ ha h
    simp only [Compound.evalSlots, Except.ok.injEq] at h
    subst h
    simpa using ha
  | cons slot slots ih =>
    intro done ev ev' hr ha h
    obtain ⟨ev1, h1, h2⟩ := bind_ok h
    have := ih (fun s hs => hr s (List.mem_cons_of_mem _ hs)) (evalSlot_after hn (hr slot (by simp)) ha h1) h2
    simpa using this

theorem after_nil (c : Compound) (pkg : List Name) : After c pkg [] ⟨[], []⟩ :=
  { right := fun _ h => absurd h (by simp)
    bodies := fun _ _ h => absurd h (by simp)
    keys := fun _ => by simp
    refs := fun _ _ h => absurd h (by simp)
    all := fun _ h => absurd h (by simp) }

theorem evaluate_after {c : Compound} {pkg : List Name} {ev : Evaluated} (h : c.evaluate pkg = .ok ev) :
    c.names.Nodup ∧ After c pkg c.allSlots ev := by
  obtain ⟨slots, h1, h2⟩ := bind_ok h
  obtain ⟨hn, rfl⟩ := slots_ok.1 h1
  refine ⟨hn, ?_⟩
  simpa using evalSlots_after hn (fun slot hs => allSlots_right hn hs) (after_nil c pkg) h2

theorem reads_uses {c : Compound} {pkg : List Name} {b : Bodies} (hb : c.BodiesOk pkg b) {rs : List Ref} {n : Name} (h : Reads b rs n) :
    ∀ {e : Expr}, c.Refers pkg e rs → c.Uses e n ∧ n ∈ c.members.names := by
  induction h with
  | direct h => intro e hr; exact ⟨.direct (hr.fields _ h).1, (hr.fields _ h).2⟩
  | through hc hg _ ih =>
    intro e hr
    obtain ⟨e', h1, -, h3⟩ := hb _ _ (get_some hg)
    exact ⟨.through ((hr.calls _).1 hc) h1 (ih h3).1, (ih h3).2⟩

theorem leaf_uses {c : Compound} {e : Expr} {g : Name} {s : Scope} {l : Scope × Expr} (hl : l ∈ e.leaves s) (h : c.Uses l.2 g) :
    c.Uses e g := by
  rcases leaf_kinds hl with ⟨n, hn, he⟩ | ⟨f, hf, he⟩ <;> rw [he] at h
  · cases h with
    | direct h => simp only [Expr.ids, List.mem_singleton] at h; exact .direct (h ▸ hn)
    | through h => simp [Expr.calls] at h
  · cases h with
    | direct h => simp [Expr.ids] at h
    | through h hb hc => simp only [Expr.calls, List.mem_singleton] at h; exact .through (h ▸ hf) hb hc

theorem calls_func {c : Compound} (hc : ∀ r e f, c.Has r e → f ∈ e.calls → f ∈ c.funcs.map Prod.fst) {e : Expr} {f : Name}
    (h : c.Calls e f) : ∀ {r : Role}, c.Has r e → f ∈ c.funcs.map Prod.fst := by
  induction h with
  | direct h => intro r hr; exact hc _ _ _ hr h
  | through _ hb _ ih => intro r hr; exact ih (body_has hb)

theorem evalSlots_split {c : Compound} {pkg : List Name} : ∀ {pre : List Slot} {slot : Slot} {post : List Slot} {ev ev' : Evaluated},
    c.evalSlots pkg ev (pre ++ slot :: post) = .ok ev' →
    ∃ ev1, c.evalSlots pkg ev pre = .ok ev1 ∧ ∃ ev2, c.evalSlot pkg ev1 slot = .ok ev2 := by
  intro pre
  induction pre with
  | nil => intro slot post ev ev' h; obtain ⟨ev1, h1, h2⟩ := bind_ok h; exact ⟨ev, rfl, ev1, h1⟩
  | cons s pre ih =>
    intro slot post ev ev' h
    obtain ⟨ev1, h1, h2⟩ := bind_ok h
    obtain ⟨ev2, h3, h4⟩ := ih h2
    exact ⟨ev2, by simp only [Compound.evalSlots, h1]; exact h3, h4⟩

/-- one slot is accepted if everything which is evaluated is allowed -/
theorem evalSlot_ok {c : Compound} (hn : c.names.Nodup) {pkg : List Name} {done : List Slot} {slot : Slot} {ev : Evaluated}
    (hr : slot.Right c) (ha : After c pkg done ev)
    (hl : (∀ f, slot.role = .body f → ∀ slot' ∈ done, slot'.role ≠ .body f ∧ ¬ c.Calls slot'.expr f) →
      (∀ f, slot.role = .body f → ¬ c.Calls slot.expr f) ∧ ∀ l ∈ slot.expr.leaves slot.scope, c.Allowed pkg l.1 l.2) :
    ∃ ev', c.evalSlot pkg ev slot = .ok ev' := by
  unfold Compound.evalSlot
  split
  · rename_i f hf
    rcases hg : ev.bodies.get f with _ | rs
    · rw [get_none, ha.keys] at hg
      obtain ⟨h1, h2⟩ := hl (by
        intro f' hf' slot' hs
        have : f = f' := by rw [hf] at hf'; injection hf'
        subst this
        exact ⟨fun hc => hg ⟨slot', hs, .inl hc⟩, fun hc => hg ⟨slot', hs, .inr hc⟩⟩)
      have hfm : f ∈ c.funcs.map Prod.fst := by
        have := hr.has
        rw [hf] at this
        cases this with
        | body h => exact List.mem_map.2 ⟨_, h, rfl⟩
      obtain ⟨r, hok⟩ := own_ok (call := c.evalBody pkg c.funcs.length [f]) (pkg := pkg) ev.bodies (fun l hm b =>
        allowed_forced (c := c) (pkg := pkg) c.funcs.length (stack := [f]) b (h2 l hm)
          (fun g hg hc => by rw [List.mem_singleton] at hc; exact h1 f hf (hc ▸ leaf_calls hm hg)) (by simp)
          (fun g hg => by rw [List.mem_singleton] at hg; exact hg ▸ hfm) (by simp))
      rw [hok]
      exact ⟨_, rfl⟩
    · exact ⟨_, rfl⟩
  · rename_i hf
    obtain ⟨-, h2⟩ := hl (fun f hc => absurd hc (hf f))
    obtain ⟨r, hok⟩ := own_ok (call := c.evalBody pkg (c.funcs.length + 1) []) (pkg := pkg) ev.bodies (fun l hm b =>
      allowed_forced (c := c) (pkg := pkg) (c.funcs.length + 1) (stack := []) b (h2 l hm)
        (fun g hg hc => by cases hc) (by simp) (fun g hg => by cases hg) (by simp))
    rw [hok]
    exact ⟨_, rfl⟩

/-- what is evaluated of an accepted slot is allowed -/
theorem ok_evalSlot {c : Compound} {pkg : List Name} {done : List Slot} {slot : Slot} {ev ev' : Evaluated}
    (ha : After c pkg done ev) (h : c.evalSlot pkg ev slot = .ok ev')
    (hl : ∀ f, slot.role = .body f → ∀ slot' ∈ done, slot'.role ≠ .body f ∧ ¬ c.Calls slot'.expr f) :
    ∀ l ∈ slot.expr.leaves slot.scope, c.Allowed pkg l.1 l.2 := by
  intro l hm
  rcases evalSlot_inv h with ⟨f, h1, h2, rfl⟩ | ⟨f, r, h1, h2, h3, rfl⟩ | ⟨h1, r, h2, rfl⟩
  · obtain ⟨s', hs, hc⟩ := (ha.keys f).1 h2
    exact absurd hc (not_or.2 (hl f h1 s' hs))
  · obtain ⟨b, r', h⟩ := own_leaves h3 l hm; exact forced_allowed h
  · obtain ⟨b, r', h⟩ := own_leaves h2 l hm; exact forced_allowed h

theorem evalSlots_ok {c : Compound} (hn : c.names.Nodup) {pkg : List Name} (hright : ∀ s ∈ c.allSlots, s.Right c)
    (hstep : ∀ pre slot post, c.allSlots = pre ++ slot :: post →
      (∀ f, slot.role = .body f → ∀ slot' ∈ pre, slot'.role ≠ .body f ∧ ¬ c.Calls slot'.expr f) →
      (∀ f, slot.role = .body f → ¬ c.Calls slot.expr f) ∧ ∀ l ∈ slot.expr.leaves slot.scope, c.Allowed pkg l.1 l.2) :
    ∀ {post pre : List Slot} {ev : Evaluated}, c.allSlots = pre ++ post → After c pkg pre ev → ∃ ev', c.evalSlots pkg ev post = .ok ev' := by
  intro post
  induction post with
  | nil => intro pre ev _ _; exact ⟨ev, rfl⟩
  | cons slot post ih =>
    intro pre ev hp ha
    have hr := hright slot (by rw [hp]; simp)
    obtain ⟨ev1, h1⟩ := evalSlot_ok hn hr ha (hstep pre slot post hp)
    obtain ⟨ev2, h2⟩ := ih (pre := pre ++ [slot]) (by rw [hp]; simp) (evalSlot_after hn hr ha h1)
    exact ⟨ev2, by simp only [Compound.evalSlots, h1]; exact h2⟩

end Zserio.Scopes
