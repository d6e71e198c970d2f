import Verif.Lemmas.Scopes
import Mathlib.Data.List.Perm.Subperm
set_option linter.unusedSimpArgs false
/-
Lemmas for C89: what the evaluation of expressions does.
-/
namespace Zserio.Scopes

theorem bind_ok {α β : Type} {x : Except Problem α} {f : α → Except Problem β} {b : β} (h : (x >>= f) = .ok b) :
    ∃ a, x = .ok a ∧ f a = .ok b := by
  cases x with
  | error e => cases h
  | ok a => exact ⟨a, rfl, h⟩

theorem find_key {s : Scope} {n : Name} {k : Kind} {m : Name} (h : s.find n = some (.sym k m)) : m = n ∧ (n, k) ∈ s.symbols := by
  unfold Scope.find at h
  split at h
  · rename_i p hp
    simp only [Option.some.injEq, Ref.sym.injEq] at h
    have h1 := List.find?_some hp
    simp only [decide_eq_true_eq] at h1
    refine ⟨h.2.symm, ?_⟩
    have := List.mem_of_find?_eq_some hp
    rw [← h1, ← h.1]
    exact this
  · split at h <;> simp at h

theorem find_item {s : Scope} {n m : Name} (h : s.find n = some (.item m)) : m = n ∧ n ∈ s.items ∧ n ∉ s.keys := by
  unfold Scope.find at h
  split at h
  · simp at h
  · rename_i hf
    split at h
    · rename_i hi
      simp only [Option.some.injEq, Ref.item.injEq] at h
      refine ⟨h.symm, hi, ?_⟩
      rw [List.find?_eq_none] at hf
      intro hk
      obtain ⟨p, hp, hpn⟩ := List.mem_map.1 hk
      exact hf p hp (by simpa using hpn)
    · cases h

theorem find_none {s : Scope} {n : Name} (h : s.find n = none) : n ∉ s.keys ∧ n ∉ s.items := by
  unfold Scope.find at h
  split at h
  · cases h
  · rename_i hf
    split at h
    · cases h
    · rename_i hi
      refine ⟨?_, hi⟩
      rw [List.find?_eq_none] at hf
      intro hk
      obtain ⟨p, hp, hpn⟩ := List.mem_map.1 hk
      exact hf p hp (by simpa using hpn)

theorem find_kinds {s : Scope} {n : Name} {r : Ref} (h : s.find n = some r) : (∃ k, r = .sym k n) ∨ r = .item n := by
  unfold Scope.find at h
  split at h
  · simp only [Option.some.injEq] at h; exact .inl ⟨_, h.symm⟩
  · split at h
    · simp only [Option.some.injEq] at h; exact .inr h.symm
    · cases h

theorem find_nodup {s : Scope} (hn : s.keys.Nodup) {n : Name} {k : Kind} (h : (n, k) ∈ s.symbols) : s.find n = some (.sym k n) := by
  rcases hf : s.find n with _ | r
  · exact absurd (List.mem_map.2 ⟨_, h, rfl⟩) (find_none hf).1
  · rcases find_kinds hf with ⟨k', rfl⟩ | rfl
    · have h1 := (find_key hf).2
      have := List.inj_on_of_nodup_map hn h1 h rfl
      simp only [Prod.mk.injEq, true_and] at this
      rw [this]
    · exact absurd (List.mem_map.2 ⟨_, h, rfl⟩) (find_item hf).2.2

theorem find_addItems {s : Scope} {items : List Name} {n : Name} {k : Kind} (h : s.find n = some (.sym k n)) :
    (s.addItems items).find n = some (.sym k n) := by
  unfold Scope.find at h ⊢
  simp only [Scope.addItems]
  split at h
  · exact h
  · split at h <;> simp at h

/-! ### Expressions -/

/-- what a successful evaluation of an expression shows about its references -/
structure Shows (s : Scope) (e : Expr) (rs : List Ref) : Prop where
  fields : ∀ n, .sym .field n ∈ rs → n ∈ e.ids ∧ (n, .field) ∈ s.symbols
  calls : ∀ f, .call f ∈ rs ↔ f ∈ e.calls

theorem Shows.append {s : Scope} {e x y : Expr} {s' : Scope} {r1 r2 : List Ref} (hs : s'.symbols = s.symbols)
    (hi : e.ids = x.ids ++ y.ids) (hc : e.calls = x.calls ++ y.calls) (s1 : Shows s x r1) (s2 : Shows s' y r2) :
    Shows s e (r1 ++ r2) := by
  refine ⟨?_, ?_⟩
  · intro n hn
    rw [hi]
    simp only [List.mem_append] at hn ⊢
    rcases hn with hn | hn
    · exact ⟨.inl (s1.fields n hn).1, (s1.fields n hn).2⟩
    · exact ⟨.inr (s2.fields n hn).1, hs ▸ (s2.fields n hn).2⟩
  · intro f
    rw [hc]
    simp only [List.mem_append, s1.calls, s2.calls]

theorem isset_symbols (own : Bool) (s : Scope) (items : List Name) : (if own = true then s.addItems items else s).symbols = s.symbols := by
  split <;> rfl

theorem isset_items (own : Bool) (s : Scope) (items : List Name) :
    ∀ i ∈ (if own = true then s.addItems items else s).items, i ∈ s.items ∨ i ∈ items := by
  intro i hi
  split at hi
  · simpa [Scope.addItems] using hi
  · exact .inl hi

theorem resolve_shows {call : Scope → Name → Bodies → Except Problem Bodies} {pkg : List Name} {own : Bool} :
    ∀ {e : Expr} {s : Scope} {b : Bodies} {r : List Ref × Bodies}, e.resolve call pkg own s b = .ok r → Shows s e r.1
  | .lit, s, b, r, h => by
    simp only [Expr.resolve, Except.ok.injEq] at h
    subst h
    exact ⟨by simp, by simp [Expr.calls]⟩
  | .id n, s, b, r, h => by
    simp only [Expr.resolve] at h
    split at h
    · rename_i r' hf
      simp only [Except.ok.injEq] at h
      subst h
      refine ⟨?_, ?_⟩
      · intro m hm
        simp only [List.mem_singleton] at hm
        subst hm
        obtain ⟨rfl, h2⟩ := find_key hf
        exact ⟨by simp [Expr.ids], h2⟩
      · intro f
        simp only [List.mem_singleton, Expr.calls, List.not_mem_nil, iff_false]
        rintro rfl
        rcases find_kinds hf with ⟨k, h⟩ | h <;> cases h
    · split at h
      · simp only [Except.ok.injEq] at h
        subst h
        exact ⟨by simp, by simp [Expr.calls]⟩
      · cases h
  | .call n, s, b, r, h => by
    simp only [Expr.resolve] at h
    split at h
    · rename_i f hf
      obtain ⟨b', h1, h2⟩ := bind_ok h
      simp only [Except.ok.injEq] at h2
      subst h2
      obtain ⟨rfl, hk⟩ := find_key hf
      exact ⟨by simp, by simp [Expr.calls]⟩
    · cases h
    · split at h <;> cases h
  | .op x y, s, b, r, h => by
    simp only [Expr.resolve] at h
    obtain ⟨r1, h1, h⟩ := bind_ok h
    obtain ⟨r2, h2, h⟩ := bind_ok h
    simp only [Except.ok.injEq] at h
    subst h
    exact .append rfl rfl rfl (resolve_shows h1) (resolve_shows h2)
  | .isset x items y, s, b, r, h => by
    simp only [Expr.resolve] at h
    obtain ⟨r1, h1, h⟩ := bind_ok h
    obtain ⟨r2, h2, h⟩ := bind_ok h
    simp only [Except.ok.injEq] at h
    subst h
    exact .append (isset_symbols own s items) rfl rfl (resolve_shows h1) (resolve_shows h2)

/-- names which nothing else has are found -/
theorem resolve_found {call : Scope → Name → Bodies → Except Problem Bodies} {pkg : List Name} {own : Bool} {N : Name → Prop}
    (hp : ∀ n ∈ pkg, ¬ N n) :
    ∀ {e : Expr} {s : Scope} {b : Bodies} {r : List Ref × Bodies}, (∀ n k, (n, k) ∈ s.symbols → N n → k = .field) →
      (∀ i ∈ s.items, ¬ N i) → (∀ i ∈ e.items, ¬ N i) → e.resolve call pkg own s b = .ok r →
      ∀ n ∈ e.ids, N n → .sym .field n ∈ r.1
  | .lit, s, b, r, hs, hi, he, h, n, hm, hn => by simp [Expr.ids] at hm
  | .id m, s, b, r, hs, hi, he, h, n, hm, hn => by
    simp only [Expr.ids, List.mem_singleton] at hm
    subst hm
    simp only [Expr.resolve] at h
    split at h
    · rename_i r' hf
      simp only [Except.ok.injEq] at h
      subst h
      rcases find_kinds hf with ⟨k, rfl⟩ | rfl
      · rw [hs _ _ (find_key hf).2 hn]; simp
      · exact absurd hn (hi _ (find_item hf).2.1)
    · split at h
      · rename_i hpk; exact absurd hn (hp _ hpk)
      · cases h
  | .call m, s, b, r, hs, hi, he, h, n, hm, hn => by simp [Expr.ids] at hm
  | .op x y, s, b, r, hs, hi, he, h, n, hm, hn => by
    simp only [Expr.resolve] at h
    obtain ⟨r1, h1, h⟩ := bind_ok h
    obtain ⟨r2, h2, h⟩ := bind_ok h
    simp only [Except.ok.injEq] at h
    subst h
    simp only [Expr.ids, Expr.items, List.mem_append] at hm he ⊢
    rcases hm with hm | hm
    · exact .inl (resolve_found hp hs hi (fun i hi => he i (.inl hi)) h1 n hm hn)
    · exact .inr (resolve_found hp hs hi (fun i hi => he i (.inr hi)) h2 n hm hn)
  | .isset x items y, s, b, r, hs, hi, he, h, n, hm, hn => by
    simp only [Expr.resolve] at h
    obtain ⟨r1, h1, h⟩ := bind_ok h
    obtain ⟨r2, h2, h⟩ := bind_ok h
    simp only [Except.ok.injEq] at h
    subst h
    simp only [Expr.ids, Expr.items, List.mem_append] at hm he ⊢
    rcases hm with hm | hm
    · exact .inl (resolve_found hp hs hi (fun i hi => he i (.inl hi)) h1 n hm hn)
    · refine .inr (resolve_found hp (by rw [isset_symbols]; exact hs) (fun i hm => ?_) (fun i hi => he i (.inr (.inr hi))) h2 n hm hn)
      rcases isset_items own s items i hm with h | h
      · exact hi i h
      · exact he i (.inr (.inl h))

/-- what holds of the results of functions is not changed by an expression, if it is not changed by its calls -/
theorem resolve_keeps {call : Scope → Name → Bodies → Except Problem Bodies} {pkg : List Name} {own : Bool} (P : Bodies → Prop)
    (Q : Scope → Name → Prop) (hp : ∀ s f, Q s f → ∀ b b', call s f b = .ok b' → P b → P b') :
    ∀ {e : Expr} {s : Scope} {b : Bodies} {r : List Ref × Bodies},
      (∀ s', s'.symbols = s.symbols → (∀ i ∈ s'.items, i ∈ s.items ∨ i ∈ e.items) → ∀ f ∈ e.calls, Q s' f) →
      e.resolve call pkg own s b = .ok r → P b → P r.2
  | .lit, s, b, r, _, h, hb => by
    simp only [Expr.resolve, Except.ok.injEq] at h
    subst h; exact hb
  | .id n, s, b, r, _, h, hb => by
    simp only [Expr.resolve] at h
    split at h
    · simp only [Except.ok.injEq] at h
      subst h; exact hb
    · split at h
      · simp only [Except.ok.injEq] at h
        subst h; exact hb
      · cases h
  | .call n, s, b, r, hq, h, hb => by
    simp only [Expr.resolve] at h
    split at h
    · rename_i f hf
      obtain ⟨rfl, -⟩ := find_key hf
      obtain ⟨b', h1, h2⟩ := bind_ok h
      simp only [Except.ok.injEq] at h2
      subst h2; exact hp _ _ (hq s rfl (fun i hi => .inl hi) _ (by simp [Expr.calls])) _ _ h1 hb
    · cases h
    · split at h <;> cases h
  | .op x y, s, b, r, hq, h, hb => by
    simp only [Expr.resolve] at h
    obtain ⟨r1, h1, h⟩ := bind_ok h
    obtain ⟨r2, h2, h⟩ := bind_ok h
    simp only [Except.ok.injEq] at h
    subst h
    have q1 := resolve_keeps P Q hp (fun s' hs hi f hf => hq s' hs (fun i hm => (hi i hm).imp id (fun h => by simp [Expr.items, h])) f
      (by simp [Expr.calls, hf])) h1 hb
    have q2 : P r2.2 := resolve_keeps (e := y) P Q hp (fun s' hs hi f hf => hq s' hs
      (fun i hm => (hi i hm).imp id (fun h => by simp [Expr.items, h])) f (by simp [Expr.calls, hf])) h2 q1
    exact q2
  | .isset x items y, s, b, r, hq, h, hb => by
    simp only [Expr.resolve] at h
    obtain ⟨r1, h1, h⟩ := bind_ok h
    obtain ⟨r2, h2, h⟩ := bind_ok h
    simp only [Except.ok.injEq] at h
    subst h
    have q1 := resolve_keeps P Q hp (fun s' hs hi f hf => hq s' hs (fun i hm => (hi i hm).imp id (fun h => by simp [Expr.items, h])) f
      (by simp [Expr.calls, hf])) h1 hb
    show P r2.2
    refine resolve_keeps (e := y) P Q hp (fun s' hs hi f hf => hq s' (hs.trans (isset_symbols own s items)) (fun i hm => ?_) f
      (by simp [Expr.calls, hf])) h2 q1
    simp only [Expr.items, List.mem_append]
    rcases hi i hm with h | h
    · rcases isset_items own s items i h with h | h
      · exact .inl h
      · exact .inr (.inr (.inl h))
    · exact .inr (.inr (.inr h))

/-- what a call of `g` establishes holds after an expression which calls `g` -/
theorem resolve_makes {call : Scope → Name → Bodies → Except Problem Bodies} {pkg : List Name} {own : Bool} (P : Bodies → Prop)
    (hp : ∀ s f b b', call s f b = .ok b' → P b → P b') (g : Name) (hg : ∀ s b b', call s g b = .ok b' → P b') :
    ∀ {e : Expr} {s : Scope} {b : Bodies} {r : List Ref × Bodies}, e.resolve call pkg own s b = .ok r → g ∈ e.calls → P r.2
  | .lit, s, b, r, h, hc => by simp [Expr.calls] at hc
  | .id n, s, b, r, h, hc => by simp [Expr.calls] at hc
  | .call n, s, b, r, h, hc => by
    simp only [Expr.calls, List.mem_singleton] at hc
    subst hc
    simp only [Expr.resolve] at h
    split at h
    · rename_i f hf
      obtain ⟨rfl, -⟩ := find_key hf
      obtain ⟨b', h1, h2⟩ := bind_ok h
      simp only [Except.ok.injEq] at h2
      subst h2; exact hg _ _ _ h1
    · cases h
    · split at h <;> cases h
  | .op x y, s, b, r, h, hc => by
    simp only [Expr.resolve] at h
    obtain ⟨r1, h1, h⟩ := bind_ok h
    obtain ⟨r2, h2, h⟩ := bind_ok h
    simp only [Except.ok.injEq] at h
    subst h
    rcases List.mem_append.1 hc with hc | hc
    · have := resolve_makes P hp g hg h1 hc
      show P r2.2
      exact resolve_keeps (e := y) P (fun _ _ => True) (fun s f _ b b' => hp s f b b') (fun _ _ _ _ _ => trivial) h2 this
    · exact (resolve_makes P hp g hg h2 hc : P r2.2)
  | .isset x items y, s, b, r, h, hc => by
    simp only [Expr.resolve] at h
    obtain ⟨r1, h1, h⟩ := bind_ok h
    obtain ⟨r2, h2, h⟩ := bind_ok h
    simp only [Except.ok.injEq] at h
    subst h
    rcases List.mem_append.1 hc with hc | hc
    · have := resolve_makes P hp g hg h1 hc
      show P r2.2
      exact resolve_keeps (e := y) P (fun _ _ => True) (fun s f _ b b' => hp s f b b') (fun _ _ _ _ _ => trivial) h2 this
    · exact (resolve_makes P hp g hg h2 hc : P r2.2)

/-! ### In its own scope and in the scope of a call -/

/-- an expression in its own scope is evaluated successfully, if its identifiers and calls are -/
theorem own_ok {call : Scope → Name → Bodies → Except Problem Bodies} {pkg : List Name} :
    ∀ {e : Expr} {s : Scope} (b : Bodies), (∀ l ∈ e.leaves s, ∀ b, ∃ r, l.2.resolve call pkg false l.1 b = .ok r) →
      ∃ r, e.resolve call pkg true s b = .ok r
  | .lit, s, b, _ => ⟨_, rfl⟩
  | .id n, s, b, h => by
    obtain ⟨r, hr⟩ := h (s, .id n) (by simp [Expr.leaves]) b
    exact ⟨r, by simpa only [Expr.resolve] using hr⟩
  | .call n, s, b, h => by
    obtain ⟨r, hr⟩ := h (s, .call n) (by simp [Expr.leaves]) b
    exact ⟨r, by simpa only [Expr.resolve] using hr⟩
  | .op x y, s, b, h => by
    simp only [Expr.leaves, List.mem_append] at h
    obtain ⟨r1, h1⟩ := own_ok (e := x) (s := s) b (fun l hl => h l (.inl hl))
    obtain ⟨r2, h2⟩ := own_ok (e := y) (s := s) r1.2 (fun l hl => h l (.inr hl))
    exact ⟨(r1.1 ++ r2.1, r2.2), by simp only [Expr.resolve, h1, h2, bind, Except.bind]⟩
  | .isset x items y, s, b, h => by
    simp only [Expr.leaves, List.mem_append] at h
    obtain ⟨r1, h1⟩ := own_ok (e := x) (s := s) b (fun l hl => h l (.inl hl))
    obtain ⟨r2, h2⟩ := own_ok (e := y) (s := s.addItems items) r1.2 (fun l hl => h l (.inr hl))
    exact ⟨(r1.1 ++ r2.1, r2.2), by simp only [Expr.resolve, h1, h2, bind, Except.bind, if_true]⟩

/-- … and only then -/
theorem own_leaves {call : Scope → Name → Bodies → Except Problem Bodies} {pkg : List Name} :
    ∀ {e : Expr} {s : Scope} {b : Bodies} {r : List Ref × Bodies}, e.resolve call pkg true s b = .ok r →
      ∀ l ∈ e.leaves s, ∃ b r, l.2.resolve call pkg false l.1 b = .ok r
  | .lit, s, b, r, _, l, hl => by simp [Expr.leaves] at hl
  | .id n, s, b, r, h, l, hl => by
    simp only [Expr.leaves, List.mem_singleton] at hl
    subst hl
    exact ⟨b, r, by simpa only [Expr.resolve] using h⟩
  | .call n, s, b, r, h, l, hl => by
    simp only [Expr.leaves, List.mem_singleton] at hl
    subst hl
    exact ⟨b, r, by simpa only [Expr.resolve] using h⟩
  | .op x y, s, b, r, h, l, hl => by
    simp only [Expr.resolve] at h
    obtain ⟨r1, h1, h⟩ := bind_ok h
    obtain ⟨r2, h2, h⟩ := bind_ok h
    simp only [Expr.leaves, List.mem_append] at hl
    rcases hl with hl | hl
    · exact own_leaves h1 l hl
    · exact own_leaves h2 l hl
  | .isset x items y, s, b, r, h, l, hl => by
    simp only [Expr.resolve] at h
    obtain ⟨r1, h1, h⟩ := bind_ok h
    obtain ⟨r2, h2, h⟩ := bind_ok h
    simp only [Expr.leaves, List.mem_append] at hl
    rcases hl with hl | hl
    · exact own_leaves h1 l hl
    · exact own_leaves h2 l hl

/-- the scopes of identifiers and calls -/
theorem leaves_scope : ∀ {e : Expr} {s : Scope} {l : Scope × Expr}, l ∈ e.leaves s →
    l.1.symbols = s.symbols ∧ ∀ i ∈ l.1.items, i ∈ s.items ∨ i ∈ e.items
  | .lit, s, l, h => by simp [Expr.leaves] at h
  | .id n, s, l, h => by
    simp only [Expr.leaves, List.mem_singleton] at h
    subst h; exact ⟨rfl, fun i hi => .inl hi⟩
  | .call n, s, l, h => by
    simp only [Expr.leaves, List.mem_singleton] at h
    subst h; exact ⟨rfl, fun i hi => .inl hi⟩
  | .op x y, s, l, h => by
    simp only [Expr.leaves, List.mem_append] at h
    rcases h with h | h
    · have := leaves_scope h
      exact ⟨this.1, fun i hi => (this.2 i hi).imp id (fun h => by simp [Expr.items, h])⟩
    · have := leaves_scope h
      exact ⟨this.1, fun i hi => (this.2 i hi).imp id (fun h => by simp [Expr.items, h])⟩
  | .isset x items y, s, l, h => by
    simp only [Expr.leaves, List.mem_append] at h
    rcases h with h | h
    · have := leaves_scope h
      exact ⟨this.1, fun i hi => (this.2 i hi).imp id (fun h => by simp [Expr.items, h])⟩
    · have := leaves_scope h
      refine ⟨this.1, fun i hi => ?_⟩
      simp only [Expr.items, List.mem_append]
      rcases this.2 i hi with h | h
      · simp only [Scope.addItems, List.mem_append] at h
        tauto
      · tauto

theorem leaves_ids : ∀ {e : Expr} (s : Scope) {n : Name}, n ∈ e.ids → ∃ s', (s', Expr.id n) ∈ e.leaves s
  | .lit, s, n, h => by simp [Expr.ids] at h
  | .id m, s, n, h => by
    simp only [Expr.ids, List.mem_singleton] at h
    subst h; exact ⟨s, by simp [Expr.leaves]⟩
  | .call m, s, n, h => by simp [Expr.ids] at h
  | .op x y, s, n, h => by
    simp only [Expr.ids, List.mem_append] at h
    simp only [Expr.leaves, List.mem_append]
    rcases h with h | h
    · obtain ⟨s', h⟩ := leaves_ids s h; exact ⟨s', .inl h⟩
    · obtain ⟨s', h⟩ := leaves_ids s h; exact ⟨s', .inr h⟩
  | .isset x items y, s, n, h => by
    simp only [Expr.ids, List.mem_append] at h
    simp only [Expr.leaves, List.mem_append]
    rcases h with h | h
    · obtain ⟨s', h⟩ := leaves_ids s h; exact ⟨s', .inl h⟩
    · obtain ⟨s', h⟩ := leaves_ids (s.addItems items) h; exact ⟨s', .inr h⟩

theorem leaves_calls : ∀ {e : Expr} (s : Scope) {n : Name}, n ∈ e.calls → ∃ s', (s', Expr.call n) ∈ e.leaves s
  | .lit, s, n, h => by simp [Expr.calls] at h
  | .id m, s, n, h => by simp [Expr.calls] at h
  | .call m, s, n, h => by
    simp only [Expr.calls, List.mem_singleton] at h
    subst h; exact ⟨s, by simp [Expr.leaves]⟩
  | .op x y, s, n, h => by
    simp only [Expr.calls, List.mem_append] at h
    simp only [Expr.leaves, List.mem_append]
    rcases h with h | h
    · obtain ⟨s', h⟩ := leaves_calls s h; exact ⟨s', .inl h⟩
    · obtain ⟨s', h⟩ := leaves_calls s h; exact ⟨s', .inr h⟩
  | .isset x items y, s, n, h => by
    simp only [Expr.calls, List.mem_append] at h
    simp only [Expr.leaves, List.mem_append]
    rcases h with h | h
    · obtain ⟨s', h⟩ := leaves_calls s h; exact ⟨s', .inl h⟩
    · obtain ⟨s', h⟩ := leaves_calls (s.addItems items) h; exact ⟨s', .inr h⟩

theorem leaf_kinds : ∀ {e : Expr} {s : Scope} {l : Scope × Expr}, l ∈ e.leaves s →
    (∃ n ∈ e.ids, l.2 = .id n) ∨ (∃ f ∈ e.calls, l.2 = .call f)
  | .lit, s, l, h => by simp [Expr.leaves] at h
  | .id n, s, l, h => by
    simp only [Expr.leaves, List.mem_singleton] at h
    subst h; exact .inl ⟨n, by simp [Expr.ids], rfl⟩
  | .call n, s, l, h => by
    simp only [Expr.leaves, List.mem_singleton] at h
    subst h; exact .inr ⟨n, by simp [Expr.calls], rfl⟩
  | .op x y, s, l, h => by
    simp only [Expr.leaves, Expr.ids, Expr.calls, List.mem_append] at h ⊢
    rcases h with h | h <;> rcases leaf_kinds h with ⟨n, hn, he⟩ | ⟨n, hn, he⟩
    · exact .inl ⟨n, .inl hn, he⟩
    · exact .inr ⟨n, .inl hn, he⟩
    · exact .inl ⟨n, .inr hn, he⟩
    · exact .inr ⟨n, .inr hn, he⟩
  | .isset x items y, s, l, h => by
    simp only [Expr.leaves, Expr.ids, Expr.calls, List.mem_append] at h ⊢
    rcases h with h | h <;> rcases leaf_kinds h with ⟨n, hn, he⟩ | ⟨n, hn, he⟩
    · exact .inl ⟨n, .inl hn, he⟩
    · exact .inr ⟨n, .inl hn, he⟩
    · exact .inl ⟨n, .inr hn, he⟩
    · exact .inr ⟨n, .inr hn, he⟩

/-- an expression in the scope of a call is evaluated successfully, if its names are known and its calls are -/
theorem forced_ok {call : Scope → Name → Bodies → Except Problem Bodies} {pkg : List Name} :
    ∀ {e : Expr} {s : Scope} (b : Bodies), (∀ n ∈ e.ids, Known pkg s n) →
      (∀ f ∈ e.calls, s.find f = some (.sym .func f) ∧ ∀ b, ∃ b', call s f b = .ok b') →
      ∃ r, e.resolve call pkg false s b = .ok r
  | .lit, s, b, _, _ => ⟨_, rfl⟩
  | .id n, s, b, h, _ => by
    have := h n (by simp [Expr.ids])
    simp only [Expr.resolve]
    rcases hf : s.find n with _ | r
    · rcases this with h | h
      · exact absurd hf h
      · exact ⟨_, by simp only [h, if_true]; rfl⟩
    · exact ⟨_, rfl⟩
  | .call n, s, b, _, h => by
    obtain ⟨h1, h2⟩ := h n (by simp [Expr.calls])
    obtain ⟨b', h3⟩ := h2 b
    exact ⟨([.call n], b'), by simp only [Expr.resolve, h1, h3, bind, Except.bind]⟩
  | .op x y, s, b, h, hc => by
    simp only [Expr.ids, Expr.calls, List.mem_append] at h hc
    obtain ⟨r1, h1⟩ := forced_ok (e := x) (s := s) b (fun l hl => h l (.inl hl)) (fun l hl => hc l (.inl hl))
    obtain ⟨r2, h2⟩ := forced_ok (e := y) (s := s) r1.2 (fun l hl => h l (.inr hl)) (fun l hl => hc l (.inr hl))
    exact ⟨(r1.1 ++ r2.1, r2.2), by simp only [Expr.resolve, h1, h2, bind, Except.bind]⟩
  | .isset x items y, s, b, h, hc => by
    simp only [Expr.ids, Expr.calls, List.mem_append] at h hc
    obtain ⟨r1, h1⟩ := forced_ok (e := x) (s := s) b (fun l hl => h l (.inl hl)) (fun l hl => hc l (.inl hl))
    obtain ⟨r2, h2⟩ := forced_ok (e := y) (s := s) r1.2 (fun l hl => h l (.inr hl)) (fun l hl => hc l (.inr hl))
    exact ⟨(r1.1 ++ r2.1, r2.2), by simp only [Expr.resolve, h1, h2, bind, Except.bind, Bool.false_eq_true, if_false]⟩

/-- … and only then -/
theorem forced_shows {call : Scope → Name → Bodies → Except Problem Bodies} {pkg : List Name} :
    ∀ {e : Expr} {s : Scope} {b : Bodies} {r : List Ref × Bodies}, e.resolve call pkg false s b = .ok r →
      (∀ n ∈ e.ids, Known pkg s n) ∧ (∀ f ∈ e.calls, s.find f = some (.sym .func f) ∧ ∃ b b', call s f b = .ok b')
  | .lit, s, b, r, _ => by simp [Expr.ids, Expr.calls]
  | .id n, s, b, r, h => by
    refine ⟨?_, by simp [Expr.calls]⟩
    intro m hm
    simp only [Expr.ids, List.mem_singleton] at hm
    subst hm
    simp only [Expr.resolve] at h
    split at h
    · rename_i hf; exact .inl (by rw [hf]; simp)
    · split at h
      · rename_i hp; exact .inr hp
      · cases h
  | .call n, s, b, r, h => by
    refine ⟨by simp [Expr.ids], ?_⟩
    intro m hm
    simp only [Expr.calls, List.mem_singleton] at hm
    subst hm
    simp only [Expr.resolve] at h
    split at h
    · rename_i f hf
      obtain ⟨rfl, -⟩ := find_key hf
      obtain ⟨b', h1, h2⟩ := bind_ok h
      exact ⟨hf, b, b', h1⟩
    · cases h
    · split at h <;> cases h
  | .op x y, s, b, r, h => by
    simp only [Expr.resolve] at h
    obtain ⟨r1, h1, h⟩ := bind_ok h
    obtain ⟨r2, h2, h⟩ := bind_ok h
    obtain ⟨a1, a2⟩ := forced_shows h1
    obtain ⟨b1, b2⟩ := forced_shows h2
    simp only [Expr.ids, Expr.calls, List.mem_append]
    exact ⟨fun n hn => hn.elim (a1 n) (b1 n), fun f hf => hf.elim (a2 f) (b2 f)⟩
  | .isset x items y, s, b, r, h => by
    simp only [Expr.resolve, Bool.false_eq_true, if_false] at h
    obtain ⟨r1, h1, h⟩ := bind_ok h
    obtain ⟨r2, h2, h⟩ := bind_ok h
    obtain ⟨a1, a2⟩ := forced_shows h1
    obtain ⟨b1, b2⟩ := forced_shows h2
    simp only [Expr.ids, Expr.calls, List.mem_append]
    exact ⟨fun n hn => hn.elim (a1 n) (b1 n), fun f hf => hf.elim (a2 f) (b2 f)⟩

/-! ### Functions -/

theorem evalBody_inv {c : Compound} {pkg : List Name} {k : Nat} {stack : List Name} {s : Scope} {f : Name} {b b' : Bodies}
    (h : c.evalBody pkg k stack s f b = .ok b') : ∃ k' e r, k = k' + 1 ∧ f ∉ stack ∧ c.body f = some e ∧
      e.resolve (c.evalBody pkg k' (f :: stack)) pkg false s b = .ok r ∧ b' = (f, r.1) :: r.2 := by
  cases k with
  | zero => cases h
  | succ k =>
    simp only [Compound.evalBody] at h
    split at h
    · cases h
    · rename_i hs
      split at h
      · cases h
      · rename_i e he
        obtain ⟨r, h1, h2⟩ := bind_ok h
        simp only [Except.ok.injEq] at h2
        exact ⟨k, e, r, rfl, hs, he, h1, h2.symm⟩

theorem forced_uses {c : Compound} {pkg : List Name} {e : Expr} {n : Name} (hu : c.Uses e n) :
    ∀ {k : Nat} {stack : List Name} {s : Scope} {b : Bodies} {r : List Ref × Bodies},
      e.resolve (c.evalBody pkg k stack) pkg false s b = .ok r → Known pkg s n := by
  induction hu with
  | direct h => intro k stack s b r hr; exact (forced_shows hr).1 _ h
  | through hf hb _ ih =>
    intro k stack s b r hr
    obtain ⟨-, b1, b2, h⟩ := (forced_shows hr).2 _ hf
    obtain ⟨k', e, r', -, -, h3, h4, -⟩ := evalBody_inv h
    rw [hb] at h3
    cases h3
    exact ih h4

theorem forced_calls {c : Compound} {pkg : List Name} {e : Expr} {g : Name} (hu : c.Calls e g) :
    ∀ {k : Nat} {stack : List Name} {s : Scope} {b : Bodies} {r : List Ref × Bodies},
      e.resolve (c.evalBody pkg k stack) pkg false s b = .ok r → s.find g = some (.sym .func g) ∧ g ∉ stack ∧
        ∃ k' stack' e' b' r', g ∈ stack' ∧ c.body g = some e' ∧ e'.resolve (c.evalBody pkg k' stack') pkg false s b' = .ok r' := by
  induction hu with
  | direct h =>
    intro k stack s b r hr
    obtain ⟨h1, b1, b2, h⟩ := (forced_shows hr).2 _ h
    obtain ⟨k', e, r', -, h2, h3, h4, -⟩ := evalBody_inv h
    exact ⟨h1, h2, k', _, e, b1, r', by simp, h3, h4⟩
  | through hf hb _ ih =>
    intro k stack s b r hr
    obtain ⟨-, b1, b2, h⟩ := (forced_shows hr).2 _ hf
    obtain ⟨k', e, r', -, -, h3, h4, -⟩ := evalBody_inv h
    rw [hb] at h3
    cases h3
    obtain ⟨h5, h6, h7⟩ := ih h4
    exact ⟨h5, fun hc => h6 (List.mem_cons_of_mem _ hc), h7⟩

/-- what is evaluated successfully in the scope of a call is allowed there -/
theorem forced_allowed {c : Compound} {pkg : List Name} {e : Expr} {k : Nat} {stack : List Name} {s : Scope} {b : Bodies}
    {r : List Ref × Bodies} (h : e.resolve (c.evalBody pkg k stack) pkg false s b = .ok r) : c.Allowed pkg s e := by
  refine ⟨fun n hn => forced_uses hn h, fun f hf => ?_⟩
  obtain ⟨h1, -, k', stack', e', b', r', h2, h3, h4⟩ := forced_calls hf h
  refine ⟨h1, e', h3, fun hc => ?_⟩
  exact (forced_calls hc h4).2.1 h2

/-- What is allowed in the scope of a call is evaluated successfully; no function in evaluation is called. -/
theorem allowed_forced {c : Compound} {pkg : List Name} {s : Scope} : ∀ (k : Nat) {e : Expr} {stack : List Name} (b : Bodies),
    c.Allowed pkg s e → (∀ f, c.Calls e f → f ∉ stack) → stack.Nodup → (∀ f ∈ stack, f ∈ c.funcs.map Prod.fst) →
    c.funcs.length < k + stack.length → ∃ r, e.resolve (c.evalBody pkg k stack) pkg false s b = .ok r := by
  intro k
  induction k with
  | zero =>
    intro e stack b _ _ hn hs hl
    have := (List.subperm_of_subset hn hs).length_le
    simp at this
    omega
  | succ k ih =>
    intro e stack b ha hd hn hs hl
    refine forced_ok b (fun n hm => ha.1 n (.direct hm)) (fun f hf => ?_)
    obtain ⟨h1, eb, h2, h3⟩ := ha.2 f (.direct hf)
    refine ⟨h1, fun b => ?_⟩
    have hfs : f ∉ stack := hd f (.direct hf)
    have hff : f ∈ c.funcs.map Prod.fst := by
      unfold Compound.body at h2
      rw [Option.map_eq_some_iff] at h2
      obtain ⟨p, hp, -⟩ := h2
      have := List.find?_some hp
      simp only [decide_eq_true_eq] at this
      exact List.mem_map.2 ⟨p, List.mem_of_find?_eq_some hp, this⟩
    obtain ⟨r, hr⟩ := ih (e := eb) (stack := f :: stack) b
      ⟨fun n hu => ha.1 n (.through hf h2 hu), fun g hg => ha.2 g (.through hf h2 hg)⟩
      (by intro g hg hc
          rcases List.mem_cons.1 hc with rfl | hc
          · exact h3 hg
          · exact hd g (.through hf h2 hg) hc)
      (List.nodup_cons.2 ⟨hfs, hn⟩)
      (by intro g hg
          rcases List.mem_cons.1 hg with rfl | hg
          · exact hff
          · exact hs g hg)
      (by simp only [List.length_cons]; omega)
    exact ⟨(f, r.1) :: r.2, by simp only [Compound.evalBody, if_neg hfs, h2, hr, bind, Except.bind]⟩

end Zserio.Scopes
