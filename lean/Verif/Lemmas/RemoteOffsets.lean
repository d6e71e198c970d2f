import Verif.Spec.RemoteOffsets
import Verif.Lemmas.InitField
set_option linter.unusedSimpArgs false
set_option linter.unusedVariables false
/-
Helper lemmas for offsets in other objects.
-/
namespace Zserio.Remote
open Writer

/-! ### Slots -/

theorem slot_ok {h : Heap} {a j : Nat} {s : Slot} : h.slot a j = .ok s ↔ ∃ o, h[a]? = some o ∧ o.fields[j]? = some s := by
  unfold Heap.slot
  rcases h[a]? with _ | o
  · simp
  · rcases hj : o.fields[j]? with _ | s' <;> simp [hj]

theorem slot_err {h : Heap} {a j : Nat} {e : Err} (he : h.slot a j = .error e) : e = .type := by
  unfold Heap.slot at he
  split at he
  · cases he; rfl
  · split at he
    · cases he; rfl
    · simp at he

theorem quietE_slot (h : Heap) (a j : Nat) : QuietE (h.slot a j) := by
  intro he
  have := slot_err he
  simp at this

theorem SameShape.refl (s : Slot) : s.SameShape s := by cases s <;> simp [Slot.SameShape]
theorem SameShape.symm {s s' : Slot} (h : s.SameShape s') : s'.SameShape s := by
  cases s <;> cases s' <;> simp_all [Slot.SameShape]
theorem SameShape.trans {s t u : Slot} (h : s.SameShape t) (h' : t.SameShape u) : s.SameShape u := by
  cases s <;> cases t <;> cases u <;> simp_all [Slot.SameShape]

section
variable {S : Classes} {h g k : Heap}

theorem Similar.refl (S : Classes) (h : Heap) : Similar S h h := by
  refine ⟨rfl, ?_, ?_, ?_, ?_⟩
  · intro a o o' h1 h2; rw [h1] at h2; cases h2; rfl
  · intro a o o' h1 h2; rw [h1] at h2; cases h2; rfl
  · intro a o o' h1 h2; rw [h1] at h2; cases h2; rfl
  · intro a o o' j s s' h1 h2 h3 h4
    rw [h1] at h2; cases h2
    rw [h3] at h4; cases h4
    exact ⟨SameShape.refl _, fun _ => rfl⟩

theorem Similar.get (hs : Similar S h g) {a : Nat} {o : Obj} (ho : h[a]? = some o) : ∃ o', g[a]? = some o' := by
  have := hs.length
  have h1 : a < h.length := (List.getElem?_eq_some_iff.mp ho).1
  exact ⟨g[a], List.getElem?_eq_getElem (by omega)⟩

theorem Similar.getField (hs : Similar S h g) {a j : Nat} {o o' : Obj} {s : Slot} (ho : h[a]? = some o) (ho' : g[a]? = some o')
    (hj : o.fields[j]? = some s) : ∃ s', o'.fields[j]? = some s' := by
  have := hs.fields a o o' ho ho'
  have h1 : j < o.fields.length := (List.getElem?_eq_some_iff.mp hj).1
  exact ⟨o'.fields[j], List.getElem?_eq_getElem (by omega)⟩

theorem getObj_of_length {h g : Heap} (hl : g.length = h.length) {a : Nat} {o : Obj} (ho : g[a]? = some o) : ∃ o', h[a]? = some o' := by
  have h1 : a < g.length := (List.getElem?_eq_some_iff.mp ho).1
  exact ⟨h[a], List.getElem?_eq_getElem (by omega)⟩

theorem Similar.symm (hs : Similar S h g) : Similar S g h := by
  refine ⟨hs.length.symm, ?_, ?_, ?_, ?_⟩
  · intro a o o' h1 h2; exact (hs.cls a o' o h2 h1).symm
  · intro a o o' h1 h2; exact (hs.params a o' o h2 h1).symm
  · intro a o o' h1 h2; exact (hs.fields a o' o h2 h1).symm
  · intro a o o' j s s' h1 h2 h3 h4
    obtain ⟨h5, h6⟩ := hs.slots a o' o j s' s h2 h1 h4 h3
    have hc := hs.cls a o' o h2 h1
    exact ⟨SameShape.symm h5, fun hn => (h6 (by rwa [← hc])).symm⟩

theorem Similar.trans (hs : Similar S h g) (hs' : Similar S g k) : Similar S h k := by
  refine ⟨hs'.length.trans hs.length, ?_, ?_, ?_, ?_⟩
  · intro a o o' h1 h2
    obtain ⟨o1, h3⟩ := hs.get h1
    exact (hs'.cls a o1 o' h3 h2).trans (hs.cls a o o1 h1 h3)
  · intro a o o' h1 h2
    obtain ⟨o1, h3⟩ := hs.get h1
    exact (hs'.params a o1 o' h3 h2).trans (hs.params a o o1 h1 h3)
  · intro a o o' h1 h2
    obtain ⟨o1, h3⟩ := hs.get h1
    exact (hs'.fields a o1 o' h3 h2).trans (hs.fields a o o1 h1 h3)
  · intro a o o' j s s' h1 h2 h3 h4
    obtain ⟨o1, h5⟩ := hs.get h1
    obtain ⟨s1, h6⟩ := hs.getField h1 h5 h3
    obtain ⟨h7, h8⟩ := hs.slots a o o1 j s s1 h1 h5 h3 h6
    obtain ⟨h9, h10⟩ := hs'.slots a o1 o' j s1 s' h5 h2 h6 h4
    have hc := hs.cls a o o1 h1 h5
    exact ⟨SameShape.trans h7 h9, fun hn => (h10 (by rwa [hc])).trans (h8 hn)⟩

theorem Similar.hasClass (hs : Similar S h g) {a c : Nat} (hc : h.hasClass a c) : g.hasClass a c := by
  obtain ⟨o, h1, h2⟩ := hc
  obtain ⟨o', h3⟩ := hs.get h1
  exact ⟨o', h3, (hs.cls a o o' h1 h3).trans h2⟩

theorem Similar.slot (hs : Similar S h g) {a j : Nat} {s : Slot} (h1 : h.slot a j = .ok s) :
    ∃ s', g.slot a j = .ok s' ∧ s.SameShape s' ∧ ∀ c, h.hasClass a c → ¬ IsOffset S c j → s' = s := by
  obtain ⟨o, h2, h3⟩ := slot_ok.mp h1
  obtain ⟨o', h4⟩ := hs.get h2
  obtain ⟨s', h5⟩ := hs.getField h2 h4 h3
  obtain ⟨h6, h7⟩ := hs.slots a o o' j s s' h2 h4 h3 h5
  refine ⟨s', slot_ok.mpr ⟨o', h4, h5⟩, h6, ?_⟩
  rintro c ⟨o1, h8, h9⟩ hn
  rw [h2] at h8
  cases h8
  exact h7 (by rwa [h9])

theorem Similar.slot_error (hs : Similar S h g) {a j : Nat} {e : Err} (h1 : h.slot a j = .error e) : g.slot a j = .error e := by
  rcases h2 : g.slot a j with e' | s
  · rw [slot_err h1, slot_err h2]
  · obtain ⟨s', h3, _⟩ := hs.symm.slot h2
    rw [h1] at h3
    simp at h3

theorem Similar.slot_eq (hs : Similar S h g) {a j c : Nat} (hc : h.hasClass a c) (hn : ¬ IsOffset S c j) :
    g.slot a j = h.slot a j := by
  rcases h1 : h.slot a j with e | s
  · exact hs.slot_error h1
  · obtain ⟨s', h2, _, h3⟩ := hs.slot h1
    rw [h2, h3 c hc hn]

theorem Similar.param_eq (hs : Similar S h g) (a i : Nat) : g.param a i = h.param a i := by
  unfold Heap.param
  rcases h1 : h[a]? with _ | o
  · have : g[a]? = none := by
      rw [List.getElem?_eq_none_iff] at h1 ⊢
      have := hs.length
      omega
    rw [this]
  · obtain ⟨o', h2⟩ := hs.get h1
    rw [h2]
    simp only
    rw [hs.params a o o' h1 h2]

/-! ### Types -/

/-- what is needed of `WellTyped` -/
structure Typed (S : Classes) (h : Heap) : Prop where
  param : ∀ (a : Nat) (o : Obj) (i d b : Nat), h[a]? = some o → (S o.cls).params[i]? = some (.compound d) →
    o.params[i]? = some (.ref b) → h.hasClass b d
  one : ∀ (a : Nat) (o : Obj) (j : Nat) (f : RField) (s : Slot), h[a]? = some o → (S o.cls).fields[j]? = some f →
    o.fields[j]? = some s → f.array = none → ∃ v, s = .one v
  oneRef : ∀ (a : Nat) (o : Obj) (j d b : Nat) (f : RField), h[a]? = some o → (S o.cls).fields[j]? = some f →
    f.type = .compound d → o.fields[j]? = some (.one (.ref b)) → h.hasClass b d
  manyRef : ∀ (a : Nat) (o : Obj) (j d b : Nat) (f : RField) (vs : List Value), h[a]? = some o → (S o.cls).fields[j]? = some f →
    f.type = .compound d → o.fields[j]? = some (.many vs) → .ref b ∈ vs → h.hasClass b d

theorem WellTyped.typed (hw : WellTyped S h) : Typed S h := by
  refine ⟨?_, ?_, ?_, ?_⟩
  · intro a o i d b h1 h2 h3
    exact hw.param a o i _ _ h1 h2 h3
  · intro a o j f s h1 h2 h3 h4
    have := hw.field a o j f s h1 h2 h3
    rcases s with v | vs
    · exact ⟨v, rfl⟩
    · simp [Slot.Fits, h4] at this
  · intro a o j d b f h1 h2 h3 h4
    have := hw.field a o j f _ h1 h2 h4
    simp only [Slot.Fits, h3, Value.Fits] at this
    exact this.2
  · intro a o j d b f vs h1 h2 h3 h4 h5
    have := hw.field a o j f _ h1 h2 h4
    have := this.2 _ h5
    rw [h3] at this
    exact this

theorem Rules.isOffset (hR : Rules S) {c j : Nat} (ho : IsOffset S c j) :
    ∃ t n, (S c).fields[j]? = some t ∧ t.type = .leaf (.int (.bitField n)) ∧ t.optional = .required := by
  obtain ⟨c', f, p, ix, h1, h2, h3⟩ := ho
  obtain ⟨d, j', ix', t, n, h4, h5, h6, h7, _⟩ := hR.offset c' f p h1 h2
  rw [h3] at h4
  simp only [Option.some.injEq, Place.slot.injEq] at h4
  obtain ⟨rfl, rfl, _⟩ := h4
  exact ⟨t, n, h5, h6, h7⟩

theorem Rules.not_compound (hR : Rules S) {c j d : Nat} {f : RField} (hf : (S c).fields[j]? = some f) (ht : f.type = .compound d) :
    ¬ IsOffset S c j := by
  intro ho
  obtain ⟨t, n, h1, h2, _⟩ := hR.isOffset ho
  rw [hf] at h1
  cases h1
  rw [ht] at h2
  simp at h2

theorem Typed.similar (hR : Rules S) (ht : Typed S h) (hs : Similar S h g) : Typed S g := by
  refine ⟨?_, ?_, ?_, ?_⟩
  · intro a o i d b h1 h2 h3
    obtain ⟨o0, h4⟩ := getObj_of_length hs.length h1
    rw [hs.cls a o0 o h4 h1] at h2
    rw [hs.params a o0 o h4 h1] at h3
    exact hs.hasClass (ht.param a o0 i d b h4 h2 h3)
  · intro a o j f s h1 h2 h3 h4
    obtain ⟨o0, h5⟩ := getObj_of_length hs.length h1
    rw [hs.cls a o0 o h5 h1] at h2
    obtain ⟨s0, h6⟩ := hs.symm.getField h1 h5 h3
    obtain ⟨v, rfl⟩ := ht.one a o0 j f s0 h5 h2 h6 h4
    have := (hs.slots a o0 o j _ s h5 h1 h6 h3).1
    rcases s with v' | vs
    · exact ⟨v', rfl⟩
    · simp [Slot.SameShape] at this
  · intro a o j d b f h1 h2 h3 h4
    obtain ⟨o0, h5⟩ := getObj_of_length hs.length h1
    rw [hs.cls a o0 o h5 h1] at h2
    obtain ⟨s0, h6⟩ := hs.symm.getField h1 h5 h4
    have := (hs.slots a o0 o j _ _ h5 h1 h6 h4).2 (hR.not_compound h2 h3)
    subst this
    exact hs.hasClass (ht.oneRef a o0 j d b f h5 h2 h3 h6)
  · intro a o j d b f vs h1 h2 h3 h4 h7
    obtain ⟨o0, h5⟩ := getObj_of_length hs.length h1
    rw [hs.cls a o0 o h5 h1] at h2
    obtain ⟨s0, h6⟩ := hs.symm.getField h1 h5 h4
    have := (hs.slots a o0 o j _ _ h5 h1 h6 h4).2 (hR.not_compound h2 h3)
    subst this
    exact hs.hasClass (ht.manyRef a o0 j d b f vs h5 h2 h3 h6 h7)

/-! ### Paths -/

/-- what is stored in a place, as the getter sees it -/
def Heap.fetch (h : Heap) (l : Loc) : Except Err Slot := do
  let s ← h.slot l.addr l.field
  match l.index, s with
  | none, s => .ok s
  | some i, .many vs =>
    match vs[i]? with
    | some v => .ok (.one v)
    | none => .error .index
  | some _, .one _ => .error .type

theorem fetch_of_read {l : Loc} {v : Value} (hr : h.read l = some v) : h.fetch l = .ok (.one v) := by
  obtain ⟨a, j, ix⟩ := l
  unfold Heap.read at hr
  unfold Heap.fetch
  simp only at hr ⊢
  rcases hs : h.slot a j with e | s
  · rw [hs] at hr; cases ix <;> simp at hr
  · rw [hs] at hr
    rcases s with v' | vs <;> rcases ix with _ | i <;> simp at hr <;> simp [ok_bind, hr]

theorem target_shape {c self i : Nat} : ∀ {p : Path} {d j : Nat} {ix : Bool} {l : Loc},
    p.place S c = some (.slot d j ix) → p.target h self i = .ok l → l.field = j ∧ l.index = if ix then some i else none
  | .param _, _, _, _, _, h1, _ => by simp [Path.place] at h1
  | .field _, _, _, _, _, h1, h2 => by
    simp only [Path.place, Option.some.injEq, Place.slot.injEq] at h1
    obtain ⟨rfl, rfl, rfl⟩ := h1
    simp only [Path.target, Except.ok.injEq] at h2
    subst h2
    simp
  | .dot p j', _, _, _, _, h1, h2 => by
    simp only [Path.place, Option.map_eq_some_iff, Place.slot.injEq] at h1
    obtain ⟨d', _, rfl, rfl, rfl⟩ := h1
    simp only [Path.target] at h2
    obtain ⟨s, _, h2⟩ := except_bind_ok h2
    obtain ⟨a, _, h2⟩ := except_bind_ok h2
    simp only [Except.ok.injEq] at h2
    subst h2
    simp
  | .dotParam p j', _, _, _, _, h1, h2 => by
    simp only [Path.place, Option.map_eq_some_iff] at h1
    obtain ⟨d', _, h1⟩ := h1
    simp at h1
  | .element p, d, j, ix, l, h1, h2 => by
    simp only [Path.place] at h1
    split at h1
    · rename_i d' j' hp
      simp only [Option.some.injEq, Place.slot.injEq] at h1
      obtain ⟨rfl, rfl, rfl⟩ := h1
      simp only [Path.target] at h2
      obtain ⟨l', h3, h2⟩ := except_bind_ok h2
      obtain ⟨h4, h5⟩ := target_shape hp h3
      simp only [Bool.false_eq_true, if_false] at h5
      rw [h5] at h2
      simp only [Except.ok.injEq] at h2
      subst h2
      simp [h4]
    · simp at h1

theorem except_bind_assoc {α β γ : Type} (x : Except Err α) (f : α → Except Err β) (k : β → Except Err γ) :
    ((x >>= f) >>= k) = (x >>= fun a => f a >>= k) := by cases x <;> rfl

theorem eval_eq {c self i : Nat} : ∀ {p : Path} {d j : Nat} {ix : Bool}, p.place S c = some (.slot d j ix) →
    p.eval h self i = (p.target h self i >>= h.fetch)
  | .param _, _, _, _, h1 => by simp [Path.place] at h1
  | .field j', _, _, _, h1 => by
    simp only [Path.target, Path.eval, ok_bind, Heap.fetch]
    rcases h.slot self j' with e | s <;> rfl
  | .dot p j', _, _, _, h1 => by
    simp only [Path.target, Path.eval, except_bind_assoc, ok_bind, Heap.fetch]
    congr 1
    funext s
    congr 1
    funext a
    rcases h.slot a j' with e | s <;> rfl
  | .dotParam p j', _, _, _, h1 => by
    simp only [Path.place, Option.map_eq_some_iff] at h1
    obtain ⟨d', _, h1⟩ := h1
    simp at h1
  | .element p, d, j, ix, h1 => by
    simp only [Path.place] at h1
    split at h1
    · rename_i d' j' hp
      have ih := eval_eq (self := self) (i := i) hp
      simp only [Path.eval, Path.target, ih, except_bind_assoc]
      rcases ht : p.target h self i with e | l
      · rfl
      · obtain ⟨h4, h5⟩ := target_shape hp ht
        simp only [Bool.false_eq_true, if_false] at h5
        simp only [ok_bind, h5, Heap.fetch]
        rcases h.slot l.addr l.field with e | s
        · rfl
        · simp only [ok_bind]
          rcases s with v | vs <;> rfl
    · simp at h1

theorem place_cls {c j d : Nat} {ix : Bool} (hc : Place.cls S (.slot c j ix) = some d) :
    ∃ f, (S c).fields[j]? = some f ∧ f.type = .compound d ∧ f.array.isSome = ix := by
  simp only [Place.cls, Place.type] at hc
  rcases hf : (S c).fields[j]? with _ | f
  · rw [hf] at hc; simp at hc
  · rw [hf] at hc
    simp only at hc
    by_cases hix : f.array.isSome = ix
    · rw [if_pos hix] at hc
      rcases ht : f.type with l | d'
      · rw [ht] at hc; simp at hc
      · rw [ht] at hc
        simp only [Option.some.injEq] at hc
        subst hc
        exact ⟨f, rfl, ht, hix⟩
    · rw [if_neg hix] at hc; simp at hc

theorem param_cls {c i d : Nat} (hc : Place.cls S (.param c i) = some d) : (S c).params[i]? = some (.compound d) := by
  simp only [Place.cls, Place.type] at hc
  rcases hf : (S c).params[i]? with _ | t
  · rw [hf] at hc; simp at hc
  · rw [hf] at hc
    cases t with
    | leaf l => simp at hc
    | compound d' => simpa using hc

theorem param_ok {a i : Nat} {s : Slot} (hp : h.param a i = .ok s) : ∃ o v, h[a]? = some o ∧ o.params[i]? = some v ∧ s = .one v := by
  unfold Heap.param at hp
  rcases h1 : h[a]? with _ | o
  · rw [h1] at hp; simp at hp
  · rw [h1] at hp
    simp only at hp
    rcases h2 : o.params[i]? with _ | v
    · rw [h2] at hp; simp at hp
    · rw [h2] at hp
      exact ⟨o, v, rfl, h2, (Except.ok.inj hp).symm⟩

theorem asRef_ok {s : Slot} {a : Nat} (hp : Path.asRef s = .ok a) : s = .one (.ref a) := by
  unfold Path.asRef at hp
  split at hp
  · cases hp; rfl
  · simp at hp

theorem path_class (ht : Typed S h) {c self i : Nat} (hc : h.hasClass self c) : ∀ (p : Path),
    (∀ pl d b, p.place S c = some pl → pl.cls S = some d → p.eval h self i = .ok (.one (.ref b)) → h.hasClass b d) ∧
    (∀ d j ix l, p.place S c = some (.slot d j ix) → p.target h self i = .ok l → h.hasClass l.addr d)
  | .param k => by
    refine ⟨?_, by intro d j ix l h1; simp [Path.place] at h1⟩
    intro pl d b h1 h2 h3
    simp only [Path.place, Option.some.injEq] at h1
    subst h1
    obtain ⟨o, v, h4, h5, h6⟩ := param_ok (by simpa [Path.eval] using h3)
    cases h6
    obtain ⟨o', h7, h8⟩ := hc
    rw [h4] at h7; cases h7
    have h9 := param_cls h2
    rw [← h8] at h9
    exact ht.param self o k d b h4 h9 h5
  | .field k => by
    refine ⟨?_, ?_⟩
    · intro pl d b h1 h2 h3
      simp only [Path.place, Option.some.injEq] at h1
      subst h1
      obtain ⟨f, h4, h5, _⟩ := place_cls h2
      obtain ⟨o, h6, h7⟩ := slot_ok.mp (by simpa [Path.eval] using h3)
      obtain ⟨o', h8, h9⟩ := hc
      rw [h6] at h8; cases h8
      rw [← h9] at h4
      exact ht.oneRef self o k d b f h6 h4 h5 h7
    · intro d j ix l h1 h2
      simp only [Path.place, Option.some.injEq, Place.slot.injEq] at h1
      obtain ⟨rfl, rfl, rfl⟩ := h1
      simp only [Path.target, Except.ok.injEq] at h2
      subst h2
      exact hc
  | .dot p k => by
    obtain ⟨ih, _⟩ := path_class ht hc p
    refine ⟨?_, ?_⟩
    · intro pl d b h1 h2 h3
      simp only [Path.place, Option.map_eq_some_iff, Option.bind_eq_some_iff] at h1
      obtain ⟨d', ⟨pl', h4, h5⟩, rfl⟩ := h1
      simp only [Path.eval] at h3
      obtain ⟨s, h6, h3⟩ := except_bind_ok h3
      obtain ⟨a, h7, h3⟩ := except_bind_ok h3
      have := asRef_ok h7
      subst this
      obtain ⟨o', h8, h9⟩ := ih pl' d' a h4 h5 h6
      obtain ⟨f, h10, h11, _⟩ := place_cls h2
      obtain ⟨o, h12, h13⟩ := slot_ok.mp h3
      rw [h8] at h12; cases h12
      rw [← h9] at h10
      exact ht.oneRef a o' k d b f h8 h10 h11 h13
    · intro d j ix l h1 h2
      simp only [Path.place, Option.map_eq_some_iff, Option.bind_eq_some_iff, Place.slot.injEq] at h1
      obtain ⟨d', ⟨pl', h4, h5⟩, rfl, rfl, rfl⟩ := h1
      simp only [Path.target] at h2
      obtain ⟨s, h6, h8⟩ := except_bind_ok h2
      obtain ⟨a, h7, h9⟩ := except_bind_ok h8
      have := asRef_ok h7
      subst this
      have := (Except.ok.inj h9).symm
      subst this
      exact ih pl' d' a h4 h5 h6
  | .dotParam p k => by
    obtain ⟨ih, _⟩ := path_class ht hc p
    refine ⟨?_, ?_⟩
    · intro pl d b h1 h2 h3
      simp only [Path.place, Option.map_eq_some_iff, Option.bind_eq_some_iff] at h1
      obtain ⟨d', ⟨pl', h4, h5⟩, rfl⟩ := h1
      simp only [Path.eval] at h3
      obtain ⟨s, h6, h3⟩ := except_bind_ok h3
      obtain ⟨a, h7, h3⟩ := except_bind_ok h3
      have := asRef_ok h7
      subst this
      obtain ⟨o', h8, h9⟩ := ih pl' d' a h4 h5 h6
      obtain ⟨o, v, h12, h13, h14⟩ := param_ok h3
      cases h14
      rw [h8] at h12; cases h12
      have h15 := param_cls h2
      rw [← h9] at h15
      exact ht.param a o' k d b h8 h15 h13
    · intro d j ix l h1 h2
      simp [Path.target] at h2
  | .element p => by
    obtain ⟨_, ih⟩ := path_class ht hc p
    have hpl : ∀ pl, (Path.element p).place S c = some pl → ∃ d j, p.place S c = some (.slot d j false) ∧ pl = .slot d j true := by
      intro pl h1
      simp only [Path.place] at h1
      split at h1
      · rename_i d' j' hp
        exact ⟨d', j', hp, (Option.some.inj h1).symm⟩
      · simp at h1
    refine ⟨?_, ?_⟩
    · intro pl d b h1 h2 h3
      obtain ⟨d', j', hp, rfl⟩ := hpl pl h1
      simp only [Path.eval] at h3
      rw [eval_eq hp] at h3
      obtain ⟨s, h6, h3⟩ := except_bind_ok h3
      obtain ⟨l, h7, h6⟩ := except_bind_ok h6
      obtain ⟨h8, h9⟩ := target_shape hp h7
      simp only [Bool.false_eq_true, if_false] at h9
      obtain ⟨o', h10, h11⟩ := ih _ _ _ _ hp h7
      simp only [Heap.fetch, h9, h8] at h6
      obtain ⟨s', h12, h6⟩ := except_bind_ok h6
      obtain ⟨o, h13, h14⟩ := slot_ok.mp h12
      rw [h10] at h13; cases h13
      have : s' = s := by simpa using h6
      subst this
      obtain ⟨f, h15, h16, _⟩ := place_cls h2
      rw [← h11] at h15
      rcases s' with v | vs
      · simp at h3
      · simp only at h3
        rcases h17 : vs[i]? with _ | v
        · rw [h17] at h3; simp at h3
        · rw [h17] at h3
          simp only [Except.ok.injEq, Slot.one.injEq] at h3
          subst h3
          exact ht.manyRef l.addr o' j' d b f vs h10 h15 h16 h14 (List.mem_of_getElem? h17)
    · intro d j ix l h1 h2
      obtain ⟨d', j', hp, h3⟩ := hpl _ h1
      cases h3
      simp only [Path.target] at h2
      obtain ⟨l', h6, h2⟩ := except_bind_ok h2
      have := ih _ _ _ _ hp h6
      split at h2
      · simp only [Except.ok.injEq] at h2
        subst h2
        exact this
      · simp at h2

theorem path_similar (hR : Rules S) (ht : Typed S h) (hs : Similar S h g) {c self i : Nat} (hc : h.hasClass self c) : ∀ (p : Path),
    (∀ pl, p.place S c = some pl → (∀ d j ix, pl = .slot d j ix → ¬ IsOffset S d j) → p.eval g self i = p.eval h self i) ∧
    (∀ d j ix, p.place S c = some (.slot d j ix) → p.target g self i = p.target h self i)
  | .param k => by
    refine ⟨?_, by intro d j ix h1; simp [Path.place] at h1⟩
    intro pl h1 h2
    simp only [Path.eval]
    exact hs.param_eq _ _
  | .field k => by
    refine ⟨?_, by intro d j ix h1; rfl⟩
    intro pl h1 h2
    simp only [Path.place, Option.some.injEq] at h1
    simp only [Path.eval]
    exact hs.slot_eq hc (h2 _ _ _ h1.symm)
  | .dot p k => by
    obtain ⟨ih, _⟩ := path_similar hR ht hs (i := i) hc p
    obtain ⟨hcl, _⟩ := path_class ht (i := i) hc p
    have key : ∀ pl', p.place S c = some pl' → ∀ d', pl'.cls S = some d' → p.eval g self i = p.eval h self i := by
      intro pl' h4 d' h5
      refine ih pl' h4 ?_
      rintro d j ix rfl
      obtain ⟨f, h6, h7, _⟩ := place_cls h5
      exact hR.not_compound h6 h7
    refine ⟨?_, ?_⟩
    · intro pl h1 h2
      simp only [Path.place, Option.map_eq_some_iff, Option.bind_eq_some_iff] at h1
      obtain ⟨d', ⟨pl', h4, h5⟩, rfl⟩ := h1
      simp only [Path.eval, key pl' h4 d' h5]
      rcases h6 : p.eval h self i with e | s
      · rfl
      · simp only [ok_bind]
        rcases h7 : Path.asRef s with e | a
        · rfl
        · simp only [ok_bind]
          have := asRef_ok h7
          subst this
          exact hs.slot_eq (hcl pl' d' a h4 h5 h6) (h2 _ _ _ rfl)
    · intro d j ix h1
      simp only [Path.place, Option.map_eq_some_iff, Option.bind_eq_some_iff, Place.slot.injEq] at h1
      obtain ⟨d', ⟨pl', h4, h5⟩, rfl, rfl, rfl⟩ := h1
      simp only [Path.target, key pl' h4 d' h5]
  | .dotParam p k => by
    obtain ⟨ih, _⟩ := path_similar hR ht hs (i := i) hc p
    refine ⟨?_, by intro d j ix h1; rfl⟩
    intro pl h1 h2
    simp only [Path.place, Option.map_eq_some_iff, Option.bind_eq_some_iff] at h1
    obtain ⟨d', ⟨pl', h4, h5⟩, rfl⟩ := h1
    have : p.eval g self i = p.eval h self i := by
      refine ih pl' h4 ?_
      rintro d j ix rfl
      obtain ⟨f, h6, h7, _⟩ := place_cls h5
      exact hR.not_compound h6 h7
    simp only [Path.eval, this]
    congr 1
    funext s
    congr 1
    funext a
    exact hs.param_eq _ _
  | .element p => by
    obtain ⟨ih1, ih2⟩ := path_similar hR ht hs (i := i) hc p
    have hpl : ∀ pl, (Path.element p).place S c = some pl → ∃ d j, p.place S c = some (.slot d j false) ∧ pl = .slot d j true := by
      intro pl h1
      simp only [Path.place] at h1
      split at h1
      · rename_i d' j' hp
        exact ⟨d', j', hp, (Option.some.inj h1).symm⟩
      · simp at h1
    refine ⟨?_, ?_⟩
    · intro pl h1 h2
      obtain ⟨d', j', hp, rfl⟩ := hpl pl h1
      simp only [Path.eval]
      rw [ih1 _ hp (by rintro d j ix h3; cases h3; exact h2 _ _ _ rfl)]
    · intro d j ix h1
      obtain ⟨d', j', hp, h3⟩ := hpl _ h1
      simp only [Path.target]
      rw [ih2 _ _ _ hp]

end
end Zserio.Remote
