import Verif.Spec.Walker
/-
Lemmas about the walker: what it reports with any filter, and with a filter which decides by the position.
-/
set_option linter.unusedSimpArgs false
namespace Zserio

/-! ### Induction over values -/

/-- the values directly inside of a value -/
def Val.children : Val → List Val
  | .arr xs => xs
  | .obj _ _ _ fs => fs
  | _ => []

theorem Val.sizeOf_children {v x : Val} (h : x ∈ v.children) : sizeOf x < sizeOf v := by
  cases v with
  | arr xs =>
    have := List.sizeOf_lt_of_mem (show x ∈ xs from h)
    simp only [Val.arr.sizeOf_spec]
    omega
  | obj ps k tag fs =>
    have := List.sizeOf_lt_of_mem (show x ∈ fs from h)
    simp only [Val.obj.sizeOf_spec]
    omega
  | _ => simp [Val.children] at h

theorem Val.induction {P : Val → Prop} (h : ∀ v, (∀ x ∈ v.children, P x) → P v) (v : Val) : P v :=
  h v fun x hx => Val.induction h x
termination_by sizeOf v
decreasing_by exact Val.sizeOf_children hx

/-! ### The monad -/

namespace Walk
variable {σ α β : Type}

theorem pure_apply (a : α) (s : σ) : (Pure.pure a : Walk σ α) s = (.ok a, s, []) := rfl

theorem bind_ok {x : Walk σ α} {f : α → Walk σ β} {s s' : σ} {a : α} {es : List Event} (h : x s = (.ok a, s', es)) :
    (x >>= f) s = ((f a s').1, (f a s').2.1, es ++ (f a s').2.2) := by
  show Walk.bind x f s = _
  unfold Walk.bind
  rw [h]

theorem bind_error {x : Walk σ α} {f : α → Walk σ β} {s s' : σ} {e : Err} {es : List Event} (h : x s = (.error e, s', es)) :
    (x >>= f) s = (.error e, s', es) := by
  show Walk.bind x f s = _
  unfold Walk.bind
  rw [h]

theorem bind_inv {x : Walk σ α} {f : α → Walk σ β} {s s' : σ} {b : β} {es : List Event} (h : (x >>= f) s = (.ok b, s', es)) :
    ∃ a s₁ es₁ es₂, x s = (.ok a, s₁, es₁) ∧ f a s₁ = (.ok b, s', es₂) ∧ es = es₁ ++ es₂ := by
  rcases hx : x s with ⟨r, s₁, es₁⟩
  cases r with
  | error e => rw [bind_error hx] at h; simp at h
  | ok a =>
    rw [bind_ok hx] at h
    simp only [Prod.mk.injEq] at h
    exact ⟨a, s₁, es₁, (f a s₁).2.2, rfl, by rw [← h.1, ← h.2.1], h.2.2.symm⟩

end Walk

/-! ### Paths and nodes -/

namespace Path.Before

theorem cons {s t : Step} (h : s.index < t.index) (p q : Path) : Path.Before (s :: p) (t :: q) := List.Lex.rel h

theorem nil (s : Step) (p : Path) : Path.Before [] (s :: p) := List.Lex.nil

theorem append (p : Path) {q r : Path} (h : Path.Before q r) : Path.Before (p ++ q) (p ++ r) := by
  induction p with
  | nil => exact h
  | cons s p ih => exact List.Lex.cons ih

end Path.Before

theorem HasNode.trans {I : TypeInfos} {n n₁ n₂ : Node} {p q : Path} (h : HasNode I n p n₁) (h' : HasNode I n₁ q n₂) :
    HasNode I n (p ++ q) n₂ := by
  induction h with
  | refl => exact h'
  | step hc _ ih => exact .step hc (ih h')

theorem HasNode.child {I : TypeInfos} {n n₁ n₂ : Node} {p : Path} {s : Step} (h : HasNode I n p n₁) (h' : Child I n₁ s n₂) :
    HasNode I n (p ++ [s]) n₂ := h.trans (.step h' .refl)

theorem HasNode.split {I : TypeInfos} {n n₂ : Node} {p q : Path} (h : HasNode I n (p ++ q) n₂) :
    ∃ n₁, HasNode I n p n₁ ∧ HasNode I n₁ q n₂ := by
  induction p generalizing n with
  | nil => exact ⟨n, .refl, h⟩
  | cons s p ih =>
    cases h with
    | step hc h =>
      obtain ⟨n₁, h1, h2⟩ := ih h
      exact ⟨n₁, .step hc h1, h2⟩

theorem HasNode.unsnoc {I : TypeInfos} {n n₂ : Node} {p : Path} {s : Step} (h : HasNode I n (p ++ [s]) n₂) :
    ∃ n₁, HasNode I n p n₁ ∧ Child I n₁ s n₂ := by
  obtain ⟨n₁, h1, h2⟩ := h.split
  cases h2 with
  | step hc h =>
    cases h
    exact ⟨n₁, h1, hc⟩

theorem Visited.hasNode {I : TypeInfos} {acc : Path → Node → Prop} {p r : Path} {n n' : Node} (h : Visited I acc p n r n') :
    HasNode I n r n' := by
  induction h with
  | refl _ => exact .refl
  | step _ hc _ ih => exact .step hc ih

theorem Visited.accepted {I : TypeInfos} {acc : Path → Node → Prop} {p r : Path} {n n' : Node} (h : Visited I acc p n r n') :
    acc p n := by
  cases h <;> assumption

theorem Readable.of_hasNode {I : TypeInfos} {n n' : Node} {p : Path} (h : Readable I n) (h' : HasNode I n p n') : Readable I n' :=
  fun _ _ id o hq hc => h _ _ id o (h'.trans hq) hc

theorem Nested.append {p : Path} {a : Bool} {es₁ es₂ : List Event} {L₁ L₂ : List (Path × Node)} (h₁ : Nested p a es₁ L₁)
    (h₂ : Nested p a es₂ L₂) : Nested p a (es₁ ++ es₂) (L₁ ++ L₂) := by
  induction h₁ with
  | nil => exact h₂
  | value _ ih => exact Nested.value (ih h₂)
  | @compound p v m idx es₃ es L₃ L h3 h4 ih3 ih =>
    have := Nested.compound (v := v) h3 (ih h₂)
    simpa using this
  | @array p xs m es₃ es L₃ L h3 h4 ih3 ih =>
    have := Nested.array (xs := xs) h3 (ih h₂)
    simpa using this

/-! ### Loops over children -/

namespace Walker
variable {σ : Type}

/-- the walk of some children in turn, until one of them returns `False` -/
def loop : List (Step × Node × Walk σ Bool) → Walk σ Unit
  | [] => pure ()
  | c :: cs => do
    let cont ← c.2.2
    if cont then loop cs else pure ()

/-- the children of an array -/
def arrayChildren (I : TypeInfos) (F : WalkFilter σ) (m : MemberInfo) : List Val → Nat → List (Step × Node × Walk σ Bool)
  | [], _ => []
  | x :: xs, i => (.elem i, .item m x, element I F x m i) :: arrayChildren I F m xs (i + 1)

theorem elements_eq (I : TypeInfos) (F : WalkFilter σ) (m : MemberInfo) (xs : List Val) (i : Nat) :
    elements I F xs m i = loop (arrayChildren I F m xs i) := by
  induction xs generalizing i with
  | nil => rfl
  | cons x xs ih =>
    simp only [elements, loop, arrayChildren, ih]

theorem mem_arrayChildren {I : TypeInfos} {F : WalkFilter σ} {m : MemberInfo} {xs : List Val} {k : Nat}
    {c : Step × Node × Walk σ Bool} :
    c ∈ arrayChildren I F m xs k ↔ ∃ i x, xs[i]? = some x ∧ c = (.elem (k + i), .item m x, element I F x m (k + i)) := by
  induction xs generalizing k with
  | nil => simp [arrayChildren]
  | cons y ys ih =>
    rw [arrayChildren, List.mem_cons, ih]
    constructor
    · rintro (rfl | ⟨i, x, hx, rfl⟩)
      · exact ⟨0, y, by simp, by simp⟩
      · exact ⟨i + 1, x, by simpa using hx, by rw [show k + 1 + i = k + (i + 1) by omega]⟩
    · rintro ⟨i, x, hx, rfl⟩
      cases i with
      | zero => left; simp at hx; simp [hx]
      | succ i => right; exact ⟨i, x, by simpa using hx, by rw [show k + 1 + i = k + (i + 1) by omega]⟩

theorem arrayChildren_sorted (I : TypeInfos) (F : WalkFilter σ) (m : MemberInfo) (xs : List Val) (k : Nat) :
    (arrayChildren I F m xs k).Pairwise (fun a b => a.1.index < b.1.index) := by
  induction xs generalizing k with
  | nil => exact .nil
  | cons y ys ih =>
    rw [arrayChildren]
    refine .cons ?_ (ih _)
    intro c hc
    obtain ⟨i, x, _, rfl⟩ := mem_arrayChildren.mp hc
    simp only [Step.index]
    omega

theorem walkAttrs_eq (I : TypeInfos) (F : WalkFilter σ) (fs : List Val) : walkAttrs I F fs = fs.map fun x => (x, field I F x) := by
  induction fs with
  | nil => rfl
  | cons x xs ih => simp [walkAttrs, ih]

theorem walkAttrs_get (I : TypeInfos) (F : WalkFilter σ) (fs : List Val) (k : Nat) :
    (walkAttrs I F fs)[k]? = fs[k]?.map fun x => (x, field I F x) := by
  rw [walkAttrs_eq, List.getElem?_map]

theorem get_eq {m : MemberInfo} {v x : Val} (h : m.get v = .ok x) : v = x := by
  unfold MemberInfo.get at h
  split at h
  · simp at h
  · simpa using h
  · split at h <;> simp at h; exact h
  · split at h <;> simp at h; exact h

theorem walkAttr_ok {I : TypeInfos} {F : WalkFilter σ} {m : MemberInfo} {v x : Val} (h : m.get v = .ok x) :
    walkAttr (some (v, field I F v)) m = field I F x m := by
  have hv := get_eq h
  subst hv
  funext s
  simp only [walkAttr, h]
  rw [Walk.bind_ok (show Walk.lift (.ok v) s = (.ok v, s, []) from rfl)]
  rfl

/-- the children of a compound -/
def fieldChildren (I : TypeInfos) (F : WalkFilter σ) (fs : List (MemberInfo × Val)) : List (Step × Node × Walk σ Bool) :=
  fs.map fun f => (stepOf f.1 none, f.1.node f.2, field I F f.2 f.1)

/-- the fields of an object with their values -/
def FieldList (I : TypeInfos) (id : Nat) (o : Val) (fs : List (MemberInfo × Val)) : Prop :=
  (∀ m x, (m, x) ∈ fs ↔ FieldOf I id o m x) ∧ fs.Pairwise (fun a b => a.1.prop < b.1.prop)

theorem fieldOf_mem {I : TypeInfos} {id : Nat} {ps : List Int} {k : Nat} {tag : Int} {fs : List Val} {m : MemberInfo} {x : Val}
    (h : FieldOf I id (.obj ps k tag fs) m x) : x ∈ fs ∧ m.get x = .ok x := by
  cases h with
  | struct _ _ hv hg =>
    have := get_eq hg
    subst this
    exact ⟨List.mem_of_getElem? hv, hg⟩
  | chosen _ _ hg =>
    have := get_eq hg
    subst this
    exact ⟨by simp, hg⟩

theorem structFields_eq {I : TypeInfos} {F : WalkFilter σ} {fs : List Val} {ms : List MemberInfo}
    (h : ∀ m ∈ ms, ∃ v x, fs[m.prop]? = some v ∧ m.get v = .ok x) :
    ∃ l : List (MemberInfo × Val), structFields (walkAttrs I F fs) ms = loop (fieldChildren I F l) ∧ l.map (·.1) = ms ∧
      ∀ m x, (m, x) ∈ l ↔ m ∈ ms ∧ ∃ v, fs[m.prop]? = some v ∧ m.get v = .ok x := by
  induction ms with
  | nil => exact ⟨[], rfl, rfl, by simp⟩
  | cons m ms ih =>
    obtain ⟨l, hl, hm, hmem⟩ := ih fun m' hm' => h m' (List.mem_cons_of_mem _ hm')
    obtain ⟨v, x, hv, hg⟩ := h m (by simp)
    refine ⟨(m, x) :: l, ?_, by simp [hm], ?_⟩
    · rw [structFields, walkAttrs_get, hv]
      simp only [Option.map_some]
      rw [walkAttr_ok hg, hl]
      rfl
    · intro m' x'
      rw [List.mem_cons, hmem, List.mem_cons]
      constructor
      · rintro (he | ⟨h1, h2⟩)
        · simp only [Prod.mk.injEq] at he
          rw [he.1, he.2]
          exact ⟨.inl rfl, v, hv, hg⟩
        · exact ⟨.inr h1, h2⟩
      · rintro ⟨he | h1, h2⟩
        · subst he
          obtain ⟨v', hv', hg'⟩ := h2
          rw [hv] at hv'
          obtain rfl : v = v' := by simpa using hv'
          rw [hg] at hg'
          left
          simp only [Except.ok.injEq] at hg'
          rw [hg']
        · exact .inr ⟨h1, h2⟩

theorem numbered_sorted {I : TypeInfos} (hI : I.Numbered) (id : Nat) : (I id).fields.Pairwise (fun a b => a.prop < b.prop) := by
  rw [List.pairwise_iff_getElem]
  intro i j hi hj hij
  rw [hI id i _ (List.getElem?_eq_getElem hi), hI id j _ (List.getElem?_eq_getElem hj)]
  exact hij

theorem kind_of_choiceTag {ci : CompoundInfo} {ps : List Int} {tag t : Int} (h : ci.choiceTag ps tag = .ok (some t)) :
    ci.kind ≠ .struct := by
  intro hk
  simp [CompoundInfo.choiceTag, hk] at h

theorem fieldAt_natCast (ci : CompoundInfo) (i : Nat) : ci.fieldAt (i : Int) = ci.fields[i]? := by
  unfold CompoundInfo.fieldAt
  rw [if_neg (by omega)]
  simp

theorem undefined_ne (i : Nat) : (i : Int) ≠ UNDEFINED_CHOICE := by
  unfold UNDEFINED_CHOICE
  omega

/-- the walk of the fields of a readable object is the walk of its fields in turn -/
theorem fields_eq {I : TypeInfos} (hI : I.Numbered) {F : WalkFilter σ} {id : Nat} {ps : List Int} {k : Nat} {tag : Int}
    {fs : List Val} (h : ReadableObject I id (.obj ps k tag fs)) :
    ∃ l, FieldList I id (.obj ps k tag fs) l ∧ fields (I id) ps tag (walkAttrs I F fs) = loop (fieldChildren I F l) := by
  cases h with
  | struct hk h =>
    obtain ⟨l, hl, hm, hmem⟩ := structFields_eq (I := I) (F := F) h
    refine ⟨l, ⟨?_, ?_⟩, ?_⟩
    · intro m x
      rw [hmem]
      constructor
      · rintro ⟨h1, v, h2, h3⟩
        exact .struct hk h1 h2 h3
      · intro h
        cases h with
        | struct _ h1 h2 h3 => exact ⟨h1, _, h2, h3⟩
        | chosen ht _ _ => exact absurd hk (kind_of_choiceTag ht)
    · have := numbered_sorted hI id
      rw [← hm, List.pairwise_map] at this
      exact this
    · funext s
      have hc : (I id).choiceTag ps tag = .ok none := by simp [CompoundInfo.choiceTag, hk]
      unfold fields
      rw [hc, Walk.bind_ok (show Walk.lift (.ok none) s = (.ok none, s, []) from rfl)]
      simp only [hl, List.nil_append]
  | @chosen _ _ _ v x vs i m ht hm hg =>
    refine ⟨[(m, x)], ⟨?_, by simp⟩, ?_⟩
    · intro m' x'
      simp only [List.mem_singleton, Prod.mk.injEq]
      constructor
      · rintro ⟨rfl, rfl⟩
        exact .chosen ht hm hg
      · intro h
        cases h with
        | struct hk _ _ _ => exact absurd hk (kind_of_choiceTag ht)
        | chosen ht' hm' hg' =>
          rw [ht] at ht'
          simp only [Except.ok.injEq, Option.some.injEq, Int.natCast_inj] at ht'
          subst ht'
          rw [hm] at hm'
          obtain rfl := Option.some.inj hm'
          rw [hg] at hg'
          simp only [Except.ok.injEq] at hg'
          exact ⟨rfl, hg'.symm⟩
    · funext s
      unfold fields
      rw [ht, Walk.bind_ok (show Walk.lift (.ok (some (i : Int))) s = (.ok (some (i : Int)), s, []) from rfl)]
      simp only [undefined_ne, if_false, fieldAt_natCast, hm, List.nil_append, fieldChildren, List.map_cons, List.map_nil, loop,
        walkAttrs_get, List.getElem?_cons_zero, Option.map_some, walkAttr_ok hg]
      rcases hr : field I F x m s with ⟨r, s', es⟩
      cases r with
      | ok u =>
        rw [Walk.bind_ok hr]
        have h2 : (do let cont ← field I F x m; if cont = true then pure () else pure () : Walk σ Unit) s = (.ok (), s', es) := by
          rw [Walk.bind_ok hr]
          cases u <;> simp [Walk.pure_apply]
        rw [h2]
        simp [Walk.pure_apply]
      | error e =>
        rw [Walk.bind_error hr, Walk.bind_error hr]
  | undefined ht =>
    refine ⟨[], ⟨?_, .nil⟩, ?_⟩
    · intro m' x'
      simp only [List.not_mem_nil, false_iff]
      intro h
      cases h with
      | struct hk _ _ _ => exact absurd hk (kind_of_choiceTag ht)
      | chosen ht' _ _ =>
        rw [ht] at ht'
        simp only [Except.ok.injEq, Option.some.injEq] at ht'
        exact undefined_ne _ ht'.symm
    · funext s
      unfold fields
      rw [ht, Walk.bind_ok (show Walk.lift (.ok (some UNDEFINED_CHOICE)) s = (.ok (some UNDEFINED_CHOICE), s, []) from rfl)]
      simp [fieldChildren, loop]

end Walker
end Zserio
