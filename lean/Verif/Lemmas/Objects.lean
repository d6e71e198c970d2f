import Verif.Spec.Objects
set_option linter.unusedSimpArgs false
/-
Statements change and create only objects they can reach.
-/
namespace Zserio.Objects

/-- the value refers to an object in the set, if to any -/
def PyVal.In (S : Nat → Prop) : PyVal → Prop
  | .ref a => S a
  | _ => True

/-- objects in the set exist and refer to objects in the set -/
def Closed (S : Nat → Prop) (h : Heap) : Prop :=
  ∀ a, S a → ∃ c, h[a]? = some c ∧ ∀ v ∈ c.parts, v.In S

/-- the set with the objects created between two states -/
def Grow (S : Nat → Prop) (h h' : Heap) : Nat → Prop := fun a => S a ∨ (h.length ≤ a ∧ a < h'.length)

theorem PyVal.In.mono {S T : Nat → Prop} (hST : ∀ a, S a → T a) {v : PyVal} (h : v.In S) : v.In T := by
  cases v <;> simp_all [PyVal.In]

/-- how a computation may change the heap: it changes only objects in the set, and new ones are added to the set -/
structure Step (S : Nat → Prop) (h h' : Heap) : Prop where
  length : h.length ≤ h'.length
  same : ∀ a, a < h.length → ¬S a → h'[a]? = h[a]?
  closed : Closed (Grow S h h') h'

/-- the computation stays within the set, and so does its result -/
def Within (S : Nat → Prop) (m : M Heap α) (P : (Nat → Prop) → α → Prop) : Prop :=
  ∀ (T : Nat → Prop) (h : Heap), (∀ a, S a → T a) → Closed T h →
    Step T h (m h).2 ∧ ∀ r, (m h).1 = .ok r → P (Grow T h (m h).2) r

theorem Grow.self {S : Nat → Prop} {h : Heap} : Grow S h h = S := by
  funext a
  simp only [Grow]
  apply propext
  constructor
  · rintro (h | h)
    · exact h
    · omega
  · exact .inl

theorem Step.refl {S : Nat → Prop} {h : Heap} (hc : Closed S h) : Step S h h :=
  ⟨le_refl _, fun _ _ _ => rfl, by rw [Grow.self]; exact hc⟩

theorem Grow.grow {S : Nat → Prop} {h h' h'' : Heap} (h1 : h.length ≤ h'.length) (h2 : h'.length ≤ h''.length) :
    Grow (Grow S h h') h' h'' = Grow S h h'' := by
  funext a
  simp only [Grow]
  apply propext
  constructor
  · rintro ((h | h) | h)
    · exact .inl h
    · exact .inr (by omega)
    · exact .inr (by omega)
  · rintro (h | h)
    · exact .inl (.inl h)
    · by_cases hb : a < h'.length
      · exact .inl (.inr (by omega))
      · exact .inr (by omega)

theorem Step.trans {S : Nat → Prop} {h h' h'' : Heap} (h1 : Step S h h') (h2 : Step (Grow S h h') h' h'') : Step S h h'' := by
  refine ⟨h1.length.trans h2.length, ?_, ?_⟩
  · intro a ha hs
    rw [h2.same a (by have := h1.length; omega), h1.same a ha hs]
    rintro (hg | hg)
    · exact hs hg
    · omega
  · have := h2.closed
    rwa [Grow.grow h1.length h2.length] at this

theorem Within.pure {S : Nat → Prop} {P : (Nat → Prop) → α → Prop} {a : α} (ha : ∀ T : Nat → Prop, (∀ a, S a → T a) → P T a) :
    Within S (pure a : M Heap α) P := by
  intro T h hT hc
  refine ⟨Step.refl hc, ?_⟩
  intro r hr
  cases hr
  show P (Grow T h h) a
  rw [Grow.self]
  exact ha T hT

theorem Within.throw {S : Nat → Prop} {P : (Nat → Prop) → α → Prop} {e : Err} : Within S (M.throw e : M Heap α) P := by
  intro T h hT hc
  exact ⟨Step.refl hc, fun r hr => by cases hr⟩

theorem Within.bind {S : Nat → Prop} {m : M Heap α} {f : α → M Heap β} {P : (Nat → Prop) → α → Prop}
    {Q : (Nat → Prop) → β → Prop} (hm : Within S m P)
    (hf : ∀ (T : Nat → Prop) a, (∀ b, S b → T b) → P T a → Within T (f a) Q) : Within S (m >>= f) Q := by
  intro T h hT hc
  obtain ⟨h1, h2⟩ := hm T h hT hc
  rw [M.bind_apply]
  rcases hx : m h with ⟨r, h'⟩
  rw [hx] at h1 h2
  cases r with
  | error e => exact ⟨h1, fun r hr => by cases hr⟩
  | ok a =>
    obtain ⟨g1, g2⟩ := hf (Grow T h h') a (fun b hb => .inl (hT b hb)) (h2 a rfl) (Grow T h h') h' (fun _ hb => hb) h1.closed
    refine ⟨h1.trans g1, ?_⟩
    intro r hr
    have := g2 r hr
    rwa [Grow.grow h1.length g1.length] at this

theorem Within.alloc {S : Nat → Prop} {c : Cell} (hc : ∀ v ∈ c.parts, v.In S) :
    Within S (alloc c) fun T v => v.In T := by
  intro T h hT hcl
  have hg : ∀ a, T a → Grow T h (h ++ [c]) a := fun a ha => .inl ha
  refine ⟨⟨by simp [Objects.alloc], ?_, ?_⟩, ?_⟩
  · intro a ha _
    simp only [Objects.alloc]
    rw [List.getElem?_append_left ha]
  · intro a ha
    simp only [Objects.alloc] at ha ⊢
    rcases ha with ha | ha
    · obtain ⟨c', h1, h2⟩ := hcl a ha
      refine ⟨c', ?_, fun v hv => (h2 v hv).mono hg⟩
      rw [List.getElem?_append_left]
      · exact h1
      · exact (List.getElem?_eq_some_iff.mp h1).1
    · simp only [List.length_append, List.length_singleton] at ha
      have : a = h.length := by omega
      subst this
      exact ⟨c, by simp, fun v hv => ((hc v hv).mono hT).mono hg⟩
  · intro r hr
    simp only [Objects.alloc, Except.ok.injEq] at hr
    subst hr
    exact .inr ⟨le_refl _, by simp [Objects.alloc]⟩

theorem Within.load {S : Nat → Prop} {v : PyVal} (hv : v.In S) :
    Within S (load v) fun T r => T r.1 ∧ ∀ u ∈ r.2.parts, u.In T := by
  intro T h hT hcl
  cases v with
  | none => exact ⟨Step.refl hcl, fun r hr => by cases hr⟩
  | atom v => exact ⟨Step.refl hcl, fun r hr => by cases hr⟩
  | ref a =>
    obtain ⟨c, h1, h2⟩ := hcl a (hT a hv)
    have : Objects.load (.ref a) h = (.ok (a, c), h) := by simp [Objects.load, h1]
    rw [this]
    refine ⟨Step.refl hcl, ?_⟩
    intro r hr
    cases hr
    rw [Grow.self]
    exact ⟨hT a hv, h2⟩

theorem Within.store {S : Nat → Prop} {a : Nat} {c : Cell} (ha : S a) (hc : ∀ v ∈ c.parts, v.In S)
    {P : (Nat → Prop) → Unit → Prop} (hP : ∀ T, P T ()) : Within S (store a c) P := by
  intro T h hT hcl
  have hlen : (h.set a c).length = h.length := List.length_set
  have hg : Grow T h (h.set a c) = T := by
    funext b
    apply propext
    simp only [Grow, hlen]
    exact ⟨fun hh => hh.elim id (fun h => by omega), .inl⟩
  refine ⟨⟨by simp [Objects.store], ?_, ?_⟩, fun r _ => hP _⟩
  · intro b hb hnb
    simp only [Objects.store]
    rw [List.getElem?_set_ne]
    rintro rfl
    exact hnb (hT _ ha)
  · simp only [Objects.store]
    rw [hg]
    intro b hb
    obtain ⟨c', h1, h2⟩ := hcl b hb
    by_cases hab : a = b
    · subst hab
      have hlt := (List.getElem?_eq_some_iff.mp h1).1
      exact ⟨c, by simp [hlt], fun v hv => (hc v hv).mono hT⟩
    · exact ⟨c', by rw [List.getElem?_set_ne hab]; exact h1, h2⟩

theorem Within.weaken {S : Nat → Prop} {m : M Heap α} {P Q : (Nat → Prop) → α → Prop} (h : Within S m P)
    (hPQ : ∀ (T : Nat → Prop) a, (∀ b, S b → T b) → P T a → Q T a) : Within S m Q := by
  intro T hp hT hc
  obtain ⟨h1, h2⟩ := h T hp hT hc
  exact ⟨h1, fun r hr => hPQ _ _ (fun b hb => .inl (hT b hb)) (h2 r hr)⟩

theorem Within.mono {S T : Nat → Prop} {m : M Heap α} {P : (Nat → Prop) → α → Prop} (h : Within S m P)
    (hST : ∀ b, S b → T b) : Within T m P := by
  intro U hp hU hc
  exact h U hp (fun b hb => hU b (hST b hb)) hc

abbrev InP : (Nat → Prop) → PyVal → Prop := fun T v => v.In T
abbrev AllIn : (Nat → Prop) → List PyVal → Prop := fun T vs => ∀ v ∈ vs, v.In T

theorem AllIn.mono {S T : Nat → Prop} (hST : ∀ a, S a → T a) {vs : List PyVal} (h : AllIn S vs) : AllIn T vs :=
  fun v hv => (h v hv).mono hST

theorem memberValue_within {S : Nat → Prop} {f : FieldDef} {v : PyVal} (hv : v.In S) : Within S (memberValue f v) InP := by
  unfold memberValue
  split
  · split
    · split
      · exact Within.pure fun _ _ => trivial
      · exact Within.bind (Within.alloc (by simp [Cell.parts])) fun T a hT ha =>
          Within.alloc (by simp only [Cell.parts, List.mem_singleton, forall_eq]; exact ha)
    · exact Within.alloc (by simp only [Cell.parts, List.mem_singleton, forall_eq]; exact hv)
  · exact Within.pure fun T hT => hv.mono hT

theorem memberValues_within {S : Nat → Prop} {fs : List FieldDef} {vs : List PyVal} (hv : AllIn S vs) :
    Within S (memberValues fs vs) AllIn := by
  induction fs generalizing vs S with
  | nil => exact Within.pure fun T hT v hv => by simp at hv
  | cons f fs ih =>
    cases vs with
    | nil => exact Within.pure fun T hT v hv => by simp at hv
    | cons v vs =>
      refine Within.bind (memberValue_within (hv v (by simp))) fun T m hT hm => ?_
      refine Within.bind (ih (S := T) (vs := vs) fun u hu => (hv u (by simp [hu])).mono hT) fun U ms hU hms => ?_
      refine Within.pure fun W hW u hu => ?_
      rcases List.mem_cons.mp hu with rfl | hu
      · exact (hm.mono hU).mono hW
      · exact (hms u hu).mono hW

theorem unionMember_within {S : Nat → Prop} {fs : List FieldDef} {vs : List PyVal} {i : Nat} {tag : Int} {choice : PyVal}
    (hv : AllIn S vs) (hc : choice.In S) : Within S (unionMember i fs vs tag choice) fun T r => r.2.In T := by
  induction fs generalizing vs S i tag choice with
  | nil => exact Within.pure fun T hT => hc.mono hT
  | cons f fs ih =>
    cases vs with
    | nil => exact Within.pure fun T hT => hc.mono hT
    | cons v vs =>
      unfold unionMember
      split
      · exact ih (fun u hu => hv u (by simp [hu])) hc
      · split
        · exact Within.throw
        · exact Within.bind (memberValue_within (hv v (by simp))) fun T m hT hm =>
            ih (fun u hu => (hv u (by simp [hu])).mono hT) hm

theorem choiceMember_within {S : Nat → Prop} {fs : List FieldDef} {vs : List PyVal} {choice : PyVal}
    (hv : AllIn S vs) (hc : choice.In S) : Within S (choiceMember fs vs choice) InP := by
  induction fs generalizing vs S choice with
  | nil => exact Within.pure fun T hT => hc.mono hT
  | cons f fs ih =>
    cases vs with
    | nil => exact Within.pure fun T hT => hc.mono hT
    | cons v vs =>
      unfold choiceMember
      split
      · exact ih (fun u hu => hv u (by simp [hu])) hc
      · split
        · exact Within.throw
        · exact Within.bind (memberValue_within (hv v (by simp))) fun T m hT hm =>
            ih (fun u hu => (hv u (by simp [hu])).mono hT) hm

theorem construct_within {S : Nat → Prop} {cls : Nat} {c : Class} {params : List PyVal} {args : List (Option PyVal)}
    (hp : AllIn S params) (ha : AllIn S (arguments c args)) : Within S (construct cls c params args) InP := by
  unfold construct
  split
  · refine Within.bind (memberValues_within ha) fun T ms hT hms => Within.alloc ?_
    intro v hv
    rcases List.mem_append.mp hv with h | h
    · exact (hp v h).mono hT
    · exact hms v h
  · refine Within.bind (unionMember_within ha trivial) fun T ms hT hms => Within.alloc ?_
    intro v hv
    rcases List.mem_append.mp hv with h | h
    · exact (hp v h).mono hT
    · rw [List.mem_singleton.mp h]
      exact hms
  · refine Within.bind (choiceMember_within ha trivial) fun T ms hT hms => Within.alloc ?_
    intro v hv
    rcases List.mem_append.mp hv with h | h
    · exact (hp v h).mono hT
    · rw [List.mem_singleton.mp h]
      exact hms

theorem loadInst_within {S : Nat → Prop} {classes : List Class} {o : PyVal} (ho : o.In S) :
    Within S (loadInst classes o) fun T r => T r.1 ∧ AllIn T r.2.2.2.1 ∧ AllIn T r.2.2.2.2.2.2 := by
  unfold loadInst
  refine Within.bind (Within.load ho) fun T r hT hr => ?_
  obtain ⟨a, cell⟩ := r
  dsimp only
  split
  · split
    · refine Within.pure fun U hU => ⟨hU _ hr.1, fun v hv => ?_, fun v hv => ?_⟩
      · exact (hr.2 v (by simp only [Cell.parts, List.mem_append]; exact .inl hv)).mono hU
      · exact (hr.2 v (by simp only [Cell.parts, List.mem_append]; exact .inr hv)).mono hU
    · exact Within.throw
  · exact Within.throw

theorem memberGet_within {S : Nat → Prop} {f : FieldDef} {v : PyVal} (hv : v.In S) : Within S (memberGet f v) InP := by
  unfold memberGet
  split
  · split
    · exact Within.pure fun _ _ => trivial
    · unfold rawArray
      refine Within.bind (Within.load hv) fun T r hT hr => ?_
      obtain ⟨a, cell⟩ := r
      dsimp only
      split
      · next raw =>
        exact Within.pure fun U hU => (hr.2 raw (by simp [Cell.parts])).mono hU
      · exact Within.throw
  · exact Within.pure fun T hT => hv.mono hT

theorem getField_within {S : Nat → Prop} {classes : List Class} {o : PyVal} {i : Nat} (ho : o.In S) :
    Within S (getField classes o i) InP := by
  unfold getField
  refine Within.bind (loadInst_within ho) fun T r hT hr => ?_
  obtain ⟨a, cls, c, params, numExt, tag, members⟩ := r
  dsimp only at hr ⊢
  split
  · next f m h1 h2 =>
    exact memberGet_within (hr.2.2 m (List.mem_of_getElem? h2))
  · exact Within.throw

theorem AllIn.set {S : Nat → Prop} {vs : List PyVal} (h : AllIn S vs) {v : PyVal} (hv : v.In S) (i : Nat) :
    AllIn S (vs.set i v) := by
  intro u hu
  rcases List.mem_or_eq_of_mem_set hu with h' | rfl
  · exact h u h'
  · exact hv

theorem inst_parts_in {S : Nat → Prop} {cls : Nat} {params members : List PyVal} {n : Nat} {t : Int} (hp : AllIn S params)
    (hm : AllIn S members) : ∀ v ∈ (Cell.inst cls params n t members).parts, v.In S := by
  intro v hv
  rcases List.mem_append.mp hv with h | h
  · exact hp v h
  · exact hm v h

theorem setField_within {S : Nat → Prop} {classes : List Class} {o v : PyVal} {i : Nat} (ho : o.In S) (hv : v.In S) :
    Within S (setField classes o i v) fun _ _ => True := by
  unfold setField
  refine Within.bind (loadInst_within ho) fun T r hT hr => ?_
  obtain ⟨a, cls, c, params, numExt, tag, members⟩ := r
  dsimp only at hr ⊢
  split
  · refine Within.bind (memberValue_within (hv.mono hT)) fun U m hU hm => ?_
    have hp := hr.2.1.mono hU
    have hms := hr.2.2.mono hU
    have hsingle : AllIn U [m] := fun v hv => by rw [List.mem_singleton.mp hv]; exact hm
    split
    · exact Within.store (hU _ hr.1) (inst_parts_in hp (hms.set hm i)) fun _ => trivial
    · exact Within.store (hU _ hr.1) (inst_parts_in hp hsingle) fun _ => trivial
    · exact Within.store (hU _ hr.1) (inst_parts_in hp hsingle) fun _ => trivial
  · exact Within.throw

theorem resetField_within {S : Nat → Prop} {classes : List Class} {o : PyVal} {i : Nat} (ho : o.In S) :
    Within S (resetField classes o i) fun _ _ => True := by
  unfold resetField
  refine Within.bind (loadInst_within ho) fun T r hT hr => ?_
  obtain ⟨a, cls, c, params, numExt, tag, members⟩ := r
  dsimp only at hr ⊢
  split
  · split
    · exact Within.store hr.1 (inst_parts_in hr.2.1 (hr.2.2.set (v := .none) trivial i)) fun _ => trivial
    · exact Within.throw
  · exact Within.throw

theorem getParam_within {S : Nat → Prop} {classes : List Class} {o : PyVal} {i : Nat} (ho : o.In S) :
    Within S (getParam classes o i) InP := by
  unfold getParam
  refine Within.bind (loadInst_within ho) fun T r hT hr => ?_
  obtain ⟨a, cls, c, params, numExt, tag, members⟩ := r
  dsimp only at hr ⊢
  split
  · next p h => exact Within.pure fun U hU => (hr.2.1 p (List.mem_of_getElem? h)).mono hU
  · exact Within.throw

mutual
theorem readContent_within {S : Nat → Prop} : (c : Content) → Within S (readContent c) InP
  | .none => by unfold readContent; exact Within.pure fun _ _ => trivial
  | .atom v => by unfold readContent; exact Within.pure fun _ _ => trivial
  | .bytes bs => by unfold readContent; exact Within.alloc (by simp [Cell.parts])
  | .arr elements => by
    unfold readContent
    refine Within.bind (readContents_within elements) fun T vs hT hvs => ?_
    refine Within.bind (Within.alloc (c := .list vs) hvs) fun U raw hU hraw => ?_
    exact Within.alloc (by simp only [Cell.parts, List.mem_singleton, forall_eq]; exact hraw)
  | .obj cls params numExt tag fields => by
    unfold readContent
    refine Within.bind (readContents_within fields) fun T ms hT hms => Within.alloc (inst_parts_in ?_ hms)
    intro v hv
    obtain ⟨u, -, rfl⟩ := List.mem_map.mp hv
    trivial
theorem readContents_within {S : Nat → Prop} : (cs : List Content) → Within S (readContents cs) AllIn
  | [] => by unfold readContents; exact Within.pure fun T hT v hv => by simp at hv
  | c :: cs => by
    unfold readContents
    refine Within.bind (readContent_within c) fun T v hT hv => ?_
    refine Within.bind (readContents_within cs) fun U vs hU hvs => ?_
    refine Within.pure fun W hW u hu => ?_
    rcases List.mem_cons.mp hu with rfl | hu
    · exact (hv.mono hU).mono hW
    · exact (hvs u hu).mono hW
end

theorem changeBytes_within {S : Nat → Prop} {b : PyVal} {f : List UInt8 → Option (List UInt8)} (hb : b.In S) :
    Within S (changeBytes b f) fun _ _ => True := by
  unfold changeBytes
  refine Within.bind (Within.load hb) fun T r hT hr => ?_
  obtain ⟨a, cell⟩ := r
  dsimp only
  split
  · split
    · exact Within.store hr.1 (by simp [Cell.parts]) fun _ => trivial
    · exact Within.throw
  · exact Within.throw

theorem changeList_within {S : Nat → Prop} {l : PyVal} {f : List PyVal → Option (List PyVal)} (hl : l.In S)
    (hf : ∀ (T : Nat → Prop) vs vs', (∀ b, S b → T b) → AllIn T vs → f vs = some vs' → AllIn T vs') :
    Within S (changeList l f) fun _ _ => True := by
  unfold changeList
  refine Within.bind (Within.load hl) fun T r hT hr => ?_
  obtain ⟨a, cell⟩ := r
  dsimp only
  split
  · next vs =>
    split
    · next vs' h => exact Within.store (c := .list vs') hr.1 (hf T vs vs' hT hr.2 h) fun _ => trivial
    · exact Within.throw
  · exact Within.throw

theorem listItem_within {S : Nat → Prop} {l : PyVal} {i : Nat} (hl : l.In S) : Within S (listItem l i) InP := by
  unfold listItem
  refine Within.bind (Within.load hl) fun T r hT hr => ?_
  obtain ⟨a, cell⟩ := r
  dsimp only
  split
  · next vs =>
    split
    · next v h => exact Within.pure fun U hU => (hr.2 v (List.mem_of_getElem? h)).mono hU
    · exact Within.throw
  · exact Within.throw

/-! ### Classes -/

theorem forall₂_length {R : α → β → Prop} {as : List α} {bs : List β} (h : List.Forall₂ R as bs) : as.length = bs.length := by
  induction h with
  | nil => rfl
  | cons _ _ ih => simp [ih]

theorem forall₂_getElem? {R : α → β → Prop} {as : List α} {bs : List β} (h : List.Forall₂ R as bs) {i : Nat} {b : β}
    (hi : bs[i]? = some b) : ∃ a, as[i]? = some a ∧ R a b := by
  induction h generalizing i with
  | nil => simp at hi
  | cons h hs ih =>
    cases i with
    | zero =>
      simp only [List.getElem?_cons_zero, Option.some.injEq] at hi ⊢
      exact ⟨_, rfl, hi ▸ h⟩
    | succ i => simpa using ih (by simpa using hi)

theorem forall₂_getElem?_right {R : α → β → Prop} {as : List α} {bs : List β} (h : List.Forall₂ R as bs) {i : Nat} {a : α}
    (hi : as[i]? = some a) : ∃ b, bs[i]? = some b ∧ R a b := by
  induction h generalizing i with
  | nil => simp at hi
  | cons h hs ih =>
    cases i with
    | zero =>
      simp only [List.getElem?_cons_zero, Option.some.injEq] at hi ⊢
      exact ⟨_, rfl, hi ▸ h⟩
    | succ i => simpa using ih (by simpa using hi)

/-- the value of a default -/
def Evals : DefaultExpr → PyVal → Prop
  | .value u, v => v = .atom u
  | .none, v => v = .none
  | .newBytearray, v => ∃ a, v = .ref a

theorem evalDefault_ok (e : DefaultExpr) (h : Heap) : ∃ v h', evalDefault e h = (.ok v, h') ∧ Evals e v := by
  cases e with
  | value v => exact ⟨_, _, rfl, rfl⟩
  | none => exact ⟨_, _, rfl, rfl⟩
  | newBytearray => exact ⟨_, _, rfl, _, rfl⟩

theorem evalDefaults_ok (es : List DefaultExpr) (h : Heap) :
    ∃ vs h', evalDefaults es h = (.ok vs, h') ∧ List.Forall₂ Evals es vs := by
  induction es generalizing h with
  | nil => exact ⟨[], h, rfl, .nil⟩
  | cons e es ih =>
    obtain ⟨v, h1, e1, hv⟩ := evalDefault_ok e h
    obtain ⟨vs, h2, e2, hvs⟩ := ih h1
    exact ⟨v :: vs, h2, by simp only [evalDefaults, M.bind_apply, e1, e2, M.pure_apply], .cons hv hvs⟩

theorem fieldDefault_spec {f : FieldDef} {v : PyVal} (h : Evals (fieldDefault f) v) : f.Default v := by
  unfold fieldDefault at h
  unfold FieldDef.Default
  rcases hi : f.initializer with _ | u
  · rw [hi] at h
    dsimp only at h ⊢
    cases ho : f.optional <;> cases ha : f.isArray <;> rw [ho, ha] at h
    · rcases ht : f.type with z | _ | _ <;> rw [ht] at h <;> simpa [Evals] using h
    · simpa [Evals] using h
    · simpa [Evals] using h
    · simpa [Evals] using h
  · rw [hi] at h
    exact h

theorem fieldDefault_new {f : FieldDef} (h : fieldDefault f = .newBytearray) :
    f.isArray = false ∧ f.optional = false ∧ f.initializer = none ∧ f.type = .bytes := by
  unfold fieldDefault at h
  split at h
  · cases h
  · next h0 =>
    split at h
    · cases h
    · next h1 =>
      split at h
      · cases h
      · next h2 =>
        split at h
        · cases h
        · next h3 => exact ⟨by simpa using h2, by simpa using h1, h0, h3⟩
        · cases h

/-- the class behind a type, with default values which are shared only for some fields -/
structure ClassOk (d : ClassDef) (c : Class) : Prop where
  type : c.type = d
  length : c.defaults.length = d.fields.length
  shared : ∀ (i a : Nat), c.defaults[i]? = some (PyVal.ref a) → SharedDefault d i
  values : d.kind = .struct → ∀ (i : Nat) f, d.fields[i]? = some f → ∃ v, c.defaults[i]? = some v ∧ f.Default v
  none : d.kind ≠ .struct → ∀ (i : Nat), i < d.fields.length → c.defaults[i]? = some PyVal.none

theorem defineClass_ok (d : ClassDef) (h : Heap) : ∃ c h', defineClass d h = (.ok c, h') ∧ ClassOk d c := by
  obtain ⟨vs, h', e, hall⟩ := evalDefaults_ok (d.fields.map fun f => if d.kind = .struct then fieldDefault f else .none) h
  refine ⟨⟨d, vs⟩, h', by simp only [defineClass, M.bind_apply, e, M.pure_apply], rfl, by simpa using (forall₂_length hall).symm, ?_, ?_, ?_⟩
  · intro i a hi
    obtain ⟨e, h1, h2⟩ := forall₂_getElem? hall hi
    rw [List.getElem?_map] at h1
    rcases hf : d.fields[i]? with _ | f
    · rw [hf] at h1; cases h1
    · rw [hf] at h1
      simp only [Option.map_some, Option.some.injEq] at h1
      subst h1
      split at h2
      · next hk =>
        refine ⟨hk, f, hf, fieldDefault_new ?_⟩
        rcases hd : fieldDefault f with u | _ | _
        · rw [hd] at h2; cases h2
        · rw [hd] at h2; cases h2
        · rfl
      · cases h2
  · intro hk i f hf
    obtain ⟨v, h1, h2⟩ := forall₂_getElem?_right hall (i := i) (a := fieldDefault f) (by simp [List.getElem?_map, hf, hk])
    exact ⟨v, h1, fieldDefault_spec h2⟩
  · intro hk i hi
    obtain ⟨v, h1, h2⟩ := forall₂_getElem?_right hall (i := i) (a := .none)
      (by simp [List.getElem?_map, List.getElem?_eq_getElem hi, hk])
    cases h2
    exact h1

theorem defineClasses_ok (ds : List ClassDef) (h : Heap) :
    ∃ cs h', defineClasses ds h = (.ok cs, h') ∧ List.Forall₂ ClassOk ds cs := by
  induction ds generalizing h with
  | nil => exact ⟨[], h, rfl, .nil⟩
  | cons d ds ih =>
    obtain ⟨c, h1, e1, hc⟩ := defineClass_ok d h
    obtain ⟨cs, h2, e2, hcs⟩ := ih h1
    exact ⟨c :: cs, h2, by simp only [defineClasses, M.bind_apply, e1, e2, M.pure_apply], .cons hc hcs⟩

theorem imported_ok {defs : List ClassDef} {cls : Nat} {c : Class} (h : (imported defs)[cls]? = some c) :
    ∃ d, defs[cls]? = some d ∧ ClassOk d c := by
  obtain ⟨cs, h', e, hall⟩ := defineClasses_ok defs []
  rw [imported, e] at h
  simp only at h
  exact forall₂_getElem? hall h

theorem imported_of {defs : List ClassDef} {cls : Nat} {d : ClassDef} (h : defs[cls]? = some d) :
    ∃ c, (imported defs)[cls]? = some c ∧ ClassOk d c := by
  obtain ⟨cs, h', e, hall⟩ := defineClasses_ok defs []
  rw [imported, e]
  simp only
  exact forall₂_getElem?_right hall h

/-! ### Statements -/

/-- how a statement changes the state -/
structure Effect (X S : Nat → Prop) (w w' : World) : Prop where
  step : Step S w.heap w'.heap
  inside : ∀ x, X x → (w'.env x).In (Grow S w.heap w'.heap)
  outside : ∀ y, ¬X y → w'.env y = w.env y

theorem bindVar_effect {X S : Nat → Prop} {w : World} (hc : Closed S w.heap) (hX : ∀ x, X x → (w.env x).In S) {x : Nat}
    (hx : X x) {m : M Heap PyVal} (hm : Within S m InP) : Effect X S w (w.bindVar x m) := by
  obtain ⟨h1, h2⟩ := hm S w.heap (fun _ h => h) hc
  unfold World.bindVar
  rcases hr : m w.heap with ⟨r, h'⟩
  rw [hr] at h1 h2
  cases r with
  | error e => exact ⟨h1, fun y hy => (hX y hy).mono fun a ha => .inl ha, fun _ _ => rfl⟩
  | ok v =>
    refine ⟨h1, ?_, ?_⟩
    · intro y hy
      dsimp only
      split
      · exact h2 v rfl
      · exact (hX y hy).mono fun a ha => .inl ha
    · intro y hy
      dsimp only
      rw [if_neg]
      rintro rfl
      exact hy hx

theorem exec_effect {X S : Nat → Prop} {w : World} (hc : Closed S w.heap) (hX : ∀ x, X x → (w.env x).In S)
    {m : M Heap Unit} (hm : Within S m fun _ _ => True) : Effect X S w (w.exec m) := by
  obtain ⟨h1, -⟩ := hm S w.heap (fun _ h => h) hc
  exact ⟨h1, fun y hy => (hX y hy).mono fun a ha => .inl ha, fun _ _ => rfl⟩

theorem arguments_in {S : Nat → Prop} {env : Nat → PyVal} {c : Class} {args : List (Option Nat)}
    (he : ∀ i a : Nat, c.defaults[i]? = some (PyVal.ref a) → S a ∨ ∃ x, args[i]? = some (some x))
    (ha : ∀ x ∈ args.filterMap id, (env x).In S) : AllIn S (arguments c (args.map (·.map env))) := by
  intro v hv
  obtain ⟨i, hi, rfl⟩ := List.getElem_of_mem hv
  simp only [arguments, List.length_mapIdx] at hi
  simp only [arguments, List.getElem_mapIdx, List.getElem?_map]
  by_cases hgiven : ∃ x, args[i]? = some (some x)
  · obtain ⟨x, hx⟩ := hgiven
    rw [hx]
    exact ha x (List.mem_filterMap.mpr ⟨some x, List.mem_of_getElem? hx, rfl⟩)
  · have hdef : (c.defaults[i]).In S := by
      rcases hd : c.defaults[i] with _ | u | a
      · trivial
      · trivial
      · exact (he i a (by rw [List.getElem?_eq_getElem hi, hd])).resolve_right hgiven
    rcases hargs : args[i]? with _ | a
    · exact hdef
    · rcases a with _ | x
      · exact hdef
      · exact absurd ⟨x, hargs⟩ hgiven

/-- the default values of all classes are in the set -/
def DefaultsIn (S : Nat → Prop) (classes : List Class) : Prop := ∀ c ∈ classes, AllIn S c.defaults

theorem step_effect {defs : List ClassDef} {X S : Nat → Prop} {w : World} (hc : Closed S w.heap) (hX : ∀ x, X x → (w.env x).In S)
    {s : Stmt} (hv : ∀ x ∈ s.vars, X x) (he : s.Explicit defs ∨ DefaultsIn S (imported defs)) :
    Effect X S w (step (imported defs) w s) := by
  have hin : ∀ x ∈ s.vars, (w.env x).In S := fun x hx => hX x (hv x hx)
  cases s with
  | const x v =>
    have hw : Within S (pure (.atom v) : M Heap PyVal) InP := Within.pure fun _ _ => trivial
    exact bindVar_effect hc hX (hv x (by simp [Stmt.vars])) hw
  | assign x y =>
    exact bindVar_effect hc hX (hv x (by simp [Stmt.vars])) (Within.pure fun T hT => (hin y (by simp [Stmt.vars])).mono hT)
  | newBytes x bs => exact bindVar_effect hc hX (hv x (by simp [Stmt.vars])) (Within.alloc (by simp [Cell.parts]))
  | newList x ys =>
    refine bindVar_effect hc hX (hv x (by simp [Stmt.vars])) (Within.alloc ?_)
    intro v hvm
    obtain ⟨y, hy, rfl⟩ := List.mem_map.mp hvm
    exact hin y (by simp [Stmt.vars, hy])
  | construct x cls params args =>
    simp only [step]
    split
    · next c hcls =>
      obtain ⟨d, hd, hok⟩ := imported_ok hcls
      refine bindVar_effect hc hX (hv x (by simp [Stmt.vars])) (construct_within ?_ (arguments_in ?_ ?_))
      · intro v hvm
        obtain ⟨y, hy, rfl⟩ := List.mem_map.mp hvm
        exact hin y (by simp [Stmt.vars, hy])
      · intro i a hi
        rcases he with he | he
        · exact .inr (he d i hd (hok.shared i a hi))
        · exact .inl (he c (List.mem_of_getElem? hcls) _ (List.mem_of_getElem? hi))
      · intro y hy
        refine hin y ?_
        simp only [Stmt.vars, List.cons_append, List.mem_cons, List.mem_append]
        exact .inr (.inr hy)
    · exact ⟨Step.refl hc, fun y hy => (hX y hy).mono fun a ha => .inl ha, fun _ _ => rfl⟩
  | read x content => exact bindVar_effect hc hX (hv x (by simp [Stmt.vars])) (readContent_within content)
  | get x o i =>
    exact bindVar_effect hc hX (hv x (by simp [Stmt.vars])) (getField_within (hin o (by simp [Stmt.vars])))
  | set o i y => exact exec_effect hc hX (setField_within (hin o (by simp [Stmt.vars])) (hin y (by simp [Stmt.vars])))
  | reset o i => exact exec_effect hc hX (resetField_within (hin o (by simp [Stmt.vars])))
  | param x o i =>
    exact bindVar_effect hc hX (hv x (by simp [Stmt.vars])) (getParam_within (hin o (by simp [Stmt.vars])))
  | extend b bs => exact exec_effect hc hX (changeBytes_within (hin b (by simp [Stmt.vars])))
  | setByte b i byte => exact exec_effect hc hX (changeBytes_within (hin b (by simp [Stmt.vars])))
  | append l y =>
    refine exec_effect hc hX (changeList_within (hin l (by simp [Stmt.vars])) ?_)
    intro T vs vs' hT hvs hf
    cases hf
    intro v hvm
    rcases List.mem_append.mp hvm with h | h
    · exact hvs v h
    · rw [List.mem_singleton.mp h]
      exact (hin y (by simp [Stmt.vars])).mono hT
  | item x l i =>
    exact bindVar_effect hc hX (hv x (by simp [Stmt.vars])) (listItem_within (hin l (by simp [Stmt.vars])))
  | setItem l i y =>
    refine exec_effect hc hX (changeList_within (hin l (by simp [Stmt.vars])) ?_)
    intro T vs vs' hT hvs hf
    split at hf
    · cases hf
      exact hvs.set ((hin y (by simp [Stmt.vars])).mono hT) i
    · cases hf
  | delItem l i =>
    refine exec_effect hc hX (changeList_within (hin l (by simp [Stmt.vars])) ?_)
    intro T vs vs' hT hvs hf
    split at hf
    · cases hf
      exact fun v hvm => hvs v (List.mem_of_mem_eraseIdx hvm)
    · cases hf

/-! ### What is seen -/

theorem see_same {h h' : Heap} {v : PyVal} (hs : ∀ a, Reach h v a → h'[a]? = h[a]?) (path : List Nat) :
    see h' path v = see h path v := by
  have hl : ∀ v, (∀ a, Reach h v a → h'[a]? = h[a]?) → look h' v = look h v := by
    intro v hs
    cases v with
    | none => rfl
    | atom v => rfl
    | ref a => simp only [look, hs a (.here a)]
  induction path generalizing v with
  | nil => simp only [see, hl v hs]
  | cons i path ih =>
    simp only [see, hl v hs]
    rcases hlv : look h v with _ | ⟨view, parts⟩
    · rfl
    · simp only [Option.bind_some]
      rcases hp : parts[i]? with _ | u
      · rfl
      · simp only [Option.bind_some]
        refine ih fun a ha => hs a ?_
        cases v with
        | none => simp only [look, Option.some.injEq, Prod.mk.injEq] at hlv; rw [← hlv.2] at hp; cases hp
        | atom v => simp only [look, Option.some.injEq, Prod.mk.injEq] at hlv; rw [← hlv.2] at hp; cases hp
        | ref b =>
          simp only [look] at hlv
          rcases hc : h[b]? with _ | c
          · rw [hc] at hlv; cases hlv
          · rw [hc] at hlv
            simp only [Option.map_some, Option.some.injEq, Prod.mk.injEq] at hlv
            refine .part hc ?_ ha
            rw [hlv.2]
            exact List.mem_of_getElem? hp

theorem Reach.in_closed {S : Nat → Prop} {h : Heap} (hc : Closed S h) {v : PyVal} {a : Nat} (hr : Reach h v a) (hv : v.In S) :
    S a := by
  induction hr with
  | here a => exact hv
  | part h1 h2 _ ih =>
    obtain ⟨c, h3, h4⟩ := hc _ hv
    rw [h1] at h3
    cases h3
    exact ih (h4 _ h2)

/-- all objects exist -/
def World.WF (defs : List ClassDef) (w : World) : Prop :=
  Closed (· < w.heap.length) w.heap ∧ (∀ x, (w.env x).In (· < w.heap.length)) ∧
    DefaultsIn (· < w.heap.length) (imported defs)

theorem evalDefaults_within {S : Nat → Prop} (es : List DefaultExpr) : Within S (evalDefaults es) AllIn := by
  induction es generalizing S with
  | nil => exact Within.pure fun T hT v hv => by simp at hv
  | cons e es ih =>
    have he : Within S (evalDefault e) InP := by
      cases e with
      | value v => exact Within.pure fun _ _ => trivial
      | none => exact Within.pure fun _ _ => trivial
      | newBytearray => exact Within.alloc (by simp [Cell.parts])
    refine Within.bind he fun T v hT hv => ?_
    refine Within.bind ih fun U vs hU hvs => ?_
    refine Within.pure fun W hW u hu => ?_
    rcases List.mem_cons.mp hu with rfl | hu
    · exact (hv.mono hU).mono hW
    · exact (hvs u hu).mono hW

theorem defineClasses_within {S : Nat → Prop} (ds : List ClassDef) : Within S (defineClasses ds) DefaultsIn := by
  induction ds generalizing S with
  | nil => exact Within.pure fun T hT v hv => by simp at hv
  | cons d ds ih =>
    have he : Within S (defineClass d) fun T c => AllIn T c.defaults :=
      Within.bind (evalDefaults_within _) fun T vs hT hvs => Within.pure fun U hU => hvs.mono hU
    refine Within.bind he fun T v hT hv => ?_
    refine Within.bind ih fun U vs hU hvs => ?_
    refine Within.pure fun W hW u hu => ?_
    rcases List.mem_cons.mp hu with rfl | hu
    · exact (hv.mono hU).mono hW
    · exact (hvs u hu).mono hW

theorem start_wf (defs : List ClassDef) : (start defs).WF defs := by
  obtain ⟨h1, h2⟩ := defineClasses_within (S := fun _ => False) defs (fun _ => False) [] (fun _ h => h) (fun a h => h.elim)
  obtain ⟨cs, h', e, -⟩ := defineClasses_ok defs []
  have hg : Grow (fun _ => False) [] h' = (· < h'.length) := by
    funext a
    simp [Grow]
  have hstart : start defs = ⟨h', fun _ => .none⟩ := by simp [start, e]
  have himp : imported defs = cs := by simp [imported, e]
  rw [e] at h1 h2
  refine ⟨?_, ?_, ?_⟩
  · have := h1.closed
    rw [hg] at this
    rw [hstart]
    exact this
  · intro x
    rw [hstart]
    trivial
  · have := h2 cs rfl
    rw [hg] at this
    rw [hstart, himp]
    exact this

theorem step_wf {defs : List ClassDef} {w : World} (hw : w.WF defs) (s : Stmt) : (step (imported defs) w s).WF defs := by
  obtain ⟨h1, h2, h3⟩ := hw
  have he := step_effect (X := fun _ => True) h1 (fun x _ => h2 x) (s := s) (fun _ _ => trivial) (.inr h3)
  have hl := he.step.length
  have hg : Grow (· < w.heap.length) w.heap (step (imported defs) w s).heap = (· < (step (imported defs) w s).heap.length) := by
    funext a
    apply propext
    simp only [Grow]
    omega
  refine ⟨?_, ?_, ?_⟩
  · have := he.step.closed
    rwa [hg] at this
  · intro x
    have := he.inside x trivial
    rwa [hg] at this
  · intro c hc
    exact (h3 c hc).mono fun a ha => by omega

theorem run_append (classes : List Class) (w : World) (p q : List Stmt) :
    run classes w (p ++ q) = run classes (run classes w p) q := by
  simp [run, List.foldl_append]

theorem run_wf {defs : List ClassDef} {w : World} (hw : w.WF defs) (p : List Stmt) : (run (imported defs) w p).WF defs := by
  induction p generalizing w with
  | nil => exact hw
  | cons s p ih => exact ih (step_wf hw s)

/-- the objects reached from the variables in a set -/
def Reached (X : Nat → Prop) (w : World) : Nat → Prop := fun a => ∃ x, X x ∧ Reach w.heap (w.env x) a

theorem Reach.trans {h : Heap} {v : PyVal} {a b : Nat} (h1 : Reach h v a) (h2 : Reach h (.ref a) b) : Reach h v b := by
  induction h1 with
  | here a => exact h2
  | part g1 g2 _ ih => exact .part g1 g2 (ih h2)

theorem Reached.closed {defs : List ClassDef} {X : Nat → Prop} {w : World} (hw : w.WF defs) : Closed (Reached X w) w.heap := by
  rintro a ⟨x, hx, hr⟩
  have ha : a < w.heap.length := hr.in_closed hw.1 (hw.2.1 x)
  refine ⟨w.heap[a], List.getElem?_eq_getElem ha, ?_⟩
  intro v hv
  cases v with
  | none => trivial
  | atom v => trivial
  | ref b => exact ⟨x, hx, hr.trans (.part (List.getElem?_eq_getElem ha) hv (.here b))⟩

theorem Reached.inside {X : Nat → Prop} {w : World} (x : Nat) (hx : X x) : (w.env x).In (Reached X w) := by
  rcases hv : w.env x with _ | v | a
  · trivial
  · trivial
  · exact ⟨x, hx, by rw [hv]; exact .here a⟩

theorem Reach.congr {h h' : Heap} {v : PyVal} (hs : ∀ a, Reach h v a → h'[a]? = h[a]?) {a : Nat} (hr : Reach h' v a) :
    Reach h v a := by
  induction hr with
  | here a => exact .here a
  | part h1 h2 _ ih =>
    rw [hs _ (.here _)] at h1
    exact .part h1 h2 (ih fun b hb => hs b (.part h1 h2 hb))

/-- a statement which uses variables of one side only: what the other side sees and reaches stays the same, and no side reaches
objects of the other -/
theorem step_separate {defs : List ClassDef} {X : Nat → Prop} {w : World} (hw : w.WF defs) (hsep : Separate X w) {s : Stmt}
    (hv : ∀ x ∈ s.vars, X x) (he : s.Explicit defs) :
    Separate X (step (imported defs) w s) ∧
      ∀ y, ¬X y → (step (imported defs) w s).env y = w.env y ∧
        ∀ a, Reach w.heap (w.env y) a → (step (imported defs) w s).heap[a]? = w.heap[a]? := by
  have hEff := step_effect (Reached.closed hw) Reached.inside hv (.inl he)
  have hsame : ∀ y, ¬X y → (step (imported defs) w s).env y = w.env y ∧
      ∀ a, Reach w.heap (w.env y) a → (step (imported defs) w s).heap[a]? = w.heap[a]? := by
    intro y hy
    refine ⟨hEff.outside y hy, ?_⟩
    intro a ha
    refine hEff.step.same a (ha.in_closed hw.1 (hw.2.1 y)) ?_
    rintro ⟨x, hx, hr⟩
    exact hsep x y a hx hy hr ha
  refine ⟨?_, hsame⟩
  intro x y a hx hy hrx hry
  obtain ⟨h1, h2⟩ := hsame y hy
  rw [h1] at hry
  have hra := hry.congr h2
  have hin : Grow (Reached X w) w.heap (step (imported defs) w s).heap a := hrx.in_closed hEff.step.closed (hEff.inside x hx)
  rcases hin with ⟨x', hx', hr'⟩ | hge
  · exact hsep x' y a hx' hy hr' hra
  · have hlt : a < w.heap.length := hra.in_closed hw.1 (hw.2.1 y)
    omega

theorem Separate.compl {X : Nat → Prop} {w : World} (h : Separate X w) : Separate (fun x => ¬X x) w := by
  intro x y a hx hy h1 h2
  exact h y x a (Classical.not_not.mp hy) hx h2 h1

theorem run_separate {defs : List ClassDef} {X : Nat → Prop} {w : World} (hw : w.WF defs) (hsep : Separate X w) {p : List Stmt}
    (hv : ∀ s ∈ p, ∀ x ∈ s.vars, X x) (he : ∀ s ∈ p, s.Explicit defs) :
    Separate X (run (imported defs) w p) ∧
      ∀ y, ¬X y → ∀ path, see (run (imported defs) w p).heap path ((run (imported defs) w p).env y) = see w.heap path (w.env y) := by
  induction p generalizing w with
  | nil => exact ⟨hsep, fun _ _ _ => rfl⟩
  | cons s p ih =>
    obtain ⟨h1, h2⟩ := step_separate hw hsep (hv s (by simp)) (he s (by simp))
    obtain ⟨g1, g2⟩ := ih (step_wf hw s) h1 (fun t ht => hv t (by simp [ht])) (fun t ht => he t (by simp [ht]))
    refine ⟨g1, fun y hy path => ?_⟩
    obtain ⟨e1, e2⟩ := h2 y hy
    have h3 := g2 y hy path
    rw [e1] at h3
    exact h3.trans (see_same e2 path)

end Zserio.Objects
