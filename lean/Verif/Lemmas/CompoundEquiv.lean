import Verif.Lemmas.CompoundEq
set_option linter.unusedSimpArgs false
/-
`==` of generated objects is an equivalence.
-/
namespace Zserio

theorem pyFloatEq_refl {a : PyFloat} (h : a.toNat % 2 ^ 63 ≤ 0x7FF0000000000000) : pyFloatEq a a = true := by
  unfold pyFloatEq
  simp only
  rw [if_neg (by omega)]
  split <;> simp

theorem pyFloatEq_symm {a b : PyFloat} (h : pyFloatEq a b = true) : pyFloatEq b a = true := by
  unfold pyFloatEq at h ⊢
  simp only at h ⊢
  split at h
  · simp at h
  · rw [if_neg (by omega)]
    split at h
    · rw [if_pos (by omega)]
    · rw [if_neg (by omega)]
      simpa using (by simpa using h : a = b).symm

theorem pyFloatEq_trans {a b c : PyFloat} (h : pyFloatEq a b = true) (h' : pyFloatEq b c = true) : pyFloatEq a c = true := by
  unfold pyFloatEq at h h' ⊢
  simp only at h h' ⊢
  split at h
  · simp at h
  · split at h'
    · simp at h'
    · rw [if_neg (by omega)]
      split at h
      · split at h'
        · rw [if_pos (by omega)]
        · obtain rfl : b = c := by simpa using h'
          rw [if_pos (by omega)]
      · obtain rfl : a = b := by simpa using h
        split at h'
        · omega
        · split <;> simpa using h'

theorem noNaN_list {vs : List Val} (h : ∀ x ∈ Val.floatsList vs, x.toNat % 2 ^ 63 ≤ 0x7FF0000000000000) :
    ∀ v ∈ vs, v.NoNaN := by
  induction vs with
  | nil => simp
  | cons v vs ih =>
    simp only [Val.floatsList, List.mem_append] at h
    intro u hu
    rcases List.mem_cons.1 hu with rfl | hu
    · exact fun x hx => h x (.inl hx)
    · exact ih (fun x hx => h x (.inr hx)) u hu

theorem Val.NoNaN.arr {xs : List Val} (h : (Val.arr xs).NoNaN) : ∀ v ∈ xs, v.NoNaN :=
  noNaN_list (by simpa [Val.NoNaN, Val.floats] using h)

theorem Val.NoNaN.obj {ps : List Int} {k : Nat} {tag : Int} {vs : List Val} (h : (Val.obj ps k tag vs).NoNaN) : ∀ v ∈ vs, v.NoNaN :=
  noNaN_list (by simpa [Val.NoNaN, Val.floats] using h)

/-- a relation of values given by a comparison is reflexive where it does not raise and no NaN is involved -/
def ReflAt (eq : Val → Val → Except Err Bool) (v : Val) : Prop := v.NoNaN → ∀ b, eq v v = .ok b → b = true

/-- a comparison is symmetric and transitive -/
def SymmTrans {α : Type} (eq : α → α → Except Err Bool) : Prop :=
  (∀ v u, eq v u = .ok true → eq u v = .ok true) ∧ (∀ v u w, eq v u = .ok true → eq u w = .ok true → eq v w = .ok true)

theorem eqOrNone_value {v u : Val} {f : Val → Val → Except Err Bool} (h1 : v ≠ .none) (h2 : v ≠ .unset) (h3 : u ≠ .none)
    (h4 : u ≠ .unset) : v.eqOrNone u f = f v u := by
  unfold Val.eqOrNone
  cases v <;> cases u <;> simp_all

theorem reflAt_eqOrNone {f : Val → Val → Except Err Bool} {v : Val} (h : ReflAt f v) : ReflAt (fun v u => v.eqOrNone u f) v := by
  intro n b hb
  simp only at hb
  by_cases h1 : v = .none
  · subst h1; simpa [Val.eqOrNone] using hb.symm
  · by_cases h2 : v = .unset
    · subst h2; simp [Val.eqOrNone] at hb
    · rw [eqOrNone_value h1 h2 h1 h2] at hb
      exact h n b hb

theorem symmTrans_eqOrNone {f : Val → Val → Except Err Bool} (h : SymmTrans f) : SymmTrans (fun v u : Val => v.eqOrNone u f) := by
  refine ⟨fun v u hvu => ?_, fun v u w hvu huw => ?_⟩
  · rcases eqOrNone_true hvu with ⟨rfl, rfl⟩ | ⟨h1, h2, h3, h4, h5⟩
    · rfl
    · simp only [eqOrNone_value h3 h4 h1 h2]; exact h.1 _ _ h5
  · rcases eqOrNone_true hvu with ⟨rfl, rfl⟩ | ⟨h1, h2, h3, h4, h5⟩
    · exact huw
    · rcases eqOrNone_true huw with ⟨rfl, rfl⟩ | ⟨-, -, h8, h9, h10⟩
      · exact absurd rfl h3
      · simp only [eqOrNone_value h1 h2 h8 h9]; exact h.2 _ _ _ h5 h10

theorem bitBuffer_refl {a : BitBuffer} (ha : a.Constructed) : BitBuffer.eq a a = .ok true := C17_equivalence.1 a ha

theorem Builtin.eq_refl (b : Builtin) {v : Val} (n : v.NoNaN) {x : b.Elem} (hx : b.proj v = .ok x) : b.eqElem x x = .ok true := by
  cases b
  case bitBuffer => exact bitBuffer_refl (constructed_of_proj hx)
  case float16 | float32 | float64 =>
    all_goals
      cases v <;> simp [Builtin.proj] at hx
      obtain rfl := Except.ok.inj hx
      simp only [Builtin.eqElem]
      rw [pyFloatEq_refl (n _ (by simp [Val.floats]))]
  all_goals (simp [Builtin.eqElem, same]; rfl)

theorem Builtin.eq_symm (b : Builtin) {v u : Val} {x y : b.Elem} (hx : b.proj v = .ok x) (hy : b.proj u = .ok y)
    (h : b.eqElem x y = .ok true) : b.eqElem y x = .ok true := by
  cases b
  case bitBuffer => exact C17_equivalence.2.1 _ _ (constructed_of_proj hx) (constructed_of_proj hy) h
  case float16 | float32 | float64 =>
    all_goals
      simp only [Builtin.eqElem, Except.ok.injEq] at h ⊢
      exact pyFloatEq_symm h
  all_goals
    simp only [Builtin.eqElem, same, Except.ok.injEq, decide_eq_true_eq] at h ⊢
    exact h.symm

theorem Builtin.eq_trans (b : Builtin) {v u w : Val} {x y z : b.Elem} (hx : b.proj v = .ok x) (hy : b.proj u = .ok y)
    (hz : b.proj w = .ok z) (h : b.eqElem x y = .ok true) (h' : b.eqElem y z = .ok true) : b.eqElem x z = .ok true := by
  cases b
  case bitBuffer =>
    exact C17_equivalence.2.2 _ _ _ (constructed_of_proj hx) (constructed_of_proj hy) (constructed_of_proj hz) h h'
  case float16 | float32 | float64 =>
    all_goals
      simp only [Builtin.eqElem, Except.ok.injEq] at h h' ⊢
      exact pyFloatEq_trans h h'
  all_goals
    simp only [Builtin.eqElem, same, Except.ok.injEq, decide_eq_true_eq] at h h' ⊢
    exact h.trans h'

/-- comparing by a projection -/
theorem symmTrans_bind {α : Type} {p : Val → Except Err α} {e : α → α → Except Err Bool}
    (hs : ∀ v u x y, p v = .ok x → p u = .ok y → e x y = .ok true → e y x = .ok true)
    (ht : ∀ v u w x y z, p v = .ok x → p u = .ok y → p w = .ok z → e x y = .ok true → e y z = .ok true → e x z = .ok true) :
    SymmTrans (fun v u => do let x ← p v; let y ← p u; e x y) := by
  refine ⟨fun v u h => ?_, fun v u w h h' => ?_⟩
  · obtain ⟨x, hx, h⟩ := except_bind_ok h
    obtain ⟨y, hy, h⟩ := except_bind_ok h
    simp only [hx, hy, ok_bind]
    exact hs v u x y hx hy h
  · obtain ⟨x, hx, h⟩ := except_bind_ok h
    obtain ⟨y, hy, h⟩ := except_bind_ok h
    obtain ⟨y', hy', h'⟩ := except_bind_ok h'
    obtain ⟨z, hz, h'⟩ := except_bind_ok h'
    obtain rfl := Except.ok.inj (hy.symm.trans hy')
    simp only [hx, hz, ok_bind]
    exact ht v u w x y z hx hy hz h h'

theorem symmTrans_int : SymmTrans (fun v u : Val => do let x ← v.asInt; let y ← u.asInt; Except.ok (decide (x = y))) :=
  symmTrans_bind (fun _ _ x y _ _ h => by simp only [Except.ok.injEq, decide_eq_true_eq] at h ⊢; exact h.symm)
    (fun _ _ _ x y z _ _ _ h h' => by simp only [Except.ok.injEq, decide_eq_true_eq] at h h' ⊢; exact h.trans h')

variable {cs : Nat → EqHash}

theorem ElemType.symmTrans (hc : ∀ id, SymmTrans (cs id).eq) (t : ElemType) : SymmTrans (t.eq cs) := by
  refine symmTrans_eqOrNone ?_
  cases t with
  | int k | dynBits _ _ | enum e | bitmask k => exact symmTrans_int
  | other b =>
    exact symmTrans_bind (fun _ _ _ _ hx hy h => b.eq_symm hx hy h) (fun _ _ _ _ _ _ hx hy hz h h' => b.eq_trans hx hy hz h h')
  | compound id args => exact hc id

theorem reflAt_int (v : Val) : ReflAt (fun v u : Val => do let x ← v.asInt; let y ← u.asInt; Except.ok (decide (x = y))) v := by
  intro _ b hb
  obtain ⟨x, hx, hb⟩ := except_bind_ok hb
  obtain ⟨y, hy, hb⟩ := except_bind_ok hb
  obtain rfl := Except.ok.inj (hx.symm.trans hy)
  simpa using hb.symm

theorem ElemType.refl (hc : ∀ id v, ReflAt (cs id).eq v) (t : ElemType) (v : Val) : ReflAt (t.eq cs) v := by
  refine reflAt_eqOrNone ?_
  cases t with
  | int k | dynBits _ _ | enum e | bitmask k => exact reflAt_int v
  | other b =>
    intro n c hb
    obtain ⟨x, hx, hb⟩ := except_bind_ok hb
    obtain ⟨y, hy, hb⟩ := except_bind_ok hb
    obtain rfl := Except.ok.inj (hx.symm.trans hy)
    rw [b.eq_refl n hx] at hb
    exact (Except.ok.inj hb).symm
  | compound id args => exact hc id v

theorem eqList_refl {eq : Val → Val → Except Err Bool} : ∀ {xs : List Val}, (∀ x ∈ xs, ReflAt eq x) → (∀ x ∈ xs, x.NoNaN) →
    ∀ b, eqList eq xs xs = .ok b → b = true
  | [], _, _, b, hb => by simpa [eqList] using hb.symm
  | x :: xs, hr, hn, b, hb => by
    simp only [eqList] at hb
    obtain ⟨c, hc, hb⟩ := except_bind_ok hb
    obtain rfl := hr x (by simp) (hn x (by simp)) c hc
    exact eqList_refl (fun x hx => hr x (by simp [hx])) (fun x hx => hn x (by simp [hx])) b hb

theorem eqList_symm {eq : Val → Val → Except Err Bool} (h : SymmTrans eq) : ∀ {xs ys : List Val}, xs.length = ys.length →
    eqList eq xs ys = .ok true → eqList eq ys xs = .ok true
  | [], [], _, _ => rfl
  | [], _ :: _, hl, _ => by simp at hl
  | _ :: _, [], hl, _ => by simp at hl
  | x :: xs, y :: ys, hl, he => by
    simp only [eqList] at he ⊢
    obtain ⟨c, hc, he⟩ := except_bind_ok he
    cases c with
    | false => simp at he
    | true =>
      rw [h.1 _ _ hc]
      exact eqList_symm h (by simpa using hl) he

theorem eqList_trans {eq : Val → Val → Except Err Bool} (h : SymmTrans eq) : ∀ {xs ys zs : List Val}, xs.length = ys.length →
    ys.length = zs.length → eqList eq xs ys = .ok true → eqList eq ys zs = .ok true → eqList eq xs zs = .ok true
  | [], [], [], _, _, _, _ => rfl
  | [], _ :: _, _, hl, _, _, _ => by simp at hl
  | _ :: _, [], _, hl, _, _, _ => by simp at hl
  | _, [], _ :: _, _, hl, _, _ => by simp at hl
  | _, _ :: _, [], _, hl, _, _ => by simp at hl
  | x :: xs, y :: ys, z :: zs, hl, hl', he, he' => by
    simp only [eqList] at he he' ⊢
    obtain ⟨c, hc, he⟩ := except_bind_ok he
    obtain ⟨d, hd, he'⟩ := except_bind_ok he'
    cases c with
    | false => simp at he
    | true =>
      cases d with
      | false => simp at he'
      | true =>
        rw [h.2 _ _ _ hc hd]
        exact eqList_trans h (by simpa using hl) (by simpa using hl') he he'

/-- Python `==` of two lists -/
theorem symmTrans_list {eq : Val → Val → Except Err Bool} (h : SymmTrans eq) :
    SymmTrans (fun v u : Val => do
      let xs ← v.asArr
      let ys ← u.asArr
      if xs.length = ys.length then eqList eq xs ys else .ok false) := by
  have key : ∀ xs ys : List Val, (if xs.length = ys.length then eqList eq xs ys else .ok false) = .ok true →
      xs.length = ys.length ∧ eqList eq xs ys = .ok true := by
    intro xs ys h
    by_cases hl : xs.length = ys.length
    · rw [if_pos hl] at h; exact ⟨hl, h⟩
    · rw [if_neg hl] at h; simp at h
  refine symmTrans_bind (p := Val.asArr) ?_ ?_
  · intro _ _ xs ys _ _ he
    obtain ⟨hl, he⟩ := key xs ys he
    rw [if_pos hl.symm]
    exact eqList_symm h hl he
  · intro _ _ _ xs ys zs _ _ _ he he'
    obtain ⟨hl, he⟩ := key xs ys he
    obtain ⟨hl', he'⟩ := key ys zs he'
    rw [if_pos (hl.trans hl')]
    exact eqList_trans h hl hl' he he'

namespace FieldDef

theorem eqValue_symmTrans (hc : ∀ id, SymmTrans (cs id).eq) (f : FieldDef) : SymmTrans (f.eqValue cs) := by
  unfold eqValue
  rcases f.array with _ | a
  · exact f.type.symmTrans hc
  · exact symmTrans_eqOrNone (symmTrans_list (f.type.symmTrans hc))

theorem eqValue_refl (hc : ∀ id v, ReflAt (cs id).eq v) (f : FieldDef) (v : Val) : ReflAt (f.eqValue cs) v := by
  unfold eqValue
  rcases f.array with _ | a
  · exact f.type.refl hc v
  · refine reflAt_eqOrNone ?_
    intro n b hb
    obtain ⟨xs, hx, h1⟩ := except_bind_ok hb
    obtain ⟨ys, hy, h2⟩ := except_bind_ok h1
    clear hb h1
    obtain rfl := Except.ok.inj (hx.symm.trans hy)
    rw [if_pos rfl] at h2
    obtain rfl : v = .arr xs := by cases v <;> simp [Val.asArr] at hx; rw [hx]
    exact eqList_refl (fun x _ => f.type.refl hc x) n.arr b h2

theorem eqValue_none (f : FieldDef) {v u : Val} (h : f.eqValue cs v u = .ok true) : v.isNone = u.isNone := by
  have key : ∀ g, v.eqOrNone u g = .ok true → v.isNone = u.isNone := by
    intro g hg
    rcases eqOrNone_true hg with ⟨rfl, rfl⟩ | ⟨h1, _, h3, _⟩
    · rfl
    · cases v <;> cases u <;> simp_all [Val.isNone]
  unfold eqValue at h
  split at h
  · exact key _ h
  · exact key _ h

/-- what it means that two fields compare equal -/
theorem eqOptional_true (f : FieldDef) {env env' : Env} {v u : Val} (hst : ∀ e, f.optional = .clause e → e env = e env') :
    f.eqOptional cs env env' v u = .ok true ↔
      ∃ b, f.isUsed env v = .ok b ∧ f.isUsed env' u = .ok b ∧ (b = true → f.eqValue cs v u = .ok true) := by
  have hreq : f.optional = .required → ∀ env v, f.isUsed env v = .ok true := by
    intro h env v; unfold isUsed; rw [h]
  have hgen : f.optional ≠ .required → f.eqOptional cs env env' v u = (do
      let used ← f.isUsed env v
      if used then f.eqValue cs v u
      else do
        let otherUsed ← f.isUsed env' u
        .ok (!otherUsed)) := by
    intro h; unfold eqOptional; rcases ho : f.optional with _ | _ | e
    · exact absurd ho h
    · rfl
    · rfl
  by_cases ho : f.optional = .required
  · rw [hreq ho, hreq ho]
    have : f.eqOptional cs env env' v u = f.eqValue cs v u := by unfold eqOptional; rw [ho]
    rw [this]
    constructor
    · intro h; exact ⟨true, rfl, rfl, fun _ => h⟩
    · rintro ⟨b, hb, -, h⟩
      exact h (Except.ok.inj hb).symm
  · rw [hgen ho]
    constructor
    · intro h
      obtain ⟨b, hb, h⟩ := except_bind_ok h
      refine ⟨b, hb, ?_, ?_⟩
      · cases b with
        | true =>
          simp only [if_true] at h
          rcases hopt : f.optional with _ | _ | e
          · exact absurd hopt ho
          · unfold isUsed at hb ⊢
            rw [hopt] at hb ⊢
            rw [← hb]
            simp only [Except.ok.injEq]
            rw [f.eqValue_none h]
          · unfold isUsed at hb ⊢
            rw [hopt] at hb ⊢
            simp only at hb ⊢
            rw [← hst e hopt]; exact hb
        | false =>
          simp only [Bool.false_eq_true, if_false] at h
          obtain ⟨c, hc, h⟩ := except_bind_ok h
          rw [hc]
          cases c
          · rfl
          · simp at h
      · rintro rfl
        simpa using h
    · rintro ⟨b, hb, hb', h⟩
      rw [hb, ok_bind]
      cases b with
      | true => simpa using h rfl
      | false => simp [hb']; rfl

/-- what it means that two fields, possibly extended, compare equal -/
theorem eq_true (f : FieldDef) {env env' : Env} {p p' : Bool} {v u : Val} (hst : ∀ e, f.optional = .clause e → e env = e env') :
    f.eq cs env env' p p' v u = .ok true ↔
      (f.extended = true → p = p') ∧ ((f.extended = true → p = true) →
        ∃ b, f.isUsed env v = .ok b ∧ f.isUsed env' u = .ok b ∧ (b = true → f.eqValue cs v u = .ok true)) := by
  rw [← f.eqOptional_true hst]
  unfold FieldDef.eq
  cases f.extended <;> cases p <;> cases p' <;> simp

end FieldDef

namespace Struct

theorem eq_refl_fields (hc : ∀ id v, ReflAt (cs id).eq v) (params : List Int) (k base : Nat) :
    ∀ (fs : List FieldDef) (pv vs : List Val), (∀ v ∈ vs, v.NoNaN) → ∀ b, eq cs params k k base fs pv pv vs vs = .ok b → b = true
  | [], _, [], _, b, h => by simpa [eq] using h.symm
  | [], _, _ :: _, _, _, h => by simp [eq] at h
  | _ :: _, _, [], _, _, h => by simp [eq] at h
  | f :: fs, pv, v :: vs, hn, b, h => by
    simp only [eq] at h
    obtain ⟨c, hc', h⟩ := except_bind_ok h
    have key : ∀ env, ∀ c, f.eqOptional cs env env v v = .ok c → c = true := by
      intro env c h
      unfold FieldDef.eqOptional at h
      rcases ho : f.optional with _ | _ | e
      · rw [ho] at h; exact f.eqValue_refl hc v (hn v (by simp)) c h
      all_goals
        rw [ho] at h
        simp only at h
        obtain ⟨d, hd, h⟩ := except_bind_ok h
        cases d with
        | true => exact f.eqValue_refl hc v (hn v (by simp)) c h
        | false =>
          simp only [hd, Bool.false_eq_true, if_false, ok_bind] at h
          simpa using h.symm
    have hct : c = true := by
      unfold FieldDef.eq at hc'
      split at hc'
      · split at hc'
        · exact key _ c hc'
        · rename_i hp
          simp only [Except.ok.injEq] at hc'
          rw [← hc']; simpa using hp
      · exact key _ c hc'
    subst hct
    exact eq_refl_fields hc params k base fs _ vs (fun x hx => hn x (by simp [hx])) b h

/-- symmetry and transitivity; `done` are the fields that have been compared -/
theorem eq_symm_fields (hc : ∀ id, SymmTrans (cs id).eq) (params : List Int) (k l base : Nat) (all : List FieldDef)
    (hst : ∀ i f e, all[i]? = some f → f.optional = .clause e → ∀ k l vs us,
      eq cs params k l base (all.take i) [] [] vs us = .ok true → e ⟨params, vs, 0⟩ = e ⟨params, us, 0⟩) :
    ∀ (fs done : List FieldDef), all = done ++ fs → ∀ (pv pu vs us : List Val),
      eq cs params k l base done [] [] pv pu = .ok true → eq cs params k l base fs pv pu vs us = .ok true →
      eq cs params l k base fs pu pv us vs = .ok true
  | [], _, _, _, _, [], [], _, _ => rfl
  | [], _, _, _, _, [], _ :: _, _, h => by simp [eq] at h
  | [], _, _, _, _, _ :: _, _, _, h => by simp [eq] at h
  | _ :: _, _, _, _, _, [], _, _, h => by simp [eq] at h
  | _ :: _, _, _, _, _, _ :: _, [], _, h => by simp [eq] at h
  | f :: fs, done, hall, pv, pu, v :: vs, u :: us, hd, h => by
    simp only [eq] at h ⊢
    obtain ⟨b, hb, h⟩ := except_bind_ok h
    cases b with
    | false => simp at h
    | true =>
      simp only [if_true] at h
      have hcl : ∀ e, f.optional = .clause e → e ⟨params, pv, 0⟩ = e ⟨params, pu, 0⟩ := by
        intro e he
        refine hst done.length f e ?_ he k l pv pu ?_
        · rw [hall]; simp
        · rw [hall]; simpa using hd
      have hf : f.eq cs ⟨params, pu, 0⟩ ⟨params, pv, 0⟩ (isPresent l base pu.length) (isPresent k base pv.length) u v = .ok true := by
        rw [f.eq_true hcl] at hb
        rw [f.eq_true (fun e he => (hcl e he).symm)]
        refine ⟨fun he => (hb.1 he).symm, fun he => ?_⟩
        obtain ⟨b, h1, h2, h3⟩ := hb.2 (fun hx => (hb.1 hx).trans (he hx))
        exact ⟨b, h2, h1, fun hbt => (f.eqValue_symmTrans hc).1 _ _ (h3 hbt)⟩
      rw [hf]
      refine eq_symm_fields hc params k l base all hst fs (done ++ [f]) (by rw [hall]; simp) _ _ vs us ?_ h
      exact eq_snoc params k l base f v u done [] [] pv pu hd (by simpa using hb)

theorem eq_trans_fields (hc : ∀ id, SymmTrans (cs id).eq) (params : List Int) (k l m base : Nat) (all : List FieldDef)
    (hst : ∀ i f e, all[i]? = some f → f.optional = .clause e → ∀ k l vs us,
      eq cs params k l base (all.take i) [] [] vs us = .ok true → e ⟨params, vs, 0⟩ = e ⟨params, us, 0⟩) :
    ∀ (fs done : List FieldDef), all = done ++ fs → ∀ (pv pu pw vs us ws : List Val),
      eq cs params k l base done [] [] pv pu = .ok true → eq cs params l m base done [] [] pu pw = .ok true →
      eq cs params k l base fs pv pu vs us = .ok true → eq cs params l m base fs pu pw us ws = .ok true →
      eq cs params k m base fs pv pw vs ws = .ok true
  | [], _, _, _, _, _, [], [], [], _, _, _, _ => rfl
  | [], _, _, _, _, _, [], _ :: _, _, _, _, h, _ => by simp [eq] at h
  | [], _, _, _, _, _, _ :: _, _, _, _, _, h, _ => by simp [eq] at h
  | [], _, _, _, _, _, _, [], _ :: _, _, _, _, h => by simp [eq] at h
  | _ :: _, _, _, _, _, _, [], _, _, _, _, h, _ => by simp [eq] at h
  | _ :: _, _, _, _, _, _, _ :: _, [], _, _, _, h, _ => by simp [eq] at h
  | _ :: _, _, _, _, _, _, _, _ :: _, [], _, _, _, h => by simp [eq] at h
  | f :: fs, done, hall, pv, pu, pw, v :: vs, u :: us, w :: ws, hd, hd', h, h' => by
    simp only [eq] at h h' ⊢
    obtain ⟨b, hb, h⟩ := except_bind_ok h
    obtain ⟨b', hb', h'⟩ := except_bind_ok h'
    cases b with
    | false => simp at h
    | true =>
      cases b' with
      | false => simp at h'
      | true =>
        simp only [if_true] at h h'
        have hi : all[done.length]? = some f := by rw [hall]; simp
        have ht : all.take done.length = done := by rw [hall]; simp
        have hcl : ∀ e, f.optional = .clause e → e ⟨params, pv, 0⟩ = e ⟨params, pu, 0⟩ :=
          fun e he => hst done.length f e hi he k l pv pu (by rw [ht]; exact hd)
        have hcl' : ∀ e, f.optional = .clause e → e ⟨params, pu, 0⟩ = e ⟨params, pw, 0⟩ :=
          fun e he => hst done.length f e hi he l m pu pw (by rw [ht]; exact hd')
        have hf : f.eq cs ⟨params, pv, 0⟩ ⟨params, pw, 0⟩ (isPresent k base pv.length) (isPresent m base pw.length) v w = .ok true := by
          have hb1 := (f.eq_true hcl).1 hb
          have hb2 := (f.eq_true hcl').1 hb'
          rw [f.eq_true (fun e he => (hcl e he).trans (hcl' e he))]
          refine ⟨fun he => (hb1.1 he).trans (hb2.1 he), fun he => ?_⟩
          obtain ⟨b, h1, h2, h3⟩ := hb1.2 he
          obtain ⟨b', h1', h2', h3'⟩ := hb2.2 (fun hx => (hb1.1 hx).symm.trans (he hx))
          obtain rfl := Except.ok.inj (h2.symm.trans h1')
          exact ⟨b, h1, h2', fun hbt => (f.eqValue_symmTrans hc).2 _ _ _ (h3 hbt) (h3' hbt)⟩
        rw [hf]
        refine eq_trans_fields hc params k l m base all hst fs (done ++ [f]) (by rw [hall]; simp) _ _ _ vs us ws ?_ ?_ h h'
        · exact eq_snoc params k l base f v u done [] [] pv pu hd (by simpa using hb)
        · exact eq_snoc params l m base f u w done [] [] pu pw hd' (by simpa using hb')

end Struct

/-- the comparison of the value of a choice without a field -/
def dynValue (v u : Val) : Except Err Bool := match v, u with
  | .int x, .int y => .ok (decide (x = y))
  | .bool x, .bool y => .ok (decide (x = y))
  | .float x, .float y => .ok (pyFloatEq x y)
  | .str x, .str y => .ok (decide (x = y))
  | .bytes x, .bytes y => .ok (decide (x = y))
  | .bitBuffer x, .bitBuffer y => Builtin.bitBuffer.proj (.bitBuffer x) >>= fun _ => Builtin.bitBuffer.proj (.bitBuffer y) >>= fun _ =>
    BitBuffer.eq x y
  | _, _ => .error .type

theorem proj_bitBuffer {x y : BitBuffer} (h : Builtin.bitBuffer.proj (.bitBuffer x) = .ok y) : x = y := by
  simp only [Builtin.proj] at h
  split at h
  · exact Except.ok.inj h
  · cases h

theorem dynEq_symmTrans : SymmTrans Val.dynEq := by
  refine symmTrans_eqOrNone (f := dynValue) ⟨fun v u h => ?_, fun v u w h h' => ?_⟩
  · cases v <;> cases u <;> simp only [dynValue, reduceCtorEq, Except.ok.injEq, decide_eq_true_eq] at h ⊢
    case bitBuffer.bitBuffer x y =>
      obtain ⟨x', hx, h⟩ := except_bind_ok h
      obtain ⟨y', hy, h⟩ := except_bind_ok h
      rw [hx, hy, ok_bind, ok_bind]
      obtain rfl := proj_bitBuffer hx
      obtain rfl := proj_bitBuffer hy
      exact C17_equivalence.2.1 _ _ (constructed_of_proj hx) (constructed_of_proj hy) h
    case float.float => exact pyFloatEq_symm h
    all_goals exact h.symm
  · cases v <;> cases u <;> simp only [dynValue, reduceCtorEq, Except.ok.injEq, decide_eq_true_eq] at h <;>
      cases w <;> simp only [dynValue, reduceCtorEq, Except.ok.injEq, decide_eq_true_eq] at h' ⊢
    case bitBuffer.bitBuffer.bitBuffer x y z =>
      obtain ⟨x', hx, h⟩ := except_bind_ok h
      obtain ⟨y', hy, h⟩ := except_bind_ok h
      obtain ⟨y'', hy', h'⟩ := except_bind_ok h'
      obtain ⟨z', hz, h'⟩ := except_bind_ok h'
      rw [hx, hz, ok_bind, ok_bind]
      obtain rfl := proj_bitBuffer hx
      obtain rfl := proj_bitBuffer hy
      obtain rfl := proj_bitBuffer hz
      exact C17_equivalence.2.2 _ _ _ (constructed_of_proj hx) (constructed_of_proj hy) (constructed_of_proj hz) h h'
    case float.float.float => exact pyFloatEq_trans h h'
    all_goals exact h.trans h'

theorem dynEq_refl (v : Val) : ReflAt Val.dynEq v := by
  refine reflAt_eqOrNone (f := dynValue) ?_
  intro n b hb
  cases v <;> simp only [dynValue, reduceCtorEq, Except.ok.injEq] at hb
  case bitBuffer x =>
    obtain ⟨x', hx, h⟩ := except_bind_ok hb
    obtain ⟨y', hy, h⟩ := except_bind_ok h
    obtain rfl := proj_bitBuffer hx
    rw [bitBuffer_refl (constructed_of_proj hx)] at h
    exact (Except.ok.inj h).symm
  case float x => rw [← hb]; exact pyFloatEq_refl (n _ (by simp [Val.floats]))
  all_goals simpa using hb.symm

theorem Branch.symmTrans (hc : ∀ id, SymmTrans (cs id).eq) (f : Option FieldDef) : SymmTrans (Branch.eq cs f) := by
  cases f with
  | none => exact dynEq_symmTrans
  | some f => exact f.eqValue_symmTrans hc

theorem Branch.refl (hc : ∀ id v, ReflAt (cs id).eq v) (f : Option FieldDef) (v : Val) : ReflAt (Branch.eq cs f) v := by
  cases f with
  | none => exact dynEq_refl v
  | some f => exact f.eqValue_refl hc v

theorem Schema.eq_refl (defs : Schema) (kinds : Nat → List ParamKind) : ∀ n id v, ReflAt (defs.eqHash kinds n id).eq v
  | 0, id, v => fun _ b h => by simp [Schema.eqHash] at h
  | n + 1, id, v => fun hn b h => by
    have hc := Schema.eq_refl defs kinds n
    simp only [Schema.eqHash] at h
    rcases hd : defs id with fs | fs | ⟨selector, cases, default⟩
    · rw [hd] at h
      simp only [CompoundDef.eqHash, Struct.eqHash] at h
      rcases v with _ | _ | _ | _ | _ | _ | _ | _ | _ | ⟨ps, k, _, vs⟩ <;> (try simp at h)
      exact Struct.eq_refl_fields hc ps k _ fs [] vs hn.obj b h
    · rw [hd] at h
      simp only [CompoundDef.eqHash, Union.eqHash] at h
      split at h
      · simp only [if_true] at h
        exact Branch.refl hc _ _ (hn.obj _ (by simp)) b h
      · simp at h
    · rw [hd] at h
      simp only [CompoundDef.eqHash, Choice.eqHash] at h
      split at h
      · simp only [if_true] at h
        split at h
        · exact Branch.refl hc _ _ (hn.obj _ (by simp)) b h
        · exact dynEq_refl _ (hn.obj _ (by simp)) b h
      · simp at h

theorem Schema.eq_symmTrans (defs : Schema) (kinds : Nat → List ParamKind) : ∀ n, defs.StableClauses kinds n →
    ∀ id, SymmTrans (defs.eqHash kinds n id).eq
  | 0, _, id => ⟨fun _ _ h => by simp [Schema.eqHash] at h, fun _ _ _ h => by simp [Schema.eqHash] at h⟩
  | n + 1, hst, id => by
    have hc := Schema.eq_symmTrans defs kinds n (fun id fs hd i f e hf he m hm => hst id fs hd i f e hf he m (by omega))
    simp only [Schema.eqHash]
    rcases hd : defs id with fs | fs | ⟨selector, cases, default⟩
    · have hs := fun (ps : List Int) i f e hf he k l vs us => hst id fs hd i f e hf he n (by omega) ps k l vs us
      have inv : ∀ {v u}, (Struct.eqHash (defs.eqHash kinds n) (kinds id) fs).eq v u = .ok true →
          ∃ ps k t vs l t' us, v = .obj ps k t vs ∧ u = .obj ps l t' us ∧
            Struct.eq (defs.eqHash kinds n) ps k l (Struct.base fs) fs [] [] vs us = .ok true := by
        intro v u h
        simp only [Struct.eqHash] at h
        rcases v with _ | _ | _ | _ | _ | _ | _ | _ | _ | ⟨ps, k, _, vs⟩ <;> (try simp at h)
        rcases u with _ | _ | _ | _ | _ | _ | _ | _ | _ | ⟨qs, l, _, us⟩ <;> (try simp at h)
        split at h
        · rename_i hp
          subst hp
          exact ⟨_, _, _, _, _, _, _, rfl, rfl, h⟩
        · simp at h
      refine ⟨fun v u h => ?_, fun v u w h h' => ?_⟩
      · obtain ⟨ps, k, t, vs, l, t', us, rfl, rfl, g⟩ := inv h
        simp only [CompoundDef.eqHash, Struct.eqHash, if_true]
        exact Struct.eq_symm_fields hc ps k l _ fs (hs ps) fs [] rfl [] [] vs us rfl g
      · obtain ⟨ps, k, t, vs, l, t', us, rfl, rfl, g⟩ := inv h
        obtain ⟨ps', k', t1, vs', l', t1', us', he, rfl, g'⟩ := inv h'
        simp only [Val.obj.injEq] at he
        obtain ⟨rfl, rfl, rfl, rfl⟩ := he
        simp only [CompoundDef.eqHash, Struct.eqHash, if_true]
        exact Struct.eq_trans_fields hc ps k l l' _ fs (hs ps) fs [] rfl [] [] [] vs us us' rfl rfl g g'
    · have inv : ∀ {v u}, (Union.eqHash (defs.eqHash kinds n) (kinds id) fs).eq v u = .ok true →
          ∃ ps k t x l y, v = .obj ps k t [x] ∧ u = .obj ps l t [y] ∧
            Branch.eq (defs.eqHash kinds n) (Union.select fs t).toOption x y = .ok true := by
        intro v u h
        simp only [Union.eqHash] at h
        split at h
        · split at h
          · split at h
            · rename_i hp ht
              subst hp ht
              exact ⟨_, _, _, _, _, _, rfl, rfl, h⟩
            · simp at h
          · simp at h
        · simp at h
      refine ⟨fun v u h => ?_, fun v u w h h' => ?_⟩
      · obtain ⟨ps, k, t, x, l, y, rfl, rfl, g⟩ := inv h
        simp only [CompoundDef.eqHash, Union.eqHash, if_true]
        exact (Branch.symmTrans hc _).1 _ _ g
      · obtain ⟨ps, k, t, x, l, y, rfl, rfl, g⟩ := inv h
        obtain ⟨ps', k', t', x', l', y', he, rfl, g'⟩ := inv h'
        simp only [Val.obj.injEq, List.cons.injEq, and_true] at he
        obtain ⟨rfl, rfl, rfl, rfl⟩ := he
        simp only [CompoundDef.eqHash, Union.eqHash, if_true]
        exact (Branch.symmTrans hc _).2 _ _ _ g g'
    · have inv : ∀ {v u}, (Choice.eqHash (defs.eqHash kinds n) (kinds id) selector cases default).eq v u = .ok true →
          ∃ ps k t x l t' y, v = .obj ps k t [x] ∧ u = .obj ps l t' [y] ∧
            (match Choice.select selector cases default ps with
              | .ok (f, _) => Branch.eq (defs.eqHash kinds n) f x y
              | .error _ => x.dynEq y) = .ok true := by
        intro v u h
        simp only [Choice.eqHash] at h
        split at h
        · split at h
          · rename_i hp
            subst hp
            exact ⟨_, _, _, _, _, _, _, rfl, rfl, h⟩
          · simp at h
        · simp at h
      refine ⟨fun v u h => ?_, fun v u w h h' => ?_⟩
      · obtain ⟨ps, k, t, x, l, t', y, rfl, rfl, g⟩ := inv h
        simp only [CompoundDef.eqHash, Choice.eqHash, if_true]
        split at g <;> simp only [*]
        · exact (Branch.symmTrans hc _).1 _ _ g
        · exact dynEq_symmTrans.1 _ _ g
      · obtain ⟨ps, k, t, x, l, t1, y, rfl, rfl, g⟩ := inv h
        obtain ⟨ps', k', t', x', l', t1', y', he, rfl, g'⟩ := inv h'
        simp only [Val.obj.injEq, List.cons.injEq, and_true] at he
        obtain ⟨rfl, rfl, rfl, rfl⟩ := he
        simp only [CompoundDef.eqHash, Choice.eqHash, if_true]
        split at g <;> simp only [*] at g' ⊢
        · exact (Branch.symmTrans hc _).2 _ _ _ g g'
        · exact dynEq_symmTrans.2 _ _ _ g g'

end Zserio
