import Verif.Lemmas.CompoundEquiv
import Verif.Lemmas.Extended
import Verif.Spec.Compound
set_option linter.unusedSimpArgs false
/-
Canonical objects that compare equal are the same.
-/
namespace Zserio

variable {cs : Nat → EqHash} {canonical : Nat → Val → Prop} {codecs : Nat → Codec}

/-- equal canonical objects of the nested compounds are the same -/
def Identifies (cs : Nat → EqHash) (canonical : Nat → Val → Prop) : Prop :=
  ∀ id v u, canonical id v → canonical id u → v.NoNegativeZero → u.NoNegativeZero → (cs id).eq v u = .ok true → v = u

theorem asInt_same {v u : Val} (h : (do let x ← v.asInt; let y ← u.asInt; Except.ok (decide (x = y))) = (.ok true : Except Err Bool)) :
    v = u := by
  obtain ⟨x, hx, h0⟩ := except_bind_ok h
  obtain ⟨y, hy, h1⟩ := except_bind_ok h0
  clear h h0
  cases v <;> simp [Val.asInt] at hx
  cases u <;> simp [Val.asInt] at hy
  rw [hx, hy]
  simpa using h1

theorem bitBuffer_same {a b : BitBuffer} (ha : a.Constructed) (hb : b.Constructed) (h : BitBuffer.eq a b = .ok true)
    (ca : BitBuffer.stored a = a) (cb : BitBuffer.stored b = b) : a = b := by
  obtain ⟨h1, h2⟩ := (equal_iff a b ha hb).1 h
  rw [← ca, ← cb]
  unfold BitBuffer.usedBits at h2
  unfold BitBuffer.stored
  rw [h1] at h2 ⊢
  rw [h2]

theorem builtin_same (b : Builtin) {v u : Val} {x y : b.Elem} (hv : b.proj v = .ok x) (hu : b.proj u = .ok y)
    (cx : b.stored x = x) (cy : b.stored y = y)
    (nv : v.NoNegativeZero) (nu : u.NoNegativeZero) (h : b.eqElem x y = .ok true) : v = u := by
  cases b
  case bitBuffer =>
    have := bitBuffer_same (constructed_of_proj hv) (constructed_of_proj hu) h cx cy
    cases v <;> simp only [Builtin.proj, reduceCtorEq] at hv
    cases u <;> simp only [Builtin.proj, reduceCtorEq] at hu
    split at hv
    · split at hu
      · rw [Except.ok.inj hv, Except.ok.inj hu, this]
      · cases hu
    · cases hv
  case float16 | float32 | float64 =>
    all_goals
      cases v <;> simp [Builtin.proj] at hv
      cases u <;> simp [Builtin.proj] at hu
      obtain rfl := Except.ok.inj hv
      obtain rfl := Except.ok.inj hu
      simp only [Builtin.eqElem, Except.ok.injEq] at h
      rw [pyFloatEq_true h (nv _ (by simp [Val.floats])) (nu _ (by simp [Val.floats]))]
  all_goals
    simp only [Builtin.eqElem, same, Except.ok.injEq, decide_eq_true_eq] at h
    cases v <;> simp [Builtin.proj] at hv
    cases u <;> simp [Builtin.proj] at hu
    obtain rfl := Except.ok.inj hv
    obtain rfl := Except.ok.inj hu
    rw [h]

theorem ElemType.same (hc : Identifies cs canonical) (t : ElemType) {env env' : Env} {i j : Nat} {v u : Val}
    (cv : t.Canonical canonical env i v) (cu : t.Canonical canonical env' j u)
    (nv : v.NoNegativeZero) (nu : u.NoNegativeZero) (h : t.eq cs v u = .ok true) : v = u := by
  rcases eqOrNone_true h with ⟨rfl, rfl⟩ | ⟨-, -, -, -, h⟩
  · rfl
  · cases t with
    | int k | dynBits _ _ | enum e | bitmask k => exact asInt_same h
    | other b =>
      simp only [ElemType.eqValue] at h
      obtain ⟨x, hx, h⟩ := except_bind_ok h
      obtain ⟨y, hy, h⟩ := except_bind_ok h
      obtain ⟨x', hx', cx⟩ := cv
      obtain ⟨y', hy', cy⟩ := cu
      obtain rfl := Except.ok.inj (hx.symm.trans hx')
      obtain rfl := Except.ok.inj (hy.symm.trans hy')
      exact builtin_same b hx hy cx cy nv nu h
    | compound id args => exact hc id v u cv.1 cu.1 nv nu h

theorem eqList_same {eq : Val → Val → Except Err Bool} {P Q : Nat → Val → Prop} : ∀ {xs ys : List Val} {i j : Nat},
    (∀ x ∈ xs, ∀ y ∈ ys, ∀ i j, P i x → Q j y → eq x y = .ok true → x = y) → AllIndexed P i xs → AllIndexed Q j ys →
    xs.length = ys.length → eqList eq xs ys = .ok true → xs = ys
  | [], [], _, _, _, _, _, _, _ => rfl
  | [], _ :: _, _, _, _, _, _, h, _ => by simp at h
  | _ :: _, [], _, _, _, _, _, h, _ => by simp at h
  | x :: xs, y :: ys, i, j, hxy, hp, hq, hl, h => by
    simp only [eqList] at h
    obtain ⟨b, hb, h⟩ := except_bind_ok h
    cases b with
    | false => simp at h
    | true =>
      rw [hxy x (by simp) y (by simp) i j hp.1 hq.1 hb,
        eqList_same (fun x hx y hy => hxy x (by simp [hx]) y (by simp [hy])) hp.2 hq.2 (by simpa using hl) h]

namespace FieldDef

theorem eqValue_same (hc : Identifies cs canonical) (f : FieldDef) {env env' : Env} {v u : Val}
    (cv : f.CanonicalValue canonical env v) (cu : f.CanonicalValue canonical env' u)
    (nv : v.NoNegativeZero) (nu : u.NoNegativeZero) (h : f.eqValue cs v u = .ok true) : v = u := by
  unfold CanonicalValue at cv cu
  unfold eqValue at h
  rcases ha : f.array with _ | a <;> simp only [ha] at cv cu h
  · exact f.type.same hc cv cu nv nu h
  · obtain ⟨xs, rfl, cv⟩ := cv
    obtain ⟨ys, rfl, cu⟩ := cu
    simp only [Val.eqOrNone, Val.asArr, ok_bind] at h
    by_cases hl : xs.length = ys.length
    · rw [if_pos hl] at h
      rw [eqList_same (fun x hx y hy i j px py hxy => f.type.same hc px py (nv.arr x hx) (nu.arr y hy) hxy) cv cu hl h]
    · rw [if_neg hl] at h
      simp at h

theorem eq_same (hc : Identifies cs canonical) (f : FieldDef) {env : Env} {p p' : Bool} {v u : Val}
    (cv : f.Canonical canonical env p v) (cu : f.Canonical canonical env p' u)
    (nv : v.NoNegativeZero) (nu : u.NoNegativeZero) (h : f.eq cs env env p p' v u = .ok true) : v = u := by
  rw [f.eq_true (fun _ _ => rfl)] at h
  obtain ⟨h1, h2⟩ := h
  unfold FieldDef.Canonical at cv cu
  by_cases hx : (f.extended && !p) = true
  · simp only [Bool.and_eq_true, Bool.not_eq_true'] at hx
    rw [if_pos (by simp [hx])] at cv
    rw [if_pos (by simp [hx.1, ← h1 hx.1, hx.2])] at cu
    rw [cv, cu]
  · have hx' : (f.extended && !p') ≠ true := by
      intro h3
      simp only [Bool.and_eq_true, Bool.not_eq_true'] at h3
      rw [h1 h3.1] at hx
      simp [h3] at hx
    rw [if_neg hx] at cv
    rw [if_neg hx'] at cu
    obtain ⟨b, e1, e2, e3⟩ := h2 (fun he => by simpa [he] using hx)
    cases b with
    | true => exact f.eqValue_same hc (cv.1 e1) (cu.1 e2) nv nu (e3 rfl)
    | false => rw [cv.2 e1, cu.2 e2]

end FieldDef

namespace Struct

theorem eq_same (hc : Identifies cs canonical) (params : List Int) (k l base : Nat) : ∀ (fs : List FieldDef) (prior vs us : List Val),
    Canonical codecs canonical params k base fs prior vs → Canonical codecs canonical params l base fs prior us →
    (∀ v ∈ vs, v.NoNegativeZero) → (∀ u ∈ us, u.NoNegativeZero) →
    eq cs params k l base fs prior prior vs us = .ok true → vs = us
  | [], _, [], [], _, _, _, _, _ => rfl
  | [], _, [], _ :: _, _, h, _, _, _ => h.elim
  | [], _, _ :: _, _, h, _, _, _, _ => h.elim
  | _ :: _, _, [], _, h, _, _, _, _ => h.elim
  | _ :: _, _, _ :: _, [], _, h, _, _, _ => h.elim
  | f :: fs, prior, v :: vs, u :: us, cv, cu, nv, nu, h => by
    simp only [eq] at h
    obtain ⟨b, hb, h⟩ := except_bind_ok h
    cases b with
    | false => simp at h
    | true =>
      obtain rfl := f.eq_same hc cv.1 cu.1 (nv v (by simp)) (nu u (by simp)) hb
      rw [eq_same hc params k l base fs _ vs us cv.2.2 cu.2.2 (fun x hx => nv x (by simp [hx])) (fun x hx => nu x (by simp [hx]))
        (by simpa using h)]

theorem eq_present (params : List Int) (k l base : Nat) : ∀ (fs : List FieldDef) (pv pu vs us : List Val),
    eq cs params k l base fs pv pu vs us = .ok true → ∀ (j : Nat) (f : FieldDef), fs[j]? = some f → f.extended = true →
      isPresent k base (pv.length + j) = isPresent l base (pu.length + j)
  | [], _, _, _, _, _ => by
    intro j f hf
    simp at hf
  | _ :: _, _, _, [], _, h => by simp [eq] at h
  | _ :: _, _, _, _ :: _, [], h => by simp [eq] at h
  | f :: fs, pv, pu, v :: vs, u :: us, h => by
    simp only [eq] at h
    obtain ⟨b, hb, h⟩ := except_bind_ok h
    cases b with
    | false => simp at h
    | true =>
      rintro (_ | j) g hg he
      · simp only [List.getElem?_cons_zero, Option.some.injEq] at hg
        subst hg
        unfold FieldDef.eq at hb
        rw [if_pos he] at hb
        simp only [Nat.add_zero]
        cases h1 : isPresent k base pv.length <;> cases h2 : isPresent l base pu.length <;> simp [h1, h2] at hb ⊢
      · have := eq_present params k l base fs _ _ vs us (by simpa using h) j g (by simpa using hg) he
        simpa [Nat.add_assoc, Nat.add_comm 1 j] using this

theorem eq_numExt {params : List Int} {k l : Nat} {fs : List FieldDef} {vs us : List Val}
    (hl : ∀ i f, fs[i]? = some f → (f.extended = true ↔ base fs ≤ i)) (hk : k ≤ numExtended fs) (hl' : l ≤ numExtended fs)
    (h : eq cs params k l (base fs) fs [] [] vs us = .ok true) : k = l := by
  have hle := Struct.numExtended_le fs
  have key : ∀ m < numExtended fs, (k > m ↔ l > m) := by
    intro m hm
    have hlt : base fs + m < fs.length := by unfold base; omega
    have := eq_present params k l (base fs) fs [] [] vs us h (base fs + m) _ (List.getElem?_eq_getElem hlt)
      ((hl _ _ (List.getElem?_eq_getElem hlt)).2 (by omega))
    simpa [isPresent] using this
  rcases Nat.lt_trichotomy k l with h1 | h1 | h1
  · have := key k (by omega); omega
  · exact h1
  · have := key l (by omega); omega

end Struct

theorem Branch.same (hc : Identifies cs canonical) (f : FieldDef) {env : Env} {v u : Val}
    (ho : f.optional = .required) (he : f.extended = false)
    (cv : f.Canonical canonical env true v) (cu : f.Canonical canonical env true u)
    (nv : v.NoNegativeZero) (nu : u.NoNegativeZero) (h : Branch.eq cs (some f) v u = .ok true) : v = u := by
  unfold FieldDef.Canonical at cv cu
  rw [if_neg (by simp [he])] at cv cu
  have hu : ∀ env v, f.isUsed env v = .ok true := by intro env v; unfold FieldDef.isUsed; rw [ho]
  exact f.eqValue_same hc (cv.1 (hu _ _)) (cu.1 (hu _ _)) nv nu h

theorem select_mem {fs : List FieldDef} {tag : Int} {f : FieldDef} (h : Union.select fs tag = .ok f) : f ∈ fs := by
  unfold Union.select at h
  split at h
  · cases h
  · split at h
    · rename_i hf
      obtain rfl := Except.ok.inj h
      exact List.mem_of_getElem? hf
    · cases h

theorem selectCase_mem {default : Option (Option FieldDef)} {s : Int} {f : FieldDef} {slot' : Nat} :
    ∀ {cases : List CaseDef} {slot : Nat}, Choice.selectCase cases default slot s = .ok (some f, slot') →
      (∃ k ∈ cases, k.field = some f) ∨ default = some (some f) := by
  intro cases
  induction cases with
  | nil =>
    intro slot h
    unfold Choice.selectCase at h
    rcases default with _ | _ | g <;> simp at h
    right; rw [h.1]
  | cons k ks ih =>
    intro slot h
    unfold Choice.selectCase at h
    split at h
    · left; exact ⟨k, by simp, by simpa using congrArg Prod.fst (Except.ok.inj h)⟩
    · rcases ih h with ⟨k', hk, he⟩ | he
      · exact .inl ⟨k', by simp [hk], he⟩
      · exact .inr he

/-- canonical objects of a schema that compare equal are the same -/
theorem Schema.identifies (defs : Schema) (closed : Nat → Bool) (hl : defs.Layout closed) (hr : defs.RequiredMembers)
    (kinds : Nat → List ParamKind) : ∀ n, Identifies (defs.eqHash kinds n) (defs.Canonical n)
  | 0 => fun _ _ _ h => h.elim
  | n + 1 => fun id v u cv cu nv nu h => by
    have hc := Schema.identifies defs closed hl hr kinds n
    have hlay := hl id
    simp only [Schema.Canonical] at cv cu
    simp only [Schema.eqHash] at h
    rcases hd : defs id with fs | fs | ⟨selector, cases, default⟩ <;> rw [hd] at cv cu h hlay
    · rcases v with _ | _ | _ | _ | _ | _ | _ | _ | _ | ⟨ps, k, tag, vs⟩ <;> (try exact cv.elim)
      rcases u with _ | _ | _ | _ | _ | _ | _ | _ | _ | ⟨qs, l, tag', us⟩ <;> (try exact cu.elim)
      obtain ⟨hk, rfl, cv⟩ := cv
      obtain ⟨hl', rfl, cu⟩ := cu
      simp only [CompoundDef.eqHash, Struct.eqHash] at h
      split at h
      · rename_i hp
        subst hp
        obtain rfl := Struct.eq_numExt hlay.2.2.2 hk hl' h
        rw [Struct.eq_same hc ps k k _ fs [] vs us cv cu nv.obj nu.obj h]
      · simp at h
    · simp only [CompoundDef.eqHash, Union.eqHash] at h
      split at h
      · obtain ⟨rfl, f, hf, cv⟩ := cv
        obtain ⟨rfl, g, hg, cu⟩ := cu
        split at h
        · split at h
          · rename_i hp ht
            subst hp ht
            obtain rfl := Except.ok.inj (hf.symm.trans hg)
            have hm := select_mem hf
            simp only [hf, Except.toOption] at h
            rw [Branch.same hc f (hr.1 id fs hd f hm) (hlay f hm).2.1 cv cu (nv.obj _ (by simp)) (nu.obj _ (by simp)) h]
          · simp at h
        · simp at h
      · simp at h
    · simp only [CompoundDef.eqHash, Choice.eqHash] at h
      split at h
      · obtain ⟨rfl, rfl, f, slot, hf, cv⟩ := cv
        obtain ⟨rfl, rfl, g, slot', hg, cu⟩ := cu
        split at h
        · rename_i hp
          subst hp
          obtain ⟨rfl, rfl⟩ := Prod.mk.inj (Except.ok.inj (hf.symm.trans hg))
          simp only [hf] at h
          cases f with
          | none => rw [cv, cu]
          | some f =>
            have hm : f.optional = .required ∧ f.extended = false := by
              unfold Choice.select at hf
              obtain ⟨s, -, hf⟩ := except_bind_ok hf
              rcases selectCase_mem hf with ⟨k, hk, he⟩ | he
              · exact ⟨(hr.2 id _ _ _ hd).1 k hk f he, (hlay.1 k hk f he).2.1⟩
              · exact ⟨(hr.2 id _ _ _ hd).2 f he, (hlay.2 f he).2.1⟩
            rw [Branch.same hc f hm.1 hm.2 cv cu (nv.obj _ (by simp)) (nu.obj _ (by simp)) h]
        · simp at h
      · simp at h

end Zserio
