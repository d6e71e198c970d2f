import Verif.Spec.Creator
/-
The tree creator accepts exactly the sequences of calls of the specification.
-/
set_option linter.unusedSimpArgs false
namespace Zserio
namespace Creator
variable {I : TypeInfos} {id : Nat} {args : List Int}

theorem findMember_iff {fields : List MemberInfo} {name : PyStr} {m : MemberInfo} :
    findMember fields name = .ok m ↔ FieldNamed fields name m := by
  induction fields with
  | nil => simp [findMember, FieldNamed]
  | cons a fs ih =>
    rw [findMember]
    split
    · rename_i h
      simp only [Except.ok.injEq]
      constructor
      · rintro rfl
        exact ⟨[], fs, rfl, h, by simp⟩
      · rintro ⟨l, r, he, hm, hl⟩
        cases l with
        | nil => simpa using (List.cons.inj he).1
        | cons b l =>
          simp only [List.cons_append, List.cons.injEq] at he
          exact absurd (he.1 ▸ h) (hl b (by simp))
    · rename_i h
      rw [ih]
      constructor
      · rintro ⟨l, r, rfl, hm, hl⟩
        refine ⟨a :: l, r, rfl, hm, ?_⟩
        intro m' hm'
        rw [List.mem_cons] at hm'
        rcases hm' with rfl | hm'
        · exact h
        · exact hl m' hm'
      · rintro ⟨l, r, he, hm, hl⟩
        cases l with
        | nil =>
          have := (List.cons.inj he).1
          subst this
          exact absurd hm h
        | cons b l =>
          simp only [List.cons_append, List.cons.injEq] at he
          exact ⟨l, r, he.2, hm, fun m' hm' => hl m' (by simp [hm'])⟩

theorem findMember_error {fields : List MemberInfo} {name : PyStr} {e : Err} (h : findMember fields name = .error e) :
    ∀ m, ¬ FieldNamed fields name m := by
  intro m hm
  rw [← findMember_iff, h] at hm
  cases hm

/-- the state of the creator while the frame `f` is at the top; `ms` and `vs` are the stacks below it -/
def frameState (id : Nat) (args : List Int) (ms : List MemberInfo) (vs : List Val) : Frame → Creator
  | .compound _ o => ⟨id, args, ms, o :: vs, .inCompound⟩
  | .array m _ p xs => ⟨id, args, m :: ms, .arr xs :: p :: vs, .inArray⟩

/-- the type of the frame is the one the creator finds -/
def FrameOk (id : Nat) (ms : List MemberInfo) : Frame → Prop
  | .compound t _ => topType id ms = some t
  | .array m pid _ _ => topType id ms = some pid ∧ m.isArray = true

theorem run_cons (c : Call) (cs : List Call) (s : Creator) : run I (c :: cs) s =
    match call I c s with
    | (.error e, s) => (.error e, s)
    | (.ok r, s) =>
      match run I cs s with
      | (.error e, s) => (.error e, s)
      | (.ok rs, s) => (.ok (r :: rs), s) := rfl

theorem run_append {cs₁ cs₂ : List Call} {s s₁ s₂ : Creator} {rs₁ rs₂ : List Result} (h₁ : run I cs₁ s = (.ok rs₁, s₁))
    (h₂ : run I cs₂ s₁ = (.ok rs₂, s₂)) : run I (cs₁ ++ cs₂) s = (.ok (rs₁ ++ rs₂), s₂) := by
  induction cs₁ generalizing s rs₁ with
  | nil =>
    simp only [run, Prod.mk.injEq, Except.ok.injEq] at h₁
    obtain ⟨rfl, rfl⟩ := h₁
    simpa using h₂
  | cons c cs ih =>
    rw [run_cons] at h₁
    rw [List.cons_append, run_cons]
    rcases hc : call I c s with ⟨r, s'⟩
    rw [hc] at h₁
    cases r with
    | error e => simp at h₁
    | ok r =>
      simp only at h₁ ⊢
      rcases hr : run I cs s' with ⟨rs, s''⟩
      rw [hr] at h₁
      cases rs with
      | error e => simp at h₁
      | ok rs =>
        simp only [Prod.mk.injEq, Except.ok.injEq] at h₁
        obtain ⟨rfl, rfl⟩ := h₁
        rw [ih hr]
        rfl

theorem run_append_inv {cs₁ cs₂ : List Call} {s s₂ : Creator} {rs : List Result} (h : run I (cs₁ ++ cs₂) s = (.ok rs, s₂)) :
    ∃ rs₁ rs₂ s₁, run I cs₁ s = (.ok rs₁, s₁) ∧ run I cs₂ s₁ = (.ok rs₂, s₂) ∧ rs = rs₁ ++ rs₂ := by
  induction cs₁ generalizing s rs with
  | nil => exact ⟨[], rs, s, rfl, h, rfl⟩
  | cons c cs ih =>
    rw [List.cons_append, run_cons] at h
    rcases hc : call I c s with ⟨r, s'⟩
    rw [hc] at h
    cases r with
    | error e => simp at h
    | ok r =>
      simp only at h
      rcases hr : run I (cs ++ cs₂) s' with ⟨rs', s''⟩
      rw [hr] at h
      cases rs' with
      | error e => simp at h
      | ok rs' =>
        simp only [Prod.mk.injEq, Except.ok.injEq] at h
        obtain ⟨rfl, rfl⟩ := h
        obtain ⟨rs₁, rs₂, s₁, h1, h2, rfl⟩ := ih hr
        refine ⟨r :: rs₁, rs₂, s₁, ?_, h2, rfl⟩
        rw [run_cons, hc]
        simp only [h1]

/-- the calls succeed and return no objects -/
def Quiet (I : TypeInfos) (cs : List Call) (s s' : Creator) : Prop := ∃ rs, run I cs s = (.ok rs, s') ∧ objects rs = []

theorem Quiet.nil (s : Creator) : Quiet I [] s s := ⟨[], rfl, rfl⟩

theorem Quiet.append {cs₁ cs₂ : List Call} {s s₁ s₂ : Creator} (h₁ : Quiet I cs₁ s s₁) (h₂ : Quiet I cs₂ s₁ s₂) :
    Quiet I (cs₁ ++ cs₂) s s₂ := by
  obtain ⟨rs₁, h1, h2⟩ := h₁
  obtain ⟨rs₂, h3, h4⟩ := h₂
  exact ⟨rs₁ ++ rs₂, run_append h1 h3, by simp [objects, List.filterMap_append] at h2 h4 ⊢; exact ⟨h2, h4⟩⟩

theorem Quiet.one {c : Call} {s s' : Creator} {r : Result} (h : call I c s = (.ok r, s')) (hr : ∀ v, r ≠ .object v) :
    Quiet I [c] s s' := by
  refine ⟨[r], by rw [run_cons, h]; rfl, ?_⟩
  cases r with
  | object v => exact absurd rfl (hr v)
  | _ => rfl

theorem Quiet.cons {c : Call} {cs : List Call} {s s₁ s' : Creator} (h : Quiet I [c] s s₁) (h' : Quiet I cs s₁ s') :
    Quiet I (c :: cs) s s' := h.append h'

theorem member_ok {s : Creator} {t : Nat} (ht : s.typeId = some t) {name : PyStr} {m : MemberInfo}
    (hm : FieldNamed (I t).fields name m) : s.member I name = .ok (t, m) := by
  unfold member
  rw [ht]
  simp only
  rw [findMember_iff.mpr hm]
  rfl

/-- well-nested calls succeed -/
theorem Builds.run {f f' : Frame} {cs : List Call} (h : Builds I f cs f') {ms : List MemberInfo} (hf : FrameOk id ms f)
    (vs : List Val) : FrameOk id ms f' ∧ Quiet I cs (frameState id args ms vs f) (frameState id args ms vs f') := by
  induction h generalizing ms vs with
  | nil => exact ⟨hf, .nil _⟩
  | @value t o o₁ v m name cs f hm hv hs _ ih =>
    obtain ⟨h1, h2⟩ := ih (ms := ms) hf vs
    refine ⟨h1, .cons (.one (r := .none) ?_ (by simp)) h2⟩
    simp only [call, quiet, setValue, frameState, member_ok (s := ⟨id, args, ms, o :: vs, .inCompound⟩) hf hm]
    rcases hv with rfl | ⟨ha, hi⟩
    · simp [Val.isNone, checkValue, setTop, hs, Except.map]
    · simp [ha, hi, checkValue, setTop, hs, Except.map]
  | @fieldType t o m name cs f hm _ ih =>
    obtain ⟨h1, h2⟩ := ih (ms := ms) hf vs
    refine ⟨h1, .cons (.one (r := .type m.type) ?_ (by simp)) h2⟩
    simp only [call, quiet, getFieldType, frameState, member_ok (s := ⟨id, args, ms, o :: vs, .inCompound⟩) hf hm]
    simp [Except.map]
  | @compound t cid o o₁ c c' m name cs₁ cs f hm ha ht hc _ hs _ ih₁ ih =>
    obtain ⟨h1, h2⟩ := ih (ms := ms) hf vs
    obtain ⟨h3, h4⟩ := ih₁ (ms := m :: ms) (by simp [FrameOk, topType, ht]) (o :: vs)
    refine ⟨h1, .append (.cons (.one (r := .none) ?_ (by simp)) h4) (.cons (.one (r := .none) ?_ (by simp)) h2)⟩
    · simp only [call, quiet, beginCompound, frameState, member_ok (s := ⟨id, args, ms, o :: vs, .inCompound⟩) hf hm]
      simp [ha, ht, hc, Except.map]
    · simp only [call, quiet, endCompound, frameState, popAndSet, typeId]
      simp only [FrameOk] at hf
      simp [ha, hf, setTop, hs, Except.map]
  | @array t o o₁ m name xs cs₁ cs f hm ha _ hs _ ih₁ ih =>
    obtain ⟨h1, h2⟩ := ih (ms := ms) hf vs
    obtain ⟨h3, h4⟩ := ih₁ (ms := ms) ⟨hf, ha⟩ vs
    refine ⟨h1, .append (.cons (.one (r := .none) ?_ (by simp)) h4) (.cons (.one (r := .none) ?_ (by simp)) h2)⟩
    · simp only [call, quiet, beginArray, frameState, member_ok (s := ⟨id, args, ms, o :: vs, .inCompound⟩) hf hm]
      simp [ha, Except.map]
    · simp only [call, quiet, endArray, frameState, popAndSet, typeId]
      simp only [FrameOk] at hf
      simp [hf, setTop, hs, Except.map]
  | @valueElement m pid p v xs cs f hv _ ih =>
    obtain ⟨h1, h2⟩ := ih (ms := ms) hf vs
    refine ⟨h1, .cons (.one (r := .none) ?_ (by simp)) h2⟩
    simp only [call, quiet, addValueElement, frameState]
    rcases hv with rfl | hi
    · simp [Val.isNone, checkValue, appendTop, Except.map]
    · simp [hi, checkValue, appendTop, Except.map]
  | @elementType m pid p xs cs f _ ih =>
    obtain ⟨h1, h2⟩ := ih (ms := ms) hf vs
    refine ⟨h1, .cons (.one (r := .type m.type) ?_ (by simp)) h2⟩
    simp [call, getElementType, frameState, Except.map]
  | @compoundElement m pid cid p c c' xs cs₁ cs f ht hc _ _ ih₁ ih =>
    obtain ⟨h1, h2⟩ := ih (ms := ms) hf vs
    obtain ⟨h3, h4⟩ := ih₁ (ms := m :: ms) (by simp [FrameOk, topType, ht]) (.arr xs :: p :: vs)
    refine ⟨h1, .append (.cons (.one (r := .none) ?_ (by simp)) h4) (.cons (.one (r := .none) ?_ (by simp)) h2)⟩
    · simp only [call, quiet, beginCompoundElement, frameState]
      simp only [FrameOk] at hf
      simp [ht, hf.1, hc, Except.map]
    · simp only [call, quiet, endCompoundElement, frameState]
      simp [hf.2, appendTop, Except.map]

theorem Builds.trans {f f₁ f₂ : Frame} {cs₁ cs₂ : List Call} (h₁ : Builds I f cs₁ f₁) (h₂ : Builds I f₁ cs₂ f₂) :
    Builds I f (cs₁ ++ cs₂) f₂ := by
  induction h₁ with
  | nil => exact h₂
  | value hm hv hs _ ih => exact .value hm hv hs (ih h₂)
  | fieldType hm _ ih => exact .fieldType hm (ih h₂)
  | compound hm ha ht hc hb hs _ _ ih =>
    rw [List.append_assoc, List.cons_append]
    exact .compound hm ha ht hc hb hs (ih h₂)
  | array hm ha hb hs _ _ ih =>
    rw [List.append_assoc, List.cons_append]
    exact .array hm ha hb hs (ih h₂)
  | valueElement hv _ ih => exact .valueElement hv (ih h₂)
  | elementType _ ih => exact .elementType (ih h₂)
  | compoundElement ht hc hb _ _ ih =>
    rw [List.append_assoc, List.cons_append]
    exact .compoundElement ht hc hb (ih h₂)

theorem Builds.of_compound {f f' : Frame} {cs : List Call} (h : Builds I f cs f') {t : Nat} {o : Val} (hf : f = .compound t o) :
    ∃ o', f' = .compound t o' := by
  induction h generalizing o with
  | nil => exact ⟨o, hf⟩
  | value _ _ _ _ ih => cases hf; exact ih rfl
  | fieldType _ _ ih => cases hf; exact ih rfl
  | compound _ _ _ _ _ _ _ _ ih => cases hf; exact ih rfl
  | array _ _ _ _ _ _ ih => cases hf; exact ih rfl
  | valueElement _ _ _ => cases hf
  | elementType _ _ => cases hf
  | compoundElement _ _ _ _ _ _ => cases hf

theorem Builds.of_array {f f' : Frame} {cs : List Call} (h : Builds I f cs f') {m : MemberInfo} {pid : Nat} {p : Val} {xs : List Val}
    (hf : f = .array m pid p xs) : ∃ xs', f' = .array m pid p xs' := by
  induction h generalizing xs with
  | nil => exact ⟨xs, hf⟩
  | value _ _ _ _ _ => cases hf
  | fieldType _ _ _ => cases hf
  | compound _ _ _ _ _ _ _ _ _ => cases hf
  | array _ _ _ _ _ _ _ => cases hf
  | valueElement _ _ ih => cases hf; exact ih rfl
  | elementType _ ih => cases hf; exact ih rfl
  | compoundElement _ _ _ _ _ ih => cases hf; exact ih rfl

theorem sessions_run {calls : List Call} {os : List Val} (h : Sessions I id args calls os) :
    ∃ rs, run I calls (new id args) = (.ok rs, new id args) ∧ objects rs = os := by
  induction h with
  | nil => exact ⟨[], rfl, rfl⟩
  | @root cs rest o o' os hn hb _ ih =>
    obtain ⟨rs, h1, h2⟩ := ih
    obtain ⟨_, rs', h3, h4⟩ := hb.run (id := id) (args := args) (ms := []) (by simp [FrameOk, topType]) []
    have hbeg : call I .beginRoot (new id args) = (.ok .none, frameState id args [] [] (.compound id o)) := by
      simp [call, quiet, beginRoot, new, hn, Except.map, frameState]
    have hend : call I .endRoot (frameState id args [] [] (.compound id o')) = (.ok (.object o'), new id args) := by
      simp [call, endRoot, frameState, Except.map, new]
    have hrest : run I (.endRoot :: rest) (frameState id args [] [] (.compound id o')) = (.ok (.object o' :: rs), new id args) := by
      rw [run_cons, hend]
      simp only [h1]
    refine ⟨.none :: (rs' ++ .object o' :: rs), ?_, ?_⟩
    · rw [List.cons_append, run_cons, hbeg]
      simp only [run_append h3 hrest]
    · simp only [objects, List.filterMap_cons, List.filterMap_append] at h2 h4 ⊢
      rw [h2, h4]
      rfl

end Creator
end Zserio
