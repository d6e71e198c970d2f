import Verif.Lemmas.Creator
/-
Every successful call continues a well-nested sequence of calls, every other call leaves the creator as it is.
-/
set_option linter.unusedSimpArgs false
namespace Zserio
namespace Creator
variable {I : TypeInfos} {id : Nat} {args : List Int}

/-- the calls so far have opened the frame `f`, and the frames of the stacks `ms` and `vs` below it -/
inductive Opened (I : TypeInfos) (id : Nat) (args : List Int) :
    List Call → List Val → List MemberInfo → List Val → Frame → Prop where
  | root {calls cs : List Call} {os : List Val} {o o' : Val} :
    Sessions I id args calls os → (I id).new args = .ok o → Builds I (.compound id o) cs (.compound id o') →
    Opened I id args (calls ++ .beginRoot :: cs) os [] [] (.compound id o')
  | compound {calls cs : List Call} {os vs : List Val} {ms : List MemberInfo} {pid cid : Nat} {p c c' : Val} {m : MemberInfo}
    {name : PyStr} : Opened I id args calls os ms vs (.compound pid p) → FieldNamed (I pid).fields name m → m.isArray = false →
    m.type = .compound cid → createObject I (I pid) m cid p none = .ok c → Builds I (.compound cid c) cs (.compound cid c') →
    Opened I id args (calls ++ .beginCompound name :: cs) os (m :: ms) (p :: vs) (.compound cid c')
  | array {calls cs : List Call} {os vs : List Val} {ms : List MemberInfo} {pid : Nat} {p : Val} {m : MemberInfo} {xs : List Val}
    {name : PyStr} : Opened I id args calls os ms vs (.compound pid p) → FieldNamed (I pid).fields name m → m.isArray = true →
    Builds I (.array m pid p []) cs (.array m pid p xs) →
    Opened I id args (calls ++ .beginArray name :: cs) os ms vs (.array m pid p xs)
  | element {calls cs : List Call} {os vs : List Val} {ms : List MemberInfo} {pid cid : Nat} {p c c' : Val} {m : MemberInfo}
    {xs : List Val} : Opened I id args calls os ms vs (.array m pid p xs) → m.type = .compound cid →
    createObject I (I pid) m cid p (some xs.length) = .ok c → Builds I (.compound cid c) cs (.compound cid c') →
    Opened I id args (calls ++ .beginCompoundElement :: cs) os (m :: ms) (.arr xs :: p :: vs) (.compound cid c')

theorem Opened.ok {calls : List Call} {os vs : List Val} {ms : List MemberInfo} {f : Frame} (h : Opened I id args calls os ms vs f) :
    FrameOk id ms f := by
  induction h with
  | root _ _ _ => rfl
  | compound _ _ _ ht _ _ _ => simp [FrameOk, topType, ht]
  | array _ _ ha _ ih => exact ⟨ih, ha⟩
  | element _ ht _ _ _ => simp [FrameOk, topType, ht]

theorem Opened.extend {calls cs : List Call} {os vs : List Val} {ms : List MemberInfo} {f f' : Frame}
    (h : Opened I id args calls os ms vs f) (hb : Builds I f cs f') : Opened I id args (calls ++ cs) os ms vs f' := by
  cases h with
  | root hs hn hb₀ =>
    obtain ⟨o', rfl⟩ := hb.of_compound rfl
    rw [List.append_assoc, List.cons_append]
    exact .root hs hn (hb₀.trans hb)
  | compound ho hm ha ht hc hb₀ =>
    obtain ⟨o', rfl⟩ := hb.of_compound rfl
    rw [List.append_assoc, List.cons_append]
    exact .compound ho hm ha ht hc (hb₀.trans hb)
  | array ho hm ha hb₀ =>
    obtain ⟨xs', rfl⟩ := hb.of_array rfl
    rw [List.append_assoc, List.cons_append]
    exact .array ho hm ha (hb₀.trans hb)
  | element ho ht hc hb₀ =>
    obtain ⟨o', rfl⟩ := hb.of_compound rfl
    rw [List.append_assoc, List.cons_append]
    exact .element ho ht hc (hb₀.trans hb)

theorem Sessions.snoc {calls cs : List Call} {os : List Val} {o o' : Val} (h : Sessions I id args calls os)
    (hn : (I id).new args = .ok o) (hb : Builds I (.compound id o) cs (.compound id o')) :
    Sessions I id args (calls ++ .beginRoot :: cs ++ [.endRoot]) (os ++ [o']) := by
  induction h with
  | nil => exact .root hn hb .nil
  | root hn' hb' _ ih =>
    have := Sessions.root hn' hb' ih
    simpa [List.append_assoc] using this

/-- an object -/
def IsObj (v : Val) : Prop := ∃ ps k tag fs, v = .obj ps k tag fs

theorem isObj_new {ci : CompoundInfo} {ps : List Int} {o : Val} (h : ci.new ps = .ok o) : IsObj o := by
  unfold CompoundInfo.new at h
  split at h
  · simp at h
  · split at h <;> (simp only [Except.ok.injEq] at h; exact ⟨_, _, _, _, h.symm⟩)

theorem setAttr_obj (ci : CompoundInfo) (m : MemberInfo) (v : Val) {o : Val} (ho : IsObj o) :
    ∃ o', ci.setAttr o m v = .ok o' ∧ IsObj o' := by
  obtain ⟨ps, k, tag, fs, rfl⟩ := ho
  unfold CompoundInfo.setAttr
  simp only
  split <;> exact ⟨_, rfl, _, _, _, _, rfl⟩

theorem isObj_create {pci : CompoundInfo} {m : MemberInfo} {cid : Nat} {p c : Val} {idx : Option Nat}
    (h : createObject I pci m cid p idx = .ok c) : IsObj c := by
  unfold createObject at h
  cases h1 : argEnv pci p m idx with
  | error e => rw [h1] at h; simp [Bind.bind, Except.bind] at h
  | ok env =>
    rw [h1] at h
    cases h2 : evalArgs m.args env with
    | error e => simp [Bind.bind, Except.bind, h2] at h
    | ok as =>
      simp only [Bind.bind, Except.bind, h2] at h
      exact isObj_new h

theorem Builds.isObj {f f' : Frame} {cs : List Call} (h : Builds I f cs f') {t : Nat} {o o' : Val} (hf : f = .compound t o)
    (hf' : f' = .compound t o') (ho : IsObj o) : IsObj o' := by
  induction h generalizing o with
  | nil =>
    rw [hf] at hf'
    cases hf'
    exact ho
  | value _ _ hs _ ih =>
    cases hf
    obtain ⟨o₁, h1, h2⟩ := setAttr_obj _ _ _ ho
    rw [hs] at h1
    cases h1
    exact ih rfl hf' h2
  | fieldType _ _ ih => cases hf; exact ih rfl hf' ho
  | compound _ _ _ _ _ hs _ _ ih =>
    cases hf
    obtain ⟨o₁, h1, h2⟩ := setAttr_obj _ _ _ ho
    rw [hs] at h1
    cases h1
    exact ih rfl hf' h2
  | array _ _ _ hs _ _ ih =>
    cases hf
    obtain ⟨o₁, h1, h2⟩ := setAttr_obj _ _ _ ho
    rw [hs] at h1
    cases h1
    exact ih rfl hf' h2
  | valueElement _ _ _ => cases hf
  | elementType _ _ => cases hf
  | compoundElement _ _ _ _ _ _ => cases hf

/-- the objects at the top are objects -/
theorem Opened.isObj {calls : List Call} {os vs : List Val} {ms : List MemberInfo} {f : Frame} (h : Opened I id args calls os ms vs f) :
    match f with
    | .compound _ o => IsObj o
    | .array _ _ p _ => IsObj p := by
  induction h with
  | root _ hn hb => exact hb.isObj rfl rfl (isObj_new hn)
  | compound _ _ _ _ hc hb _ => exact hb.isObj rfl rfl (isObj_create hc)
  | array _ _ _ _ ih => exact ih
  | element _ _ hc hb _ => exact hb.isObj rfl rfl (isObj_create hc)

/-- what a call can do: nothing but raise, or continue the well-nested calls -/
inductive Outcome (I : TypeInfos) (id : Nat) (args : List Int) (calls : List Call) (os : List Val) (c : Call) (s : Creator) :
    Except Err Result × Creator → Prop where
  | raises {e : Err} : Outcome I id args calls os c s (.error e, s)
  | goes {r : Result} {ms : List MemberInfo} {vs : List Val} {f : Frame} : (∀ v, r ≠ .object v) →
    Opened I id args (calls ++ [c]) os ms vs f → Outcome I id args calls os c s (.ok r, frameState id args ms vs f)
  | ends {v : Val} : Sessions I id args (calls ++ [c]) (os ++ [v]) → Outcome I id args calls os c s (.ok (.object v), new id args)

theorem call_fresh {calls : List Call} {os : List Val} (h : Sessions I id args calls os) (c : Call) :
    Outcome I id args calls os c (new id args) (call I c (new id args)) := by
  cases c with
  | beginRoot =>
    simp only [call, quiet, beginRoot, new]
    cases hn : (I id).new args with
    | error e => simpa [hn, Except.map] using Outcome.raises
    | ok o =>
      have := Opened.root h hn .nil
      simpa [hn, Except.map, frameState, new] using Outcome.goes (r := .none) (s := new id args) (by simp) this
  | endRoot | beginArray _ | endArray | beginCompound _ | setValue _ _ | getFieldType _ | beginCompoundElement | addValueElement _
  | getElementType =>
    simpa [call, quiet, endRoot, beginArray, endArray, beginCompound, setValue, getFieldType, beginCompoundElement, addValueElement,
      getElementType, new, Except.map] using Outcome.raises
  | endCompound | endCompoundElement =>
    simpa [call, quiet, endCompound, endCompoundElement, new, Except.map] using Outcome.raises

theorem member_cases {s : Creator} {t : Nat} (ht : s.typeId = some t) (name : PyStr) :
    (∃ e, s.member I name = .error e) ∨ ∃ m, FieldNamed (I t).fields name m ∧ s.member I name = .ok (t, m) := by
  cases hf : findMember (I t).fields name with
  | error e =>
    left
    refine ⟨e, ?_⟩
    unfold member
    rw [ht]
    simp only [hf]
    rfl
  | ok m => exact .inr ⟨m, findMember_iff.mp hf, member_ok ht (findMember_iff.mp hf)⟩

theorem call_compound {calls : List Call} {os vs : List Val} {ms : List MemberInfo} {t : Nat} {o : Val}
    (h : Opened I id args calls os ms vs (.compound t o)) (c : Call) :
    Outcome I id args calls os c (frameState id args ms vs (.compound t o)) (call I c (frameState id args ms vs (.compound t o))) := by
  have hok : (frameState id args ms vs (.compound t o)).typeId = some t := h.ok
  have hobj : IsObj o := h.isObj
  cases c with
  | beginRoot => simpa [call, quiet, beginRoot, frameState, Except.map] using Outcome.raises
  | endRoot =>
    simp only [call, endRoot, frameState]
    cases vs with
    | nil =>
      cases h with
      | root hs hn hb =>
        have := hs.snoc hn hb
        simpa [Except.map, new] using Outcome.ends (c := .endRoot) (s := ⟨id, args, [], [o], .inCompound⟩) this
    | cons v vs => simpa [Except.map] using Outcome.raises
  | beginArray name =>
    rcases member_cases (I := I) hok name with ⟨e, he⟩ | ⟨m, hm, he⟩
    · simp only [frameState] at he
      simp only [call, quiet, beginArray, frameState, he]; simpa [frameState, Except.map] using Outcome.raises
    · simp only [frameState] at he
      cases ha : m.isArray with
      | false => simp only [call, quiet, beginArray, frameState, he]; simpa [frameState, ha, Except.map] using Outcome.raises
      | true =>
        have := Opened.array h hm ha .nil
        simp only [call, quiet, beginArray, frameState, he]; simpa [frameState, ha, Except.map] using
          Outcome.goes (r := .none) (s := frameState id args ms vs (.compound t o)) (by simp) this
  | endArray => simpa [call, quiet, endArray, frameState, Except.map] using Outcome.raises
  | beginCompound name =>
    rcases member_cases (I := I) hok name with ⟨e, he⟩ | ⟨m, hm, he⟩
    · simp only [frameState] at he
      simp only [call, quiet, beginCompound, frameState, he]; simpa [frameState, Except.map] using Outcome.raises
    · simp only [frameState] at he
      cases ha : m.isArray with
      | true => simp only [call, quiet, beginCompound, frameState, he]; simpa [frameState, ha, Except.map] using Outcome.raises
      | false =>
        cases ht : m.type with
        | compound cid =>
          cases hc : createObject I (I t) m cid o none with
          | error e => simp only [call, quiet, beginCompound, frameState, he]; simpa [frameState, ha, ht, hc, Except.map] using Outcome.raises
          | ok c =>
            have := Opened.compound h hm ha ht hc .nil
            simp only [call, quiet, beginCompound, frameState, he]; simpa [frameState, ha, ht, hc, Except.map] using
              Outcome.goes (r := .none) (s := frameState id args ms vs (.compound t o)) (by simp) this
        | builtin _ | enum _ | bitmask _ =>
          simp only [call, quiet, beginCompound, frameState, he]; simpa [frameState, ha, ht, Except.map] using Outcome.raises
  | endCompound =>
    cases h with
    | root hs hn hb => simpa [call, quiet, endCompound, frameState, Except.map] using Outcome.raises
    | @compound calls cs _ vs ms pid _ p c _ m name ho hm ha ht hc hb =>
      obtain ⟨p₁, hs, _⟩ := setAttr_obj (I pid) m o (show IsObj p from ho.isObj)
      have := ho.extend (.compound hm ha ht hc hb hs .nil)
      rw [show calls ++ (.beginCompound name :: cs ++ .endCompound :: []) = calls ++ .beginCompound name :: cs ++ [.endCompound] by simp] at this
      have hpok : topType id ms = some pid := ho.ok
      simpa [call, quiet, endCompound, frameState, ha, popAndSet, typeId, hpok, setTop, hs, Except.map] using
        Outcome.goes (c := .endCompound) (r := .none) (s := frameState id args (m :: ms) (p :: vs) (.compound t o)) (by simp)
          this
    | @element calls cs _ vs ms pid _ p c _ m xs ho ht hc hb =>
      have ha := ho.ok.2
      simpa [call, quiet, endCompound, frameState, ha, Except.map] using Outcome.raises
  | setValue name v =>
    rcases member_cases (I := I) hok name with ⟨e, he⟩ | ⟨m, hm, he⟩
    · simp only [frameState] at he
      simp only [call, quiet, setValue, frameState, he]; simpa [frameState, Except.map] using Outcome.raises
    · simp only [frameState] at he
      by_cases h1 : v.isNone = false ∧ m.isArray = true
      · simp only [call, quiet, setValue, frameState, he]; simpa [frameState, h1, Except.map] using Outcome.raises
      · by_cases h2 : checkValue m v = true
        · obtain ⟨o₁, hs, _⟩ := setAttr_obj (I t) m v hobj
          have hv : v = .none ∨ m.isArray = false ∧ isInstance m.type v = true := by
            cases hvn : v.isNone with
            | true => left; cases v <;> simp_all [Val.isNone]
            | false =>
              right
              simp only [checkValue, hvn, Bool.false_or] at h2
              simp only [hvn, true_and, Bool.not_eq_true] at h1
              exact ⟨h1, h2⟩
          have := h.extend (.value hm hv hs .nil)
          have h1' : (!v.isNone && m.isArray) = false := by
            cases hvn : v.isNone <;> cases hma : m.isArray <;> simp_all
          simp only [call, quiet, setValue, frameState, he]; simpa [frameState, h1', h2, setTop, hs, Except.map] using
            Outcome.goes (r := .none) (s := frameState id args ms vs (.compound t o)) (by simp) this
        · have h1' : (!v.isNone && m.isArray) = false := by
            cases hvn : v.isNone <;> cases hma : m.isArray <;> simp_all
          simp only [call, quiet, setValue, frameState, he]; simpa [frameState, h1', h2, Except.map] using Outcome.raises
  | getFieldType name =>
    rcases member_cases (I := I) hok name with ⟨e, he⟩ | ⟨m, hm, he⟩
    · simp only [frameState] at he
      simp only [call, quiet, getFieldType, frameState, he]; simpa [frameState, Except.map] using Outcome.raises
    · simp only [frameState] at he
      have := h.extend (.fieldType hm .nil)
      simp only [call, quiet, getFieldType, frameState, he]; simpa [frameState, Except.map] using
        Outcome.goes (r := .type m.type) (s := frameState id args ms vs (.compound t o)) (by simp) this
  | beginCompoundElement => simpa [call, quiet, beginCompoundElement, frameState, Except.map] using Outcome.raises
  | endCompoundElement =>
    cases h with
    | root hs hn hb => simpa [call, quiet, endCompoundElement, frameState, Except.map] using Outcome.raises
    | @compound calls cs _ vs ms pid _ p c _ m name ho hm ha ht hc hb =>
      simpa [call, quiet, endCompoundElement, frameState, ha, Except.map] using Outcome.raises
    | @element calls cs _ vs ms pid _ p c _ m xs ho ht hc hb =>
      have ha := ho.ok.2
      have := ho.extend (.compoundElement ht hc hb .nil)
      rw [show calls ++ (.beginCompoundElement :: cs ++ .endCompoundElement :: []) =
        calls ++ .beginCompoundElement :: cs ++ [.endCompoundElement] by simp] at this
      simpa [call, quiet, endCompoundElement, frameState, ha, appendTop, Except.map] using
        Outcome.goes (c := .endCompoundElement) (r := .none) (s := frameState id args (m :: ms) (.arr xs :: p :: vs) (.compound t o))
          (by simp) this
  | addValueElement v => simpa [call, quiet, addValueElement, frameState, Except.map] using Outcome.raises
  | getElementType => simpa [call, quiet, getElementType, frameState, Except.map] using Outcome.raises

theorem call_array {calls : List Call} {os vs : List Val} {ms : List MemberInfo} {m : MemberInfo} {pid : Nat} {p : Val} {xs : List Val}
    (h : Opened I id args calls os ms vs (.array m pid p xs)) (c : Call) :
    Outcome I id args calls os c (frameState id args ms vs (.array m pid p xs))
      (call I c (frameState id args ms vs (.array m pid p xs))) := by
  obtain ⟨hok, ha⟩ := h.ok
  cases c with
  | beginRoot | endRoot | beginArray _ | beginCompound _ | setValue _ _ | getFieldType _ =>
    simpa [call, quiet, beginRoot, endRoot, beginArray, beginCompound, setValue, getFieldType, frameState, Except.map] using
      Outcome.raises
  | endCompound | endCompoundElement =>
    simpa [call, quiet, endCompound, endCompoundElement, frameState, Except.map] using Outcome.raises
  | endArray =>
    cases h with
    | @array calls cs _ _ _ _ _ _ _ name ho hm _ hb =>
      obtain ⟨p₁, hs, _⟩ := setAttr_obj (I pid) m (.arr xs) (show IsObj p from ho.isObj)
      have := ho.extend (.array hm ha hb hs .nil)
      rw [show calls ++ (.beginArray name :: cs ++ .endArray :: []) = calls ++ .beginArray name :: cs ++ [.endArray] by simp] at this
      simpa [call, quiet, endArray, frameState, popAndSet, typeId, hok, setTop, hs, Except.map] using
        Outcome.goes (c := .endArray) (r := .none) (s := frameState id args ms vs (.array m pid p xs)) (by simp) this
  | beginCompoundElement =>
    cases ht : m.type with
    | compound cid =>
      cases hc : createObject I (I pid) m cid p (some xs.length) with
      | error e => simpa [call, quiet, beginCompoundElement, frameState, ht, hok, hc, Except.map] using Outcome.raises
      | ok c =>
        have := Opened.element h ht hc .nil
        simpa [call, quiet, beginCompoundElement, frameState, ht, hok, hc, Except.map] using
          Outcome.goes (r := .none) (s := frameState id args ms vs (.array m pid p xs)) (by simp) this
    | builtin _ | enum _ | bitmask _ =>
      simpa [call, quiet, beginCompoundElement, frameState, ht, Except.map] using Outcome.raises
  | addValueElement v =>
    by_cases hv : checkValue m v = true
    · have hv' : v = .none ∨ isInstance m.type v = true := by
        cases hvn : v.isNone with
        | true => left; cases v <;> simp_all [Val.isNone]
        | false => right; simpa [checkValue, hvn] using hv
      have := h.extend (.valueElement hv' .nil)
      simpa [call, quiet, addValueElement, frameState, hv, appendTop, Except.map] using
        Outcome.goes (r := .none) (s := frameState id args ms vs (.array m pid p xs)) (by simp) this
    · simpa [call, quiet, addValueElement, frameState, hv, Except.map] using Outcome.raises
  | getElementType =>
    have := h.extend (.elementType .nil)
    simpa [call, quiet, getElementType, frameState, Except.map] using
      Outcome.goes (r := .type m.type) (s := frameState id args ms vs (.array m pid p xs)) (by simp) this

/-- what the creator is like after the calls -/
inductive Reached (I : TypeInfos) (id : Nat) (args : List Int) (calls : List Call) (os : List Val) : Creator → Prop where
  | fresh : Sessions I id args calls os → Reached I id args calls os (new id args)
  | inside {ms : List MemberInfo} {vs : List Val} {f : Frame} : Opened I id args calls os ms vs f →
    Reached I id args calls os (frameState id args ms vs f)

theorem call_outcome {calls : List Call} {os : List Val} {s : Creator} (h : Reached I id args calls os s) (c : Call) :
    Outcome I id args calls os c s (call I c s) := by
  cases h with
  | fresh h => exact call_fresh h c
  | @inside ms vs f h =>
    cases f with
    | compound t o => exact call_compound h c
    | array m pid p xs => exact call_array h c

theorem run_reached {calls cs : List Call} {os : List Val} {s : Creator} (h : Reached I id args calls os s) {r : Except Err (List Result)}
    {s' : Creator} (hr : run I cs s = (r, s')) :
    (∃ rs, r = .ok rs ∧ Reached I id args (calls ++ cs) (os ++ objects rs) s') ∨
      ∃ e calls' os', r = .error e ∧ Reached I id args calls' os' s' := by
  induction cs generalizing calls os s r s' with
  | nil =>
    simp only [run, Prod.mk.injEq] at hr
    obtain ⟨rfl, rfl⟩ := hr
    exact .inl ⟨[], rfl, by simpa [objects] using h⟩
  | cons c cs ih =>
    rw [run_cons] at hr
    have ho := call_outcome h c
    generalize hc : call I c s = x at ho hr
    cases ho with
    | raises =>
      simp only [Prod.mk.injEq] at hr
      obtain ⟨rfl, rfl⟩ := hr
      exact .inr ⟨_, calls, os, rfl, h⟩
    | @goes r₁ ms vs f hne ho =>
      have hstep := Reached.inside ho
      generalize hrun : run I cs (frameState id args ms vs f) = y
      obtain ⟨r₂, s₂⟩ := y
      rcases ih hstep hrun with ⟨rs, rfl, h2⟩ | ⟨e, c', o', rfl, h2⟩
      · simp only [hrun, Prod.mk.injEq] at hr
        obtain ⟨rfl, rfl⟩ := hr
        refine .inl ⟨_, rfl, ?_⟩
        have : objects (r₁ :: rs) = objects rs := by
          cases r₁ with
          | object v => exact absurd rfl (hne v)
          | none | type _ => rfl
        rw [this]
        simpa using h2
      · simp only [hrun, Prod.mk.injEq] at hr
        obtain ⟨rfl, rfl⟩ := hr
        exact .inr ⟨e, c', o', rfl, h2⟩
    | @ends v ho =>
      have hstep := Reached.fresh ho
      generalize hrun : run I cs (new id args) = y
      obtain ⟨r₂, s₂⟩ := y
      rcases ih hstep hrun with ⟨rs, rfl, h2⟩ | ⟨e, c', o', rfl, h2⟩
      · simp only [hrun, Prod.mk.injEq] at hr
        obtain ⟨rfl, rfl⟩ := hr
        exact .inl ⟨_, rfl, by simpa [objects] using h2⟩
      · simp only [hrun, Prod.mk.injEq] at hr
        obtain ⟨rfl, rfl⟩ := hr
        exact .inr ⟨e, c', o', rfl, h2⟩

def weight : Frame → Nat
  | .compound _ _ => 0
  | .array _ _ _ _ => 1

/-- the open frames can be closed -/
theorem Opened.close {calls : List Call} {os vs : List Val} {ms : List MemberInfo} {f : Frame}
    (h : Opened I id args calls os ms vs f) : ∃ rest o, Sessions I id args (calls ++ rest) (os ++ [o]) := by
  induction hn : vs.length + weight f using Nat.strong_induction_on
    generalizing calls vs ms f with
  | _ n ih =>
    have hnext : ∀ (c : Call) {ms' : List MemberInfo} {vs' : List Val} {f' : Frame}, Opened I id args (calls ++ [c]) os ms' vs' f' →
        vs'.length + weight f' < n →
        ∃ rest o, Sessions I id args (calls ++ rest) (os ++ [o]) := by
      intro c ms' vs' f' ho hlt
      obtain ⟨rest, o, hs⟩ := ih _ hlt ho rfl
      exact ⟨c :: rest, o, by simpa using hs⟩
    cases h with
    | root hs hn' hb => exact ⟨[.endRoot], _, hs.snoc hn' hb⟩
    | @compound calls₀ cs _ vs₀ ms₀ pid _ p c o m name ho hm ha ht hc hb =>
      obtain ⟨p₁, hs, _⟩ := setAttr_obj (I pid) m o (show IsObj p from ho.isObj)
      have := ho.extend (.compound hm ha ht hc hb hs .nil)
      rw [show calls₀ ++ (.beginCompound name :: cs ++ .endCompound :: []) = calls₀ ++ .beginCompound name :: cs ++ [.endCompound] by simp] at this
      exact hnext _ this (by simp only [List.length_cons, weight] at hn ⊢; omega)
    | @array calls₀ cs _ _ _ pid p _ xs name ho hm ha hb =>
      obtain ⟨p₁, hs, _⟩ := setAttr_obj (I pid) _ (.arr xs) (show IsObj p from ho.isObj)
      have := ho.extend (.array hm ha hb hs .nil)
      rw [show calls₀ ++ (.beginArray name :: cs ++ .endArray :: []) = calls₀ ++ .beginArray name :: cs ++ [.endArray] by simp] at this
      exact hnext _ this (by simp only [weight] at hn ⊢; omega)
    | @element calls₀ cs _ vs₀ ms₀ pid _ p c o m xs ho ht hc hb =>
      have := ho.extend (.compoundElement ht hc hb .nil)
      rw [show calls₀ ++ (.beginCompoundElement :: cs ++ .endCompoundElement :: []) =
        calls₀ ++ .beginCompoundElement :: cs ++ [.endCompoundElement] by simp] at this
      exact hnext _ this (by simp only [List.length_cons, weight] at hn ⊢; omega)

end Creator
end Zserio
