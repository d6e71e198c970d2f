import Verif.Spec.Templates
/-
Lemmas about the instantiation of templates.
-/
namespace Zserio.Templates
set_option linter.unusedSimpArgs false

mutual
theorem Ty.same_iff : ∀ (t u : Ty), Ty.same t u = true ↔ t = u
  | .mk id args, .mk id' args' => by
    simp [Ty.same, Ty.sameAll_iff args args']
theorem Ty.sameAll_iff : ∀ (ts us : List Ty), Ty.sameAll ts us = true ↔ ts = us
  | [], [] => by simp [Ty.sameAll]
  | t :: ts, u :: us => by simp [Ty.sameAll, Ty.same_iff t u, Ty.sameAll_iff ts us]
  | [], _ :: _ => by simp [Ty.sameAll]
  | _ :: _, [] => by simp [Ty.sameAll]
end

mutual
/-- The name the compiler appends, in terms of the type. -/
def Ty.append (full : Bool) : Ty → PyStr
  | .mk id args => appendId full id ++ Ty.appendAll full args
/-- All of them. -/
def Ty.appendAll (full : Bool) : List Ty → PyStr
  | [] => []
  | t :: ts => t.append full ++ Ty.appendAll full ts
end

theorem appendId_builtin (full : Bool) (name : PyStr) : appendId full ⟨[], name⟩ = ch! '_' :: replaceColons name := by
  simp [appendId]

mutual
theorem settled_key (vis : List InstantiateDecl) : ∀ r : TypeRef, r.Settled vis → r.key = r.denote
  | .builtin _, _ => by simp [TypeRef.key, TypeRef.denote]
  | .type _, _ => by simp [TypeRef.key, TypeRef.denote]
  | .subtype (.builtin _), _ => by simp [TypeRef.key, TypeRef.denote]
  | .subtype (.type _), _ => by simp [TypeRef.key, TypeRef.denote]
  | .inst source i pkg template args, h => by
    simp only [TypeRef.Settled] at h
    obtain ⟨rfl, rfl, _, h⟩ := h
    simp [TypeRef.key, TypeRef.denote, settled_keys vis args h]
  | .param _, h => by simp [TypeRef.Settled] at h
  | .template _ _, h => by simp [TypeRef.Settled] at h
  | .instantiateType _ _, h => by simp [TypeRef.Settled] at h
  | .subtype (.param _), h => by simp [TypeRef.Settled] at h
  | .subtype (.template _ _), h => by simp [TypeRef.Settled] at h
  | .subtype (.inst _ _ _ _ _), h => by simp [TypeRef.Settled] at h
  | .subtype (.subtype _), h => by simp [TypeRef.Settled] at h
  | .subtype (.instantiateType _ _), h => by simp [TypeRef.Settled] at h
theorem settled_keys (vis : List InstantiateDecl) : ∀ rs : List TypeRef, AllSettled vis rs → keys rs = denotes rs
  | [], _ => by simp [keys, denotes]
  | r :: rest, h => by
    simp only [AllSettled] at h
    simp [keys, denotes, settled_key vis r h.1, settled_keys vis rest h.2]
end

mutual
theorem settled_append (full : Bool) (vis : List InstantiateDecl) :
    ∀ r : TypeRef, r.Settled vis → appendArg full vis r = r.denote.append full
  | .builtin _, _ => by simp [appendArg, TypeRef.denote, Ty.append, Ty.appendAll, appendId_builtin]
  | .type _, _ => by simp [appendArg, TypeRef.denote, Ty.append, Ty.appendAll]
  | .subtype (.builtin _), _ => by
    simp [appendArg, appendBase, TypeRef.denote, Ty.append, Ty.appendAll, appendId_builtin]
  | .subtype (.type _), _ => by simp [appendArg, appendBase, TypeRef.denote, Ty.append, Ty.appendAll]
  | .inst source i pkg template args, h => by
    simp only [TypeRef.Settled] at h
    obtain ⟨rfl, rfl, hv, h⟩ := h
    simp [appendArg, hv, TypeRef.denote, Ty.append, settled_appendAll full vis args h]
  | .param _, h => by simp [TypeRef.Settled] at h
  | .template _ _, h => by simp [TypeRef.Settled] at h
  | .instantiateType _ _, h => by simp [TypeRef.Settled] at h
  | .subtype (.param _), h => by simp [TypeRef.Settled] at h
  | .subtype (.template _ _), h => by simp [TypeRef.Settled] at h
  | .subtype (.inst _ _ _ _ _), h => by simp [TypeRef.Settled] at h
  | .subtype (.subtype _), h => by simp [TypeRef.Settled] at h
  | .subtype (.instantiateType _ _), h => by simp [TypeRef.Settled] at h
theorem settled_appendAll (full : Bool) (vis : List InstantiateDecl) :
    ∀ rs : List TypeRef, AllSettled vis rs → appendArgs full vis rs = Ty.appendAll full (denotes rs)
  | [], _ => by simp [appendArgs, denotes, Ty.appendAll]
  | r :: rest, h => by
    simp only [AllSettled] at h
    simp [appendArgs, denotes, Ty.appendAll, settled_append full vis r h.1, settled_appendAll full vis rest h.2]
end

theorem generateName_settled {full : Bool} {vis : List InstantiateDecl} {args : List TypeRef} (template : TypeId)
    (h : AllSettled vis args) :
    generateName full vis template args = template.name ++ Ty.appendAll full (denotes args) := by
  simp [generateName, settled_appendAll full vis args h]

mutual
theorem home_key : ∀ r : TypeRef, r.Home → r.key = r.denote
  | .builtin _, _ => by simp [TypeRef.key, TypeRef.denote]
  | .type _, _ => by simp [TypeRef.key, TypeRef.denote]
  | .param _, _ => by simp [TypeRef.key, TypeRef.denote]
  | .template _ args, h => by
    simp only [TypeRef.Home] at h
    simp [TypeRef.key, TypeRef.denote, home_keys args h]
  | .inst source i pkg template args, h => by
    simp only [TypeRef.Home] at h
    obtain ⟨rfl, rfl, h⟩ := h
    simp [TypeRef.key, TypeRef.denote, home_keys args h]
  | .subtype base, h => by
    simp only [TypeRef.Home] at h
    simp [TypeRef.key, TypeRef.denote, home_key base h]
  | .instantiateType _ r, h => by
    simp only [TypeRef.Home] at h
    simp [TypeRef.key, TypeRef.denote, home_key r h]
theorem home_keys : ∀ rs : List TypeRef, AllHome rs → keys rs = denotes rs
  | [], _ => by simp [keys, denotes]
  | r :: rest, h => by
    simp only [AllHome] at h
    simp [keys, denotes, home_key r h.1, home_keys rest h.2]
end

/-- What a call asks for. -/
def Call.key (c : Call) : PackageName × PyStr × PyStr := instanceKey c.vis c.template c.args

/-- The key of an instantiation in the map. -/
def Entry.key (e : Entry) : PackageName × PyStr × PyStr := (e.pkg, e.short, e.hash)

theorem visible_some {vis : List InstantiateDecl} {t : TypeId} {args : List TypeRef} {d : InstantiateDecl}
    (h : visible vis t args = some d) : d ∈ vis ∧ d.template = t ∧ keys d.args = keys args := by
  unfold visible at h
  have h1 := List.find?_some h
  have h2 := List.mem_of_find?_eq_some h
  simp only [Bool.and_eq_true, decide_eq_true_eq, Ty.sameAll_iff] at h1
  exact ⟨h2, h1.1, h1.2⟩

theorem hashCode_length (vis : List InstantiateDecl) (t : TypeId) (args : List TypeRef) :
    (hashCode vis t args).length = 8 := by simp [hashCode, hex8]

theorem hashCode_ne_nil (vis : List InstantiateDecl) (t : TypeId) (args : List TypeRef) : hashCode vis t args ≠ [] := by
  intro h
  have := hashCode_length vis t args
  simp [h] at this

theorem shortName_of_le {vis : List InstantiateDecl} {t : TypeId} {args : List TypeRef}
    (h : ¬ (generateName false vis t args).length > 64) : shortName vis t args = generateName false vis t args := by
  unfold shortName maxLength
  exact if_neg h

/-- Two calls with the same key and the same arguments ask for the same template. -/
theorem same_template {c c' : Call} (hs : AllSettled c.vis c.args) (hs' : AllSettled c'.vis c'.args)
    (hd : ∀ d ∈ c.vis, ∀ d' ∈ c'.vis, d.id = d'.id → d = d')
    (hc : ¬ c.Collides c') (hk : c.key = c'.key) (ha : keys c.args = keys c'.args) :
    c.template = c'.template ∧ denotes c.args = denotes c'.args := by
  have hden : denotes c.args = denotes c'.args := by
    rw [← settled_keys _ _ hs, ← settled_keys _ _ hs', ha]
  refine ⟨?_, hden⟩
  unfold Call.key instanceKey at hk
  rcases hv : visible c.vis c.template c.args with _ | d <;>
  rcases hv' : visible c'.vis c'.template c'.args with _ | d' <;> rw [hv, hv'] at hk <;>
  simp only [Prod.mk.injEq] at hk
  · obtain ⟨h1, h2, h3⟩ := hk
    have hname : c.template.name = c'.template.name := by
      have hcut : ∀ {full}, generateName full c.vis c.template c.args = generateName full c'.vis c'.template c'.args →
          c.template.name = c'.template.name := by
        intro full h
        rw [generateName_settled _ hs, generateName_settled _ hs', hden] at h
        exact List.append_cancel_right h
      by_cases hl : (generateName false c.vis c.template c.args).length > 64 ∨
          (generateName false c'.vis c'.template c'.args).length > 64
      · by_cases hf : generateName true c.vis c.template c.args = generateName true c'.vis c'.template c'.args
        · exact hcut hf
        · exact absurd ⟨hl, hf, h3⟩ hc
      · obtain ⟨hl, hl'⟩ := not_or.mp hl
        rw [shortName_of_le hl, shortName_of_le hl'] at h2
        exact hcut h2
    cases hc1 : c.template; cases hc2 : c'.template
    simp_all
  · exact absurd hk.2.2 (hashCode_ne_nil _ _ _)
  · exact absurd hk.2.2.symm (hashCode_ne_nil _ _ _)
  · obtain ⟨hm, ht, _⟩ := visible_some hv
    obtain ⟨hm', ht', _⟩ := visible_some hv'
    have : d = d' := hd d hm d' hm' (by
      cases hi : d.id; cases hi' : d'.id
      simp_all)
    rw [← ht, ← ht', this]

/-- How the instantiations and the calls belong together. -/
structure Inv (st : State) : Prop where
  /-- each call returns an instantiation with its key and with the same arguments -/
  call : ∀ c ∈ st.calls, ∃ e, st.entries[c.index]? = some e ∧ e.key = c.key ∧ keys e.args = keys c.args
  /-- each instantiation has been made for a call -/
  entry : ∀ (i : Nat) e, st.entries[i]? = some e →
    ∃ c ∈ st.calls, c.index = i ∧ c.template = e.template ∧ c.args = e.args ∧ c.key = e.key
  /-- keys are unique -/
  unique : ∀ (i j : Nat) e e', st.entries[i]? = some e → st.entries[j]? = some e' → e.key = e'.key → i = j

theorem Inv.start : Inv {} := ⟨by simp, by simp, by simp⟩

/-- The state only grows. -/
structure Grows (st st' : State) : Prop where
  calls : ∀ c ∈ st.calls, c ∈ st'.calls
  entries : st.entries <+: st'.entries

theorem Grows.refl (st : State) : Grows st st := ⟨fun _ h => h, List.prefix_rfl⟩
theorem Grows.trans {a b c : State} (h : Grows a b) (h' : Grows b c) : Grows a c :=
  ⟨fun x hx => h'.calls x (h.calls x hx), h.entries.trans h'.entries⟩

theorem Grows.getElem? {st st' : State} (h : Grows st st') {i : Nat} {e : Entry} (he : st.entries[i]? = some e) :
    st'.entries[i]? = some e := by
  obtain ⟨t, ht⟩ := h.entries
  rw [← ht, List.getElem?_append_left, he]
  exact (List.getElem?_eq_some_iff.mp he).1

theorem Grows.made {st st' : State} (h : Grows st st') {i : Nat} {t : TypeId} {ts : List Ty} (hm : st.Made i t ts) :
    st'.Made i t ts := by
  obtain ⟨e, he, h1, h2⟩ := hm
  exact ⟨e, h.getElem? he, h1, h2⟩

/-- What a call of `instantiate` does. -/
theorem instantiate_inv {ts : List TemplateDef} {vis : List InstantiateDecl} {t : TypeId} {args : List TypeRef}
    {st st' : State} {r : TypeRef} {refs : List TypeRef}
    (h : instantiate ts vis t args st = .ok ((r, refs), st')) (hinv : Inv st) :
    Inv st' ∧ Grows st st' ∧
    ∃ i e, st'.entries[i]? = some e ∧ r = .inst t i e.pkg e.template args ∧ ⟨vis, t, args, i⟩ ∈ st'.calls ∧
      (∀ c ∈ st'.calls, c ∈ st.calls ∨ c = ⟨vis, t, args, i⟩) ∧
      (refs = [] ∨ instantiateRefs ts t args = .ok refs) := by
  unfold instantiate at h
  simp only at h
  rcases hf : findEntry (instanceKey vis t args) st.entries with _ | i
  · rw [hf] at h
    simp only at h
    rcases hr : instantiateRefs ts t args with er | rs
    · rw [hr] at h; cases h
    · rw [hr] at h
      injection h with h
      injection h with h1 h2
      injection h1 with h1 h3
      subst h2 h1 h3
      unfold findEntry at hf
      rw [List.findIdx?_eq_none_iff] at hf
      have hnew : ∀ (i : Nat) e, st.entries[i]? = some e → e.key ≠ instanceKey vis t args := by
        intro i e he
        have := hf e (List.mem_of_getElem? he)
        simpa [Entry.key] using this
      refine ⟨⟨?_, ?_, ?_⟩, ⟨?_, ?_⟩, st.entries.length,
        ⟨(instanceKey vis t args).1, (instanceKey vis t args).2.1, (instanceKey vis t args).2.2, t, args⟩, ?_, rfl, ?_, ?_, .inr ?_⟩
      · intro c hc
        rcases List.mem_cons.mp hc with rfl | hc
        · exact ⟨⟨(instanceKey vis t args).1, (instanceKey vis t args).2.1, (instanceKey vis t args).2.2, t, args⟩, by simp,
            rfl, rfl⟩
        · obtain ⟨e, he, h⟩ := hinv.call c hc
          refine ⟨e, ?_, h⟩
          rw [List.getElem?_append_left, he]
          exact (List.getElem?_eq_some_iff.mp he).1
      · intro i e he
        by_cases hi : i < st.entries.length
        · rw [List.getElem?_append_left hi] at he
          obtain ⟨c, hc, h⟩ := hinv.entry i e he
          exact ⟨c, List.mem_cons_of_mem _ hc, h⟩
        · have hlt := (List.getElem?_eq_some_iff.mp he).1
          simp at hlt
          have : i = st.entries.length := by omega
          subst this
          simp at he
          subst he
          exact ⟨_, List.mem_cons_self, rfl, rfl, rfl, rfl⟩
      · intro i j e e' he he' hk
        by_cases hi : i < st.entries.length <;> by_cases hj : j < st.entries.length
        · rw [List.getElem?_append_left hi] at he
          rw [List.getElem?_append_left hj] at he'
          exact hinv.unique i j e e' he he' hk
        · rw [List.getElem?_append_left hi] at he
          have hlt := (List.getElem?_eq_some_iff.mp he').1
          simp at hlt
          have : j = st.entries.length := by omega
          subst this
          simp at he'
          subst he'
          exact absurd hk (hnew i e he)
        · rw [List.getElem?_append_left hj] at he'
          have hlt := (List.getElem?_eq_some_iff.mp he).1
          simp at hlt
          have : i = st.entries.length := by omega
          subst this
          simp at he
          subst he
          exact absurd hk.symm (hnew j e' he')
        · have hlt := (List.getElem?_eq_some_iff.mp he).1
          have hlt' := (List.getElem?_eq_some_iff.mp he').1
          simp at hlt hlt'
          omega
      · exact fun c hc => List.mem_cons_of_mem _ hc
      · exact List.prefix_append _ _
      · simp
      · exact List.mem_cons_self
      · intro c hc
        rcases List.mem_cons.mp hc with rfl | hc
        · exact .inr rfl
        · exact .inl hc
      · rfl
  · rw [hf] at h
    simp only at h
    rcases he : st.entries[i]? with _ | e
    · rw [he] at h; cases h
    · rw [he] at h
      simp only at h
      split at h
      · cases h
      · rename_i hs
        simp only [Bool.not_eq_true', Bool.not_eq_false, Ty.sameAll_iff] at hs
        injection h with h
        injection h with h1 h2
        injection h1 with h1 h3
        subst h2 h1 h3
        have hkey : e.key = instanceKey vis t args := by
          unfold findEntry at hf
          obtain ⟨hi, hp, _⟩ := List.findIdx?_eq_some_iff_getElem.mp hf
          have : e = st.entries[i] := by
            rw [List.getElem?_eq_getElem hi] at he
            exact (Option.some.inj he).symm
          subst this
          simpa [Entry.key] using hp
        refine ⟨⟨?_, ?_, hinv.unique⟩, ⟨?_, List.prefix_rfl⟩, i, e, he, rfl, ?_, ?_, .inl rfl⟩
        · intro c hc
          rcases List.mem_cons.mp hc with rfl | hc
          · exact ⟨e, he, hkey, hs⟩
          · exact hinv.call c hc
        · intro i e he
          obtain ⟨c, hc, h⟩ := hinv.entry i e he
          exact ⟨c, List.mem_cons_of_mem _ hc, h⟩
        · exact fun c hc => List.mem_cons_of_mem _ hc
        · exact List.mem_cons_self
        · intro c hc
          rcases List.mem_cons.mp hc with rfl | hc
          · exact .inr rfl
          · exact .inl hc

theorem T_bind_ok {α β : Type} {x : T α} {f : α → T β} {st st'' : State} {b : β}
    (h : (x >>= f) st = .ok (b, st'')) : ∃ a st', x st = .ok (a, st') ∧ f a st' = .ok (b, st'') := by
  simp only [bind, StateT.bind, Except.bind] at h
  rcases hx : x st with e | ⟨a, st'⟩
  · rw [hx] at h; cases h
  · rw [hx] at h
    exact ⟨a, st', rfl, h⟩

theorem T_pure_ok {α : Type} {a b : α} {st st' : State} (h : (pure a : T α) st = .ok (b, st')) : a = b ∧ st = st' := by
  simp only [pure, StateT.pure, Except.pure] at h
  injection h with h
  injection h with h1 h2
  exact ⟨h1, h2⟩

theorem visitAll_inv {f : TypeRef → T TypeRef}
    (hf : ∀ r st r' st', f r st = .ok (r', st') → Inv st → Inv st' ∧ Grows st st') :
    ∀ rs st rs' st', visitAll f rs st = .ok (rs', st') → Inv st → Inv st' ∧ Grows st st'
  | [], st, rs', st', h, hi => by
    obtain ⟨_, rfl⟩ := T_pure_ok h
    exact ⟨hi, .refl _⟩
  | r :: rest, st, rs', st', h, hi => by
    obtain ⟨r1, st1, h1, h⟩ := T_bind_ok h
    obtain ⟨r2, st2, h2, h⟩ := T_bind_ok h
    obtain ⟨_, rfl⟩ := T_pure_ok h
    obtain ⟨i1, g1⟩ := hf _ _ _ _ h1 hi
    obtain ⟨i2, g2⟩ := visitAll_inv hf rest _ _ _ h2 i1
    exact ⟨i2, g1.trans g2⟩

theorem visit_other {ts : List TemplateDef} {vis : List InstantiateDecl} {n : Nat} {r r' : TypeRef} {st st' : State}
    (hr : ∀ id args, r ≠ .template id args) (h : visit ts vis n r st = .ok (r', st')) : r' = r ∧ st' = st := by
  cases n with
  | zero => simp only [visit] at h; cases h
  | succ n =>
    cases r with
    | template id args => exact absurd rfl (hr id args)
    | _ =>
      simp only [visit] at h
      obtain ⟨h1, h2⟩ := T_pure_ok h
      exact ⟨h1.symm, h2.symm⟩

theorem visit_template {ts : List TemplateDef} {vis : List InstantiateDecl} {n : Nat} {id : TypeId} {args : List TypeRef}
    {r' : TypeRef} {st st' : State} (h : visit ts vis n (.template id args) st = .ok (r', st')) :
    ∃ m args' st1 st2 refs rs, n = m + 1 ∧ visitAll (visit ts vis m) args st = .ok (args', st1) ∧
      instantiate ts vis id args' st1 = .ok ((r', refs), st2) ∧ visitAll (visit ts vis m) refs st2 = .ok (rs, st') := by
  cases n with
  | zero => simp only [visit] at h; cases h
  | succ n =>
    simp only [visit] at h
    obtain ⟨args', st1, h1, h⟩ := T_bind_ok h
    obtain ⟨⟨r, refs⟩, st2, h2, h⟩ := T_bind_ok h
    obtain ⟨rs, st3, h3, h⟩ := T_bind_ok h
    obtain ⟨rfl, rfl⟩ := T_pure_ok h
    exact ⟨n, args', st1, st2, refs, rs, rfl, h1, h2, h3⟩

theorem visit_inv {ts : List TemplateDef} {vis : List InstantiateDecl} :
    ∀ n r st r' st', visit ts vis n r st = .ok (r', st') → Inv st → Inv st' ∧ Grows st st' := by
  intro n
  induction n with
  | zero => intro r st r' st' h; simp only [visit] at h; cases h
  | succ n ih =>
    intro r st r' st' h hi
    by_cases hr : ∃ id args, r = .template id args
    · obtain ⟨id, args, rfl⟩ := hr
      obtain ⟨m, args', st1, st2, refs, rs, hn, h1, h2, h3⟩ := visit_template h
      injection hn with hn
      subst hn
      obtain ⟨i1, g1⟩ := visitAll_inv ih _ _ _ _ h1 hi
      obtain ⟨i2, g2, _⟩ := instantiate_inv h2 i1
      obtain ⟨i3, g3⟩ := visitAll_inv ih _ _ _ _ h3 i2
      exact ⟨i3, (g1.trans g2).trans g3⟩
    · obtain ⟨_, rfl⟩ := visit_other (fun id args he => hr ⟨id, args, he⟩) h
      exact ⟨hi, .refl _⟩

theorem visitRoot_inv {ts : List TemplateDef} {n : Nat} :
    ∀ refs st rs st', visitRoot ts n refs st = .ok (rs, st') → Inv st → Inv st' ∧ Grows st st'
  | [], st, rs', st', h, hi => by
    obtain ⟨_, rfl⟩ := T_pure_ok h
    exact ⟨hi, .refl _⟩
  | (vis, r) :: rest, st, rs', st', h, hi => by
    obtain ⟨r1, st1, h1, h⟩ := T_bind_ok h
    obtain ⟨r2, st2, h2, h⟩ := T_bind_ok h
    obtain ⟨_, rfl⟩ := T_pure_ok h
    obtain ⟨i1, g1⟩ := visit_inv _ _ _ _ _ h1 hi
    obtain ⟨i2, g2⟩ := visitRoot_inv rest _ _ _ h2 i1
    exact ⟨i2, g1.trans g2⟩

mutual
/-- References the templator gets to in a schema without declarations `instantiate`. -/
def TypeRef.Mixed : TypeRef → Prop
  | .builtin _ | .type _ => True
  | .template _ args => AllMixed args
  | .subtype (.builtin _) | .subtype (.type _) => True
  | .inst source _ pkg template args => template = source ∧ pkg = source.pkg ∧ AllSettled [] args
  | _ => False
/-- All of them. -/
def AllMixed : List TypeRef → Prop
  | [] => True
  | r :: rest => r.Mixed ∧ AllMixed rest
end

theorem visible_nil (t : TypeId) (args : List TypeRef) : visible [] t args = none := rfl

theorem settled_mixed : ∀ {r : TypeRef}, r.Settled [] → r.Mixed
  | .builtin _, _ => by simp [TypeRef.Mixed]
  | .type _, _ => by simp [TypeRef.Mixed]
  | .subtype (.builtin _), _ => by simp [TypeRef.Mixed]
  | .subtype (.type _), _ => by simp [TypeRef.Mixed]
  | .inst source i pkg template args, h => by
    simp only [TypeRef.Settled] at h
    simp [TypeRef.Mixed, h]
  | .param _, h => by simp [TypeRef.Settled] at h
  | .template _ _, h => by simp [TypeRef.Settled] at h
  | .instantiateType _ _, h => by simp [TypeRef.Settled] at h
  | .subtype (.param _), h => by simp [TypeRef.Settled] at h
  | .subtype (.template _ _), h => by simp [TypeRef.Settled] at h
  | .subtype (.inst _ _ _ _ _), h => by simp [TypeRef.Settled] at h
  | .subtype (.subtype _), h => by simp [TypeRef.Settled] at h
  | .subtype (.instantiateType _ _), h => by simp [TypeRef.Settled] at h

theorem settled_allMixed : ∀ {rs : List TypeRef}, AllSettled [] rs → AllMixed rs
  | [], _ => by simp [AllMixed]
  | r :: rest, h => by
    simp only [AllSettled] at h
    simp [AllMixed, settled_mixed h.1, settled_allMixed h.2]

theorem allSettled_getElem? : ∀ {rs : List TypeRef} {i : Nat} {r : TypeRef}, AllSettled [] rs → rs[i]? = some r → r.Settled []
  | [], _, _, _, h => by simp at h
  | r :: rest, 0, r', hs, h => by
    simp only [AllSettled] at hs
    simp at h
    exact h ▸ hs.1
  | r :: rest, i + 1, r', hs, h => by
    simp only [AllSettled] at hs
    exact allSettled_getElem? hs.2 (by simpa using h)

theorem mixed_settled : ∀ {r : TypeRef}, r.Mixed → (∀ id args, r ≠ .template id args) → r.Settled []
  | .builtin _, _, _ => by simp [TypeRef.Settled]
  | .type _, _, _ => by simp [TypeRef.Settled]
  | .subtype (.builtin _), _, _ => by simp [TypeRef.Settled]
  | .subtype (.type _), _, _ => by simp [TypeRef.Settled]
  | .inst source i pkg template args, h, _ => by
    simp only [TypeRef.Mixed] at h
    simp [TypeRef.Settled, h, visible_nil]
  | .param _, h, _ => by simp [TypeRef.Mixed] at h
  | .template id args, _, h => absurd rfl (h id args)
  | .instantiateType _ _, h, _ => by simp [TypeRef.Mixed] at h
  | .subtype (.param _), h, _ => by simp [TypeRef.Mixed] at h
  | .subtype (.template _ _), h, _ => by simp [TypeRef.Mixed] at h
  | .subtype (.inst _ _ _ _ _), h, _ => by simp [TypeRef.Mixed] at h
  | .subtype (.subtype _), h, _ => by simp [TypeRef.Mixed] at h
  | .subtype (.instantiateType _ _), h, _ => by simp [TypeRef.Mixed] at h

mutual
theorem simple_subst {actual : List TypeRef} (ha : AllSettled [] actual) :
    ∀ r : TypeRef, r.Simple actual.length → (r.subst actual).Mixed
  | .builtin _, _ => by simp [TypeRef.subst, TypeRef.Mixed]
  | .type _, _ => by simp [TypeRef.subst, TypeRef.Mixed]
  | .subtype (.builtin _), _ => by simp [TypeRef.subst, TypeRef.Mixed]
  | .subtype (.type _), _ => by simp [TypeRef.subst, TypeRef.Mixed]
  | .param i, h => by
    simp only [TypeRef.Simple] at h
    have hi : actual[i]? = some actual[i] := List.getElem?_eq_getElem h
    have hs := allSettled_getElem? ha hi
    simp only [TypeRef.subst, hi]
    have key : ∀ r : TypeRef, r.Settled [] → TypeRef.Mixed (match some r with
        | some (.inst source _ _ _ args) => .template source args
        | some r => r
        | none => .param i) := by
      intro r hs
      cases r with
      | inst source j pkg template args =>
        simp only [TypeRef.Settled] at hs
        simp only [TypeRef.Mixed]
        exact settled_allMixed hs.2.2.2
      | _ => exact settled_mixed hs
    exact key _ hs
  | .template id args, h => by
    simp only [TypeRef.Simple] at h
    simp [TypeRef.subst, TypeRef.Mixed, simple_substAll ha args h]
  | .inst _ _ _ _ _, h => by simp [TypeRef.Simple] at h
  | .instantiateType _ _, h => by simp [TypeRef.Simple] at h
  | .subtype (.param _), h => by simp [TypeRef.Simple] at h
  | .subtype (.template _ _), h => by simp [TypeRef.Simple] at h
  | .subtype (.inst _ _ _ _ _), h => by simp [TypeRef.Simple] at h
  | .subtype (.subtype _), h => by simp [TypeRef.Simple] at h
  | .subtype (.instantiateType _ _), h => by simp [TypeRef.Simple] at h
theorem simple_substAll {actual : List TypeRef} (ha : AllSettled [] actual) :
    ∀ rs : List TypeRef, AllSimple actual.length rs → AllMixed (substAll actual rs)
  | [], _ => by simp [substAll, AllMixed]
  | r :: rest, h => by
    simp only [AllSimple] at h
    simp [substAll, AllMixed, simple_subst ha r h.1, simple_substAll ha rest h.2]
end

mutual
theorem simple_mixed : ∀ r : TypeRef, r.Simple 0 → r.Mixed
  | .builtin _, _ => by simp [TypeRef.Mixed]
  | .type _, _ => by simp [TypeRef.Mixed]
  | .subtype (.builtin _), _ => by simp [TypeRef.Mixed]
  | .subtype (.type _), _ => by simp [TypeRef.Mixed]
  | .param i, h => by simp [TypeRef.Simple] at h
  | .template id args, h => by
    simp only [TypeRef.Simple] at h
    simp [TypeRef.Mixed, allSimple_mixed args h]
  | .inst _ _ _ _ _, h => by simp [TypeRef.Simple] at h
  | .instantiateType _ _, h => by simp [TypeRef.Simple] at h
  | .subtype (.param _), h => by simp [TypeRef.Simple] at h
  | .subtype (.template _ _), h => by simp [TypeRef.Simple] at h
  | .subtype (.inst _ _ _ _ _), h => by simp [TypeRef.Simple] at h
  | .subtype (.subtype _), h => by simp [TypeRef.Simple] at h
  | .subtype (.instantiateType _ _), h => by simp [TypeRef.Simple] at h
theorem allSimple_mixed : ∀ rs : List TypeRef, AllSimple 0 rs → AllMixed rs
  | [], _ => by simp [AllMixed]
  | r :: rest, h => by
    simp only [AllSimple] at h
    simp [AllMixed, simple_mixed r h.1, allSimple_mixed rest h.2]
end

/-- A state all of whose calls have had arguments which are settled. -/
def Ready (st : State) : Prop := Inv st ∧ ∀ c ∈ st.calls, c.vis = [] ∧ AllSettled [] c.args

/-- Every call of a state returns the instantiation asked for. -/
theorem Inv.made {st : State} (h : Inv st) {c : Call} (hc : c ∈ st.calls)
    (hd : ∀ c' ∈ st.calls, ∀ d ∈ c'.vis, ∀ d' ∈ c.vis, d.id = d'.id → d = d')
    (hs : ∀ c' ∈ st.calls, keys c'.args = keys c.args → AllSettled c'.vis c'.args)
    (hn : ∀ c' ∈ st.calls, ¬ c'.Collides c) : st.Made c.index c.template (denotes c.args) := by
  obtain ⟨e, he, hk, ha⟩ := h.call c hc
  obtain ⟨c0, hc0, _, ht, hargs, hk0⟩ := h.entry _ e he
  have hk' : keys c0.args = keys c.args := by rw [hargs, ha]
  obtain ⟨h1, h2⟩ := same_template (hs c0 hc0 hk') (hs c hc rfl) (hd c0 hc0) (hn c0 hc0) (hk0.trans hk) hk'
  exact ⟨e, he, ht ▸ h1, hargs ▸ h2⟩

theorem visit_mixed {ts : List TemplateDef} (hts : ∀ t ∈ ts, AllSimple t.params t.refs) {F : State}
    (hF : ∀ c ∈ F.calls, ∀ c' ∈ F.calls, ¬ c.Collides c') :
    ∀ n r st r' st', r.Mixed → Ready st → visit ts [] n r st = .ok (r', st') → Grows st' F →
      Ready st' ∧ Grows st st' ∧ r'.Settled [] ∧ r'.denote = r.denote ∧ st'.Resolved r r' := by
  intro n
  induction n with
  | zero => intro r st r' st' _ _ h; simp only [visit] at h; cases h
  | succ n ih =>
    intro r st r' st' hm hr h hg
    have ihAll : ∀ rs st rs' st', AllMixed rs → Ready st → visitAll (visit ts [] n) rs st = .ok (rs', st') → Grows st' F →
        Ready st' ∧ Grows st st' ∧ AllSettled [] rs' ∧ denotes rs' = denotes rs := by
      intro rs
      induction rs with
      | nil =>
        intro st rs' st' _ hr h _
        obtain ⟨rfl, rfl⟩ := T_pure_ok h
        exact ⟨hr, .refl _, by simp [AllSettled], rfl⟩
      | cons r rest ihr =>
        intro st rs' st' hm hr h hg
        simp only [AllMixed] at hm
        obtain ⟨r1, st1, h1, h⟩ := T_bind_ok h
        obtain ⟨r2, st2, h2, h⟩ := T_bind_ok h
        obtain ⟨rfl, rfl⟩ := T_pure_ok h
        obtain ⟨i1, _⟩ := visit_inv _ _ _ _ _ h1 hr.1
        obtain ⟨_, g2⟩ := visitAll_inv (visit_inv _) _ _ _ _ h2 i1
        obtain ⟨a1, a2, a3, a4, _⟩ := ih _ _ _ _ hm.1 hr h1 (g2.trans hg)
        obtain ⟨b1, b2, b3, b4⟩ := ihr _ _ _ hm.2 a1 h2 hg
        exact ⟨b1, a2.trans b2, by simp [AllSettled, a3, b3], by simp [denotes, a4, b4]⟩
    by_cases ht : ∃ id args, r = .template id args
    · obtain ⟨id, args, rfl⟩ := ht
      simp only [TypeRef.Mixed] at hm
      obtain ⟨m, args', st1, st2, refs, rs, hn, h1, h2, h3⟩ := visit_template h
      injection hn with hn
      subst hn
      obtain ⟨i1, g1⟩ := visitAll_inv (visit_inv _) _ _ _ _ h1 hr.1
      obtain ⟨i2, g2, i, e, he, hr', hmem, hcalls, hrefs⟩ := instantiate_inv h2 i1
      obtain ⟨i3, g3⟩ := visitAll_inv (visit_inv _) _ _ _ _ h3 i2
      obtain ⟨a1, a2, a3, a4⟩ := ihAll _ _ _ _ hm hr h1 ((g2.trans g3).trans hg)
      have ready2 : Ready st2 := by
        refine ⟨i2, fun c hc => ?_⟩
        rcases hcalls c hc with hc | rfl
        · exact a1.2 c hc
        · exact ⟨rfl, a3⟩
      have gF := g3.trans hg
      have hmade := i2.made hmem (by intro c' hc' d hd; rw [(ready2.2 c' hc').1] at hd; simp at hd)
        (fun c' hc' _ => by rw [(ready2.2 c' hc').1]; exact (ready2.2 c' hc').2)
        (fun c' hc' => hF c' (gF.calls c' hc') _ (gF.calls _ hmem))
      obtain ⟨e', he', ht, hden⟩ := hmade
      simp only at he' ht hden
      rw [he] at he'
      obtain rfl := Option.some.inj he'
      have hpkg : e.pkg = id.pkg := by
        obtain ⟨c0, hc0, _, ht0, hargs, hk0⟩ := i2.entry _ e he
        have : c0.key = (c0.template.pkg, shortName c0.vis c0.template c0.args, hashCode c0.vis c0.template c0.args) := by
          unfold Call.key instanceKey
          rw [(ready2.2 c0 hc0).1, visible_nil]
        rw [this] at hk0
        have h1 : c0.template.pkg = e.pkg := congrArg Prod.fst hk0
        rw [← h1, ht0, ht]
      have hmix : AllMixed refs := by
        rcases hrefs with rfl | hrefs
        · simp [AllMixed]
        · unfold instantiateRefs at hrefs
          split at hrefs
          · cases hrefs
          · rename_i t htm
            split at hrefs
            · cases hrefs
            · rename_i hlen
              injection hrefs with hrefs
              subst hrefs
              have := hts t (List.mem_of_find?_eq_some htm)
              rw [Decidable.of_not_not hlen] at this
              exact simple_substAll a3 _ this
      obtain ⟨b1, b2, _, _⟩ := ihAll _ _ _ _ hmix ready2 h3 hg
      subst hr'
      refine ⟨b1, (a2.trans g2).trans b2, ?_, ?_, ?_⟩
      · simp [TypeRef.Settled, ht, hpkg, visible_nil, a3]
      · simp [TypeRef.denote, a4]
      · simp only [State.Resolved]
        exact ⟨i, e.pkg, args', by rw [ht], a4, b2.made ⟨e, he, ht, by rw [hden, a4]⟩⟩
    · have ht' : ∀ id args, r ≠ .template id args := fun id args he => ht ⟨id, args, he⟩
      obtain ⟨rfl, rfl⟩ := visit_other ht' h
      refine ⟨hr, .refl _, mixed_settled hm ht', rfl, ?_⟩
      cases r' with
      | template id args => exact absurd rfl (ht' id args)
      | _ => simp [State.Resolved]

theorem visitRoot_mixed {ts : List TemplateDef} (hts : ∀ t ∈ ts, AllSimple t.params t.refs) {n : Nat} {F : State}
    (hF : ∀ c ∈ F.calls, ∀ c' ∈ F.calls, ¬ c.Collides c') :
    ∀ refs st rs st', (∀ p ∈ refs, p.1 = [] ∧ p.2.Simple 0) → Ready st → visitRoot ts n refs st = .ok (rs, st') →
      Grows st' F → Ready st' ∧ ∀ (i : Nat) p, refs[i]? = some p → ∃ r, rs[i]? = some r ∧ st'.Resolved p.2 r
  | [], st, rs, st', _, hr, h, _ => by
    obtain ⟨rfl, rfl⟩ := T_pure_ok h
    exact ⟨hr, by simp⟩
  | (vis, r) :: rest, st, rs, st', hp, hr, h, hg => by
    obtain ⟨r1, st1, h1, h⟩ := T_bind_ok h
    obtain ⟨r2, st2, h2, h⟩ := T_bind_ok h
    obtain ⟨rfl, rfl⟩ := T_pure_ok h
    obtain ⟨hv, hs⟩ := hp _ List.mem_cons_self
    simp only at hv hs
    subst hv
    obtain ⟨i1, _⟩ := visit_inv _ _ _ _ _ h1 hr.1
    obtain ⟨_, g2⟩ := visitRoot_inv rest _ _ _ h2 i1
    obtain ⟨a1, _, _, _, a5⟩ := visit_mixed hts hF _ _ _ _ _ (simple_mixed r hs) hr h1 (g2.trans hg)
    obtain ⟨b1, b2⟩ := visitRoot_mixed hts hF rest _ _ _ (fun p hp' => hp p (List.mem_cons_of_mem _ hp')) a1 h2 hg
    refine ⟨b1, fun i p hi => ?_⟩
    cases i with
    | zero =>
      simp at hi
      subst hi
      refine ⟨r1, by simp, ?_⟩
      cases r with
      | template id args =>
        simp only [State.Resolved] at a5 ⊢
        obtain ⟨i, pkg, args', h1, h2, h3⟩ := a5
        exact ⟨i, pkg, args', h1, h2, g2.made h3⟩
      | _ => simpa [State.Resolved] using a5
    | succ i =>
      obtain ⟨r, h1, h2⟩ := b2 i p (by simpa using hi)
      exact ⟨r, by simpa using h1, h2⟩

/-- A property of the state which `instantiate` keeps is kept by visits. -/
theorem visit_keeps {ts : List TemplateDef} {P : State → Prop}
    (hP : ∀ vis t args st x st', instantiate ts vis t args st = .ok (x, st') → P st → P st') {vis : List InstantiateDecl} :
    ∀ n r st r' st', visit ts vis n r st = .ok (r', st') → P st → P st' := by
  intro n
  induction n with
  | zero => intro r st r' st' h; simp only [visit] at h; cases h
  | succ n ih =>
    intro r st r' st' h hi
    have ihAll : ∀ rs st rs' st', visitAll (visit ts vis n) rs st = .ok (rs', st') → P st → P st' := by
      intro rs
      induction rs with
      | nil =>
        intro st rs' st' h hp
        obtain ⟨_, rfl⟩ := T_pure_ok h
        exact hp
      | cons r rest ihr =>
        intro st rs' st' h hp
        obtain ⟨r1, st1, h1, h⟩ := T_bind_ok h
        obtain ⟨r2, st2, h2, h⟩ := T_bind_ok h
        obtain ⟨_, rfl⟩ := T_pure_ok h
        exact ihr _ _ _ h2 (ih _ _ _ _ h1 hp)
    by_cases hr : ∃ id args, r = .template id args
    · obtain ⟨id, args, rfl⟩ := hr
      obtain ⟨m, args', st1, st2, refs, rs, hn, h1, h2, h3⟩ := visit_template h
      injection hn with hn
      subst hn
      exact ihAll _ _ _ _ h3 (hP _ _ _ _ _ _ h2 (ihAll _ _ _ _ h1 hi))
    · obtain ⟨_, rfl⟩ := visit_other (fun id args he => hr ⟨id, args, he⟩) h
      exact hi

theorem visitRoot_keeps {ts : List TemplateDef} {P : State → Prop}
    (hP : ∀ vis t args st x st', instantiate ts vis t args st = .ok (x, st') → P st → P st') {n : Nat} :
    ∀ refs st rs st', visitRoot ts n refs st = .ok (rs, st') → P st → P st'
  | [], st, rs', st', h, hi => by
    obtain ⟨_, rfl⟩ := T_pure_ok h
    exact hi
  | (vis, r) :: rest, st, rs', st', h, hi => by
    obtain ⟨r1, st1, h1, h⟩ := T_bind_ok h
    obtain ⟨r2, st2, h2, h⟩ := T_bind_ok h
    obtain ⟨_, rfl⟩ := T_pure_ok h
    exact visitRoot_keeps hP rest _ _ _ h2 (visit_keeps hP _ _ _ _ _ h1 hi)

/-- What the state of the map of clashes is. -/
structure ClashInv (st : State) : Prop where
  has : ∀ k, hasShort k st.clashes = true ↔ ∃ e ∈ st.entries, (e.pkg, e.short) = k
  clash : ∀ k, isClash k st.clashes = true ↔
    ∃ i j : Nat, i < j ∧ (∃ e, st.entries[i]? = some e ∧ (e.pkg, e.short) = k) ∧
      ∃ e, st.entries[j]? = some e ∧ (e.pkg, e.short) = k

theorem ClashInv.start : ClashInv {} := ⟨by simp [hasShort], by simp [isClash]⟩

theorem instantiate_clash {ts : List TemplateDef} {vis : List InstantiateDecl} {t : TypeId} {args : List TypeRef}
    {st st' : State} {x : TypeRef × List TypeRef} (h : instantiate ts vis t args st = .ok (x, st')) (hc : ClashInv st) :
    ClashInv st' := by
  unfold instantiate at h
  simp only at h
  rcases hf : findEntry (instanceKey vis t args) st.entries with _ | i
  · rw [hf] at h
    simp only at h
    rcases hr : instantiateRefs ts t args with er | rs
    · rw [hr] at h; cases h
    · rw [hr] at h
      injection h with h
      injection h with h1 h2
      subst h2
      generalize hk : instanceKey vis t args = k at *
      constructor
      · intro k'
        have := hc.has k'
        simp only [hasShort, List.any_cons, Bool.or_eq_true, decide_eq_true_eq, List.mem_append, List.mem_singleton] at this ⊢
        rw [this]
        constructor
        · rintro (rfl | ⟨e, he, rfl⟩)
          · exact ⟨_, .inr rfl, rfl⟩
          · exact ⟨e, .inl he, rfl⟩
        · rintro ⟨e, he | rfl, rfl⟩
          · exact .inr ⟨e, he, rfl⟩
          · exact .inl rfl
      · intro k'
        by_cases hkk : (k.1, k.2.1) = k'
        · subst hkk
          have h1 : isClash (k.1, k.2.1) (((k.1, k.2.1), hasShort (k.1, k.2.1) st.clashes) :: st.clashes) =
              hasShort (k.1, k.2.1) st.clashes := by simp [isClash]
          rw [h1, hc.has]
          constructor
          · rintro ⟨e, he, hk⟩
            obtain ⟨i, hi, rfl⟩ := List.getElem_of_mem he
            refine ⟨i, st.entries.length, hi, ⟨st.entries[i], ?_, hk⟩, ⟨k.1, k.2.1, k.2.2, t, args⟩, ?_, rfl⟩
            · rw [List.getElem?_append_left hi, List.getElem?_eq_getElem hi]
            · simp
          · rintro ⟨i, j, hij, ⟨e, he, hk⟩, e', he', _⟩
            have hj := (List.getElem?_eq_some_iff.mp he').1
            simp at hj
            rw [List.getElem?_append_left (by omega)] at he
            exact ⟨e, List.mem_of_getElem? he, hk⟩
        · have h1 : isClash k' (((k.1, k.2.1), hasShort (k.1, k.2.1) st.clashes) :: st.clashes) =
              isClash k' st.clashes := by simp [isClash, List.find?_cons, hkk]
          rw [h1, hc.clash]
          constructor
          · rintro ⟨i, j, hij, ⟨e, he, hk⟩, e', he', hk'⟩
            refine ⟨i, j, hij, ⟨e, ?_, hk⟩, e', ?_, hk'⟩
            · rw [List.getElem?_append_left (List.getElem?_eq_some_iff.mp he).1, he]
            · rw [List.getElem?_append_left (List.getElem?_eq_some_iff.mp he').1, he']
          · rintro ⟨i, j, hij, ⟨e, he, hk⟩, e', he', hk'⟩
            have hj : j < st.entries.length := by
              have hj := (List.getElem?_eq_some_iff.mp he').1
              simp at hj
              rcases Nat.lt_or_ge j st.entries.length with h | h
              · exact h
              · have : j = st.entries.length := by omega
                subst this
                simp at he'
                subst he'
                exact absurd hk' hkk
            rw [List.getElem?_append_left (by omega)] at he
            rw [List.getElem?_append_left hj] at he'
            exact ⟨i, j, hij, ⟨e, he, hk⟩, e', he', hk'⟩
  · rw [hf] at h
    simp only at h
    rcases he : st.entries[i]? with _ | e
    · rw [he] at h; cases h
    · rw [he] at h
      simp only at h
      split at h
      · cases h
      · injection h with h
        injection h with h1 h2
        subst h2
        exact ⟨hc.has, hc.clash⟩

theorem resolveNames_ok {locals : PackageName → List PyStr} {clashes : List ((PackageName × PyStr) × Bool)} :
    ∀ {entries : List Entry} {names : List PyStr}, resolveNames locals clashes entries = .ok names →
      ∀ (i : Nat) e, entries[i]? = some e → ∃ name, names[i]? = some name ∧ resolveName locals clashes e = .ok name
  | [], _, _, i, e, he => by simp at he
  | e :: rest, names, h, i, e', he => by
    simp only [resolveNames, bind, Except.bind] at h
    rcases hn : resolveName locals clashes e with er | name
    · rw [hn] at h; cases h
    rw [hn] at h
    simp only at h
    rcases hr : resolveNames locals clashes rest with er | ns
    · rw [hr] at h; cases h
    rw [hr] at h
    injection h with h
    subst h
    cases i with
    | zero =>
      simp at he
      subst he
      exact ⟨name, by simp, hn⟩
    | succ i =>
      obtain ⟨m, h1, h2⟩ := resolveNames_ok hr i e' (by simpa using he)
      exact ⟨m, by simpa using h1, h2⟩

theorem templator_ok {ts : List TemplateDef} {locals : PackageName → List PyStr} {n : Nat}
    {refs : List (List InstantiateDecl × TypeRef)} {res : Result} (h : templator ts locals n refs = .ok res) :
    visitRoot ts n refs {} = .ok (res.refs, res.state) ∧
    resolveNames locals res.state.clashes res.state.entries = .ok res.names := by
  simp only [templator, bind, Except.bind, StateT.run] at h
  rcases hv : visitRoot ts n refs {} with er | ⟨rs, st⟩
  · rw [hv] at h; cases h
  rw [hv] at h
  simp only at h
  rcases hr : resolveNames locals st.clashes st.entries with er | ns
  · rw [hr] at h; cases h
  rw [hr] at h
  injection h with h
  subst h
  exact ⟨rfl, hr⟩

theorem shortName_length (vis : List InstantiateDecl) (t : TypeId) (args : List TypeRef) :
    (shortName vis t args).length ≤ 64 := by
  unfold shortName maxLength
  simp only
  split
  · simp
  · omega

theorem withHash_length {short hash : PyStr} (h : hash.length = 8) : (withHash short hash).length ≤ 64 := by
  unfold withHash maxLength
  simp only [h]
  split
  · simp; omega
  · simp; omega

end Zserio.Templates
