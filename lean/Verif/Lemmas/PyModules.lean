import Verif.Spec.PyModules

set_option linter.unusedSimpArgs false

/-! General facts about the execution of modules which import each other. -/

namespace Zserio.Imports

open Zserio

/-- nothing is forgotten -/
structure State.Le (a b : State) : Prop where
  started : ∀ x ∈ a.started, x ∈ b.started
  complete : ∀ x ∈ a.complete, x ∈ b.complete
  defined : ∀ x ∈ a.defined, x ∈ b.defined

theorem State.Le.refl (a : State) : a.Le a := ⟨fun _ h => h, fun _ h => h, fun _ h => h⟩

theorem State.Le.trans {a b c : State} (h1 : a.Le b) (h2 : b.Le c) : a.Le c :=
  ⟨fun x h => h2.started x (h1.started x h), fun x h => h2.complete x (h1.complete x h),
    fun x h => h2.defined x (h1.defined x h)⟩

theorem Reaches.trans {prog : Program} {a b c : Path} (h1 : Reaches prog a b) (h2 : Reaches prog b c) : Reaches prog a c := by
  induction h1 with
  | refl => exact h2
  | step hb hp _ ih => exact .step hb hp (ih h2)

/-- paths of `import` statements -/
def impsOf (body : List Stmt) : List Path :=
  body.filterMap fun s => match s with | .imp p => some p | _ => none

/-- what makes the execution of all modules succeed -/
structure Sound (prog : Program) (mods : List Path) : Prop where
  finite : ∀ m body, prog m = some body → m ∈ mods
  closed : ∀ m body, prog m = some body → ∀ p ∈ importsOf body, ∃ b, prog p = some b
  evals : ∀ m pre p n post, prog m = some (pre ++ .eval p n :: post) →
    ∃ q ∈ impsOf pre, (∃ a, p.head? = some a ∧ q.head? = some a) ∧ ¬ Reaches prog q m ∧
      (p = q ∨ (∃ bq, prog q = some bq ∧ p ∈ importsOf bq ∧ ¬ Reaches prog p m)) ∧ ∃ bp, prog p = some bp ∧ n ∈ definesOf bp
  froms : ∀ m pre p n post, prog m = some (pre ++ .fromImp p n :: post) →
    ¬ Reaches prog p m ∧ ∃ bp, prog p = some bp ∧ n ∈ definesOf bp

/-- what is started is complete or is being executed; what is complete is complete -/
structure Inv (prog : Program) (st : State) (active : List Path) : Prop where
  started : ∀ x ∈ st.started, x ∈ st.complete ∨ x ∈ active
  complete : ∀ x ∈ st.complete, ∃ b, prog x = some b ∧ (∀ p ∈ importsOf b, p ∈ st.started) ∧
    ∀ n ∈ definesOf b, (x, n) ∈ st.defined

def unstarted (mods : List Path) (st : State) : Nat := (mods.filter fun x => decide (x ∉ st.started)).length

theorem unstarted_le {mods : List Path} {a b : State} (h : a.Le b) : unstarted mods b ≤ unstarted mods a := by
  unfold unstarted
  induction mods with
  | nil => simp
  | cons x r ih =>
    by_cases hx : x ∈ a.started
    · have := h.started x hx
      simpa [hx, this] using ih
    · by_cases hy : x ∈ b.started
      · simp [hx, hy]; simp at ih; omega
      · simp [hx, hy]; simpa using ih

theorem unstarted_lt {mods : List Path} {a b : State} (h : a.Le b) {m : Path} (hm : m ∈ mods) (ha : m ∉ a.started)
    (hb : m ∈ b.started) : unstarted mods b < unstarted mods a := by
  unfold unstarted
  induction mods with
  | nil => cases hm
  | cons x r ih =>
    have hle := unstarted_le (mods := r) h
    unfold unstarted at hle
    rcases List.mem_cons.1 hm with rfl | hm'
    · simp only [List.filter_cons, ha, hb, not_true_eq_false, not_false_eq_true, decide_true, decide_false,
        List.length_cons, if_true]
      simp at hle ⊢; omega
    · have ih := ih hm'
      by_cases hx : x ∈ a.started
      · have := h.started x hx
        simpa [hx, this] using ih
      · by_cases hy : x ∈ b.started
        · simp [hx, hy]; simp at ih; omega
        · simp [hx, hy]; simpa using ih

/-- the result of an import which succeeds -/
def ImportGoal (prog : Program) (st : State) (active : List Path) (m : Path) : Prop :=
  ∃ st', Imports prog st m st' ∧ Inv prog st' active ∧ st.Le st' ∧ m ∈ st'.started

theorem mem_importsOf_append {p : Path} {a b : List Stmt} : p ∈ importsOf (a ++ b) ↔ p ∈ importsOf a ∨ p ∈ importsOf b := by
  simp [importsOf, List.filterMap_append]

theorem mem_definesOf_append {n : PyStr} {a b : List Stmt} : n ∈ definesOf (a ++ b) ↔ n ∈ definesOf a ∨ n ∈ definesOf b := by
  simp [definesOf, List.filterMap_append]

theorem mem_impsOf_append {p : Path} {a b : List Stmt} : p ∈ impsOf (a ++ b) ↔ p ∈ impsOf a ∨ p ∈ impsOf b := by
  simp [impsOf, List.filterMap_append]

theorem impsOf_sub {p : Path} {a : List Stmt} (h : p ∈ impsOf a) : p ∈ importsOf a := by
  simp only [impsOf, importsOf, List.mem_filterMap] at *
  obtain ⟨s, hs, h⟩ := h
  refine ⟨s, hs, ?_⟩
  split at h <;> simp_all

theorem runs_body {prog : Program} {mods : List Path} (hs : Sound prog mods) {m : Path} {body : List Stmt}
    (hb : prog m = some body) {active : List Path} (ha : ∀ a ∈ active, Reaches prog a m) {k : Nat}
    (IH : ∀ st m', Inv prog st (m :: active) → unstarted mods st ≤ k → (∃ b, prog m' = some b) →
      (∀ a ∈ m :: active, Reaches prog a m') → ImportGoal prog st (m :: active) m') :
    ∀ (rest pre : List Stmt) (st : State) (bound : List PyStr), body = pre ++ rest → Inv prog st (m :: active) →
      m ∈ st.started → unstarted mods st ≤ k → (∀ q ∈ importsOf pre, q ∈ st.started) →
      (∀ q ∈ impsOf pre, ∀ a, q.head? = some a → a ∈ bound) → (∀ n ∈ definesOf pre, (m, n) ∈ st.defined) →
      ∃ st', Runs prog st m bound rest st' ∧ Inv prog st' (m :: active) ∧ st.Le st' ∧
        (∀ q ∈ importsOf body, q ∈ st'.started) ∧ (∀ n ∈ definesOf body, (m, n) ∈ st'.defined) := by
  intro rest
  induction rest with
  | nil =>
    intro pre st bound hbody hinv hm hk h1 h2 h3
    rw [List.append_nil] at hbody
    subst hbody
    exact ⟨st, .done, hinv, .refl _, h1, h3⟩
  | cons s rest ih =>
    intro pre st bound hbody hinv hm hk h1 h2 h3
    have hbody' : body = (pre ++ [s]) ++ rest := by simp [hbody]
    have reach : ∀ p ∈ importsOf body, ∀ a ∈ m :: active, Reaches prog a p := by
      intro p hp a ha'
      have hmp : Reaches prog m p := .step hb hp .refl
      rcases List.mem_cons.1 ha' with rfl | h
      · exact hmp
      · exact (ha a h).trans hmp
    -- a started module which does not reach `m` is complete
    have notActive : ∀ q, q ∈ st.started → ¬ Reaches prog q m → q ∈ st.complete := by
      intro q hq hn
      rcases hinv.started q hq with h | h
      · exact h
      · exfalso
        rcases List.mem_cons.1 h with rfl | h
        · exact hn .refl
        · exact hn (ha q h)
    cases s with
    | imp p =>
      have hp : p ∈ importsOf body := by rw [hbody, mem_importsOf_append]; right; simp [importsOf]
      obtain ⟨st1, hi, hinv1, hle, hps⟩ := IH st p hinv hk (hs.closed m body hb p hp) (reach p hp)
      obtain ⟨st', hr, hinv', hle', r1, r2⟩ := ih (pre ++ [.imp p]) st1 (p.head?.toList ++ bound) hbody' hinv1
        (hle.started m hm) (le_trans (unstarted_le hle) hk)
        (by
          intro q hq
          rw [mem_importsOf_append] at hq
          rcases hq with hq | hq
          · exact hle.started q (h1 q hq)
          · simp [importsOf] at hq; subst hq; exact hps)
        (by
          intro q hq a hqa
          rw [mem_impsOf_append] at hq
          rcases hq with hq | hq
          · exact List.mem_append.2 (.inr (h2 q hq a hqa))
          · simp [impsOf] at hq; subst hq; simp [hqa])
        (by
          intro n hn
          rw [mem_definesOf_append] at hn
          rcases hn with hn | hn
          · exact hle.defined _ (h3 n hn)
          · simp [definesOf] at hn)
      exact ⟨st', .imp hi hr, hinv', hle.trans hle', r1, r2⟩
    | fromImp p n =>
      have hp : p ∈ importsOf body := by rw [hbody, mem_importsOf_append]; right; simp [importsOf]
      obtain ⟨st1, hi, hinv1, hle, hps⟩ := IH st p hinv hk (hs.closed m body hb p hp) (reach p hp)
      obtain ⟨hnr, bp, hbp, hn⟩ := hs.froms m pre p n rest (by rw [hb, hbody])
      have hpc : p ∈ st1.complete := by
        rcases hinv1.started p hps with h | h
        · exact h
        · exfalso
          rcases List.mem_cons.1 h with rfl | h
          · exact hnr .refl
          · exact hnr (ha p h)
      obtain ⟨bp', hbp', _, hd⟩ := hinv1.complete p hpc
      rw [hbp] at hbp'; cases hbp'
      let st2 : State := { st1 with defined := (m, n) :: st1.defined }
      have hle2 : st1.Le st2 := ⟨fun _ h => h, fun _ h => h, fun _ h => List.mem_cons_of_mem _ h⟩
      have hinv2 : Inv prog st2 (m :: active) := ⟨hinv1.started, by
        intro x hx
        obtain ⟨b, e1, e2, e3⟩ := hinv1.complete x hx
        exact ⟨b, e1, e2, fun n hn => List.mem_cons_of_mem _ (e3 n hn)⟩⟩
      obtain ⟨st', hr, hinv', hle', r1, r2⟩ := ih (pre ++ [.fromImp p n]) st2 (n :: bound) hbody' hinv2
        (hle2.started _ (hle.started m hm)) (le_trans (unstarted_le (hle.trans hle2)) hk)
        (by
          intro q hq
          rw [mem_importsOf_append] at hq
          rcases hq with hq | hq
          · exact hle.started q (h1 q hq)
          · simp [importsOf] at hq; subst hq; exact hps)
        (by
          intro q hq a hqa
          rw [mem_impsOf_append] at hq
          rcases hq with hq | hq
          · exact List.mem_cons_of_mem _ (h2 q hq a hqa)
          · simp [impsOf] at hq)
        (by
          intro n' hn'
          rw [mem_definesOf_append] at hn'
          rcases hn' with hn' | hn'
          · exact (hle.trans hle2).defined _ (h3 n' hn')
          · simp [definesOf] at hn'; subst hn'; exact List.mem_cons_self)
      exact ⟨st', .fromImp hi (hd n hn) hr, hinv', (hle.trans hle2).trans hle', r1, r2⟩
    | eval p n =>
      obtain ⟨q, hq, ⟨a, hpa, hqa⟩, hqr, hpq, bp, hbp, hn⟩ := hs.evals m pre p n rest (by rw [hb, hbody])
      have hqs : q ∈ st.started := h1 q (impsOf_sub hq)
      have hqc := notActive q hqs hqr
      have hpc : p ∈ st.complete := by
        rcases hpq with rfl | ⟨bq, hbq, hpb, hpr⟩
        · exact hqc
        · obtain ⟨b, e1, e2, _⟩ := hinv.complete q hqc
          rw [hbq] at e1; cases e1
          exact notActive p (e2 p hpb) hpr
      obtain ⟨bp', hbp', _, hd⟩ := hinv.complete p hpc
      rw [hbp] at hbp'; cases hbp'
      obtain ⟨st', hr, hinv', hle', r1, r2⟩ := ih (pre ++ [.eval p n]) st bound hbody' hinv hm hk
        (by
          intro q hq
          rw [mem_importsOf_append] at hq
          rcases hq with hq | hq
          · exact h1 q hq
          · simp [importsOf] at hq)
        (by
          intro q hq a hqa
          rw [mem_impsOf_append] at hq
          rcases hq with hq | hq
          · exact h2 q hq a hqa
          · simp [impsOf] at hq)
        (by
          intro n' hn'
          rw [mem_definesOf_append] at hn'
          rcases hn' with hn' | hn'
          · exact h3 n' hn'
          · simp [definesOf] at hn')
      exact ⟨st', .eval ⟨⟨a, h2 q hq a hqa, hpa⟩, .inr hpc, hd n hn⟩ hr, hinv', hle', r1, r2⟩
    | define n =>
      let st2 : State := { st with defined := (m, n) :: st.defined }
      have hle2 : st.Le st2 := ⟨fun _ h => h, fun _ h => h, fun _ h => List.mem_cons_of_mem _ h⟩
      have hinv2 : Inv prog st2 (m :: active) := ⟨hinv.started, by
        intro x hx
        obtain ⟨b, e1, e2, e3⟩ := hinv.complete x hx
        exact ⟨b, e1, e2, fun n hn => List.mem_cons_of_mem _ (e3 n hn)⟩⟩
      obtain ⟨st', hr, hinv', hle', r1, r2⟩ := ih (pre ++ [.define n]) st2 (n :: bound) hbody' hinv2 hm hk
        (by
          intro q hq
          rw [mem_importsOf_append] at hq
          rcases hq with hq | hq
          · exact h1 q hq
          · simp [importsOf] at hq)
        (by
          intro q hq a hqa
          rw [mem_impsOf_append] at hq
          rcases hq with hq | hq
          · exact List.mem_cons_of_mem _ (h2 q hq a hqa)
          · simp [impsOf] at hq)
        (by
          intro n' hn'
          rw [mem_definesOf_append] at hn'
          rcases hn' with hn' | hn'
          · exact hle2.defined _ (h3 n' hn')
          · simp [definesOf] at hn'; subst hn'; exact List.mem_cons_self)
      exact ⟨st', .define hr, hinv', hle2.trans hle', r1, r2⟩

theorem import_succeeds {prog : Program} {mods : List Path} (hs : Sound prog mods) : ∀ (k : Nat) (active : List Path) (st : State)
    (m : Path), Inv prog st active → unstarted mods st ≤ k → (∃ b, prog m = some b) → (∀ a ∈ active, Reaches prog a m) →
    ImportGoal prog st active m := by
  intro k
  induction k with
  | zero =>
    intro active st m hinv hk ⟨b, hb⟩ ha
    by_cases hm : m ∈ st.started
    · exact ⟨st, .cached hm, hinv, .refl _, hm⟩
    · exfalso
      have : m ∈ mods.filter fun x => decide (x ∉ st.started) := by simp [hs.finite m b hb, hm]
      unfold unstarted at hk
      have := List.length_pos_of_mem this
      omega
  | succ k ih =>
    intro active st m hinv hk ⟨b, hb⟩ ha
    by_cases hm : m ∈ st.started
    · exact ⟨st, .cached hm, hinv, .refl _, hm⟩
    · let st1 : State := { st with started := m :: st.started }
      have hle : st.Le st1 := ⟨fun _ h => List.mem_cons_of_mem _ h, fun _ h => h, fun _ h => h⟩
      have hm1 : m ∈ st1.started := List.mem_cons_self
      have hlt := unstarted_lt hle (hs.finite m b hb) hm hm1
      have hinv1 : Inv prog st1 (m :: active) := by
        refine ⟨?_, ?_⟩
        · intro x hx
          rcases List.mem_cons.1 hx with rfl | hx
          · exact .inr List.mem_cons_self
          · rcases hinv.started x hx with h | h
            · exact .inl h
            · exact .inr (List.mem_cons_of_mem _ h)
        · intro x hx
          obtain ⟨b, e1, e2, e3⟩ := hinv.complete x hx
          exact ⟨b, e1, fun p hp => List.mem_cons_of_mem _ (e2 p hp), e3⟩
      obtain ⟨st', hr, hinv', hle', r1, r2⟩ := runs_body hs hb ha (k := k) (fun st m' => ih (m :: active) st m') b [] st1 [] rfl
        hinv1 hm1 (by omega) (by simp [importsOf]) (by simp [impsOf]) (by simp [definesOf])
      refine ⟨{ st' with complete := m :: st'.complete }, .execute hm hb hr, ⟨?_, ?_⟩, ?_, hle'.started m hm1⟩
      · intro x hx
        rcases hinv'.started x hx with h | h
        · exact .inl (List.mem_cons_of_mem _ h)
        · rcases List.mem_cons.1 h with rfl | h
          · exact .inl List.mem_cons_self
          · exact .inr h
      · intro x hx
        rcases List.mem_cons.1 hx with rfl | hx
        · exact ⟨b, hb, r1, r2⟩
        · exact hinv'.complete x hx
      · exact ⟨fun x h => hle'.started x (hle.started x h), fun x h => List.mem_cons_of_mem _ (hle'.complete x (hle.complete x h)),
          fun x h => hle'.defined x (hle.defined x h)⟩

/-- all imports succeed, in any order, and what the modules define is there -/
theorem importsAll_succeeds {prog : Program} {mods : List Path} (hs : Sound prog mods) : ∀ (ps : List Path) (st : State),
    Inv prog st [] → (∀ p ∈ ps, ∃ b, prog p = some b) →
    ∃ st', ImportsAll prog st ps st' ∧ Inv prog st' [] ∧ st.Le st' ∧ ∀ p ∈ ps, p ∈ st'.complete
  | [], st, hinv, _ => ⟨st, .nil, hinv, .refl _, by simp⟩
  | p :: ps, st, hinv, hp => by
    obtain ⟨st1, h1, hinv1, hle1, hm⟩ := import_succeeds hs _ [] st p hinv (le_refl _) (hp p List.mem_cons_self) (by simp)
    obtain ⟨st', h2, hinv2, hle2, hc⟩ := importsAll_succeeds hs ps st1 hinv1 fun q hq => hp q (List.mem_cons_of_mem _ hq)
    refine ⟨st', .cons h1 h2, hinv2, hle1.trans hle2, ?_⟩
    intro q hq
    rcases List.mem_cons.1 hq with rfl | hq
    · have := hinv1.started q hm
      simp at this
      exact hle2.complete q this
    · exact hc q hq

/-! ### What cannot be imported -/

section Failure

variable {prog : Program} {u v : Path} {N : PyStr}

mutual

/-- while `v` is executed and has not defined `N`, no module is executed which evaluates `v.N` -/
theorem Imports.blocked {body : List Stmt} (hu : prog u = some body) (he : .eval v N ∈ body) {st st' : State} {m : Path}
    (h : Imports prog st m st') (hv : v ∈ st.started) (hd : (v, N) ∉ st.defined) :
    (v, N) ∉ st'.defined ∧ (u ∈ st'.started → u ∈ st.started) ∧ v ∈ st'.started := by
  match h with
  | .cached _ => exact ⟨hd, id, hv⟩
  | .execute hm hb hr =>
    have hmv : m ≠ v := fun e => hm (e ▸ hv)
    obtain ⟨h1, h2, h3, h4⟩ := Runs.blocked hu he hr hmv (List.mem_cons_of_mem _ hv) hd
    refine ⟨h1, fun hx => ?_, h3⟩
    rcases List.mem_cons.1 (h2 hx) with e | h
    · subst e
      rw [hu] at hb; cases hb
      exact absurd he h4
    · exact h
  termination_by structural h

theorem Runs.blocked {body : List Stmt} (hu : prog u = some body) (he : .eval v N ∈ body) {st st' : State} {m : Path}
    {bound : List PyStr} {stmts : List Stmt} (h : Runs prog st m bound stmts st') (hmv : m ≠ v) (hv : v ∈ st.started)
    (hd : (v, N) ∉ st.defined) :
    (v, N) ∉ st'.defined ∧ (u ∈ st'.started → u ∈ st.started) ∧ v ∈ st'.started ∧ .eval v N ∉ stmts := by
  match h with
  | .done => exact ⟨hd, id, hv, by simp⟩
  | .imp hi hr =>
    obtain ⟨h1, h2, h3⟩ := Imports.blocked hu he hi hv hd
    obtain ⟨k1, k2, k3, k4⟩ := Runs.blocked hu he hr hmv h3 h1
    exact ⟨k1, fun h => h2 (k2 h), k3, by simp [k4]⟩
  | .fromImp hi _ hr =>
    obtain ⟨h1, h2, h3⟩ := Imports.blocked hu he hi hv hd
    obtain ⟨k1, k2, k3, k4⟩ := Runs.blocked hu he hr hmv h3 (by
      intro h
      rcases List.mem_cons.1 h with e | h
      · exact hmv (Prod.mk.inj e).1.symm
      · exact h1 h)
    exact ⟨k1, fun h => h2 (k2 h), k3, by simp [k4]⟩
  | .eval (p := p) (n := n) hval hr =>
    obtain ⟨k1, k2, k3, k4⟩ := Runs.blocked hu he hr hmv hv hd
    refine ⟨k1, k2, k3, ?_⟩
    intro h
    rcases List.mem_cons.1 h with e | h
    · cases e; exact hd hval.2.2
    · exact k4 h
  | .define hr =>
    obtain ⟨k1, k2, k3, k4⟩ := Runs.blocked hu he hr hmv hv (by
      intro h
      rcases List.mem_cons.1 h with e | h
      · exact hmv (Prod.mk.inj e).1.symm
      · exact hd h)
    exact ⟨k1, k2, k3, by simp [k4]⟩
  termination_by structural h

end

/-- what is started is being executed or has executed its imports -/
def Closed (prog : Program) (st : State) (active : List Path) : Prop :=
  ∀ x ∈ st.started, x ∈ active ∨ ∃ b, prog x = some b ∧ ∀ p ∈ importsOf b, p ∈ st.started

mutual

theorem Imports.closed {st st' : State} {m : Path} (h : Imports prog st m st') :
    (∀ x ∈ st.started, x ∈ st'.started) ∧ m ∈ st'.started ∧
      ∀ active, Closed prog st active → Closed prog st' active := by
  match h with
  | .cached hm => exact ⟨fun _ h => h, hm, fun _ h => h⟩
  | .execute (p := p) hm hb hr =>
    obtain ⟨h1, h2, h3⟩ := Runs.closed hr
    refine ⟨fun x hx => h1 x (List.mem_cons_of_mem _ hx), h1 p List.mem_cons_self, ?_⟩
    intro active hc x hx
    have := h3 (p :: active) (by
      intro x hx
      rcases List.mem_cons.1 hx with rfl | hx
      · exact .inl List.mem_cons_self
      · rcases hc x hx with h | ⟨b, e1, e2⟩
        · exact .inl (List.mem_cons_of_mem _ h)
        · exact .inr ⟨b, e1, fun q hq => List.mem_cons_of_mem _ (e2 q hq)⟩) x hx
    rcases this with h | h
    · rcases List.mem_cons.1 h with rfl | h
      · exact .inr ⟨_, hb, h2⟩
      · exact .inl h
    · exact .inr h
  termination_by structural h

theorem Runs.closed {st st' : State} {m : Path} {bound : List PyStr} {stmts : List Stmt}
    (h : Runs prog st m bound stmts st') :
    (∀ x ∈ st.started, x ∈ st'.started) ∧ (∀ p ∈ importsOf stmts, p ∈ st'.started) ∧
      ∀ active, Closed prog st active → Closed prog st' active := by
  match h with
  | .done => exact ⟨fun _ h => h, by simp [importsOf], fun _ h => h⟩
  | .imp (p := p) hi hr =>
    obtain ⟨h1, h2, h3⟩ := Imports.closed hi
    obtain ⟨k1, k2, k3⟩ := Runs.closed hr
    refine ⟨fun x hx => k1 x (h1 x hx), ?_, fun a ha => k3 a (h3 a ha)⟩
    intro q hq
    simp only [importsOf, List.filterMap_cons, List.mem_cons] at hq
    rcases hq with rfl | hq
    · exact k1 _ h2
    · exact k2 q hq
  | .fromImp (p := p) hi _ hr =>
    obtain ⟨h1, h2, h3⟩ := Imports.closed hi
    obtain ⟨k1, k2, k3⟩ := Runs.closed hr
    refine ⟨fun x hx => k1 x (h1 x hx), ?_, fun a ha => k3 a (h3 a ha)⟩
    intro q hq
    simp only [importsOf, List.filterMap_cons, List.mem_cons] at hq
    rcases hq with rfl | hq
    · exact k1 _ h2
    · exact k2 q hq
  | .eval _ hr =>
    obtain ⟨k1, k2, k3⟩ := Runs.closed hr
    exact ⟨k1, by simpa [importsOf] using k2, k3⟩
  | .define hr =>
    obtain ⟨k1, k2, k3⟩ := Runs.closed hr
    exact ⟨k1, by simpa [importsOf] using k2, k3⟩
  termination_by structural h

end

theorem Runs.append {st' : State} {m : Path} : ∀ {a b : List Stmt} {bound : List PyStr} {st : State},
    Runs prog st m bound (a ++ b) st' → ∃ st1 bound1, Runs prog st m bound a st1 ∧ Runs prog st1 m bound1 b st'
  | [], b, bound, st, h => ⟨st, bound, .done, h⟩
  | s :: a, b, bound, st, h => by
    rw [List.cons_append] at h
    cases h with
    | imp hi hr => obtain ⟨s1, b1, h1, h2⟩ := Runs.append hr; exact ⟨s1, b1, .imp hi h1, h2⟩
    | fromImp hi hd hr => obtain ⟨s1, b1, h1, h2⟩ := Runs.append hr; exact ⟨s1, b1, .fromImp hi hd h1, h2⟩
    | eval hv hr => obtain ⟨s1, b1, h1, h2⟩ := Runs.append hr; exact ⟨s1, b1, .eval hv h1, h2⟩
    | define hr => obtain ⟨s1, b1, h1, h2⟩ := Runs.append hr; exact ⟨s1, b1, .define h1, h2⟩

theorem runs_imports_blocked {body : List Stmt} (hu : prog u = some body) (he : .eval v N ∈ body) {st' : State} {m : Path} :
    ∀ {imps : List Path} {bound : List PyStr} {st : State}, Runs prog st m bound (imps.map .imp) st' → v ∈ st.started →
      (v, N) ∉ st.defined → (u ∈ st'.started → u ∈ st.started)
  | [], bound, st, h, hv, hd => by
    cases h; exact id
  | p :: imps, bound, st, h, hv, hd => by
    rw [List.map_cons] at h
    cases h with
    | imp hi hr =>
      obtain ⟨h1, h2, h3⟩ := Imports.blocked hu he hi hv hd
      exact fun hx => h2 (runs_imports_blocked hu he hr h3 h1 hx)

/-- if the module `v`, which starts with its imports, reaches a module `u` which evaluates `v.N`, then `v` cannot be the first
module to be imported -/
theorem import_fails {body imps : List _} {rest : List Stmt} (hu : prog u = some body) (he : .eval v N ∈ body)
    (hv : prog v = some ((imps : List Path).map .imp ++ rest)) (hrest : importsOf rest = []) (huv : u ≠ v)
    (hr : Reaches prog v u) : ¬ ∃ st', Imports prog {} v st' := by
  rintro ⟨st', h⟩
  cases h with
  | cached h => simp at h
  | execute hm hb hrun =>
    rw [hv] at hb; cases hb
    obtain ⟨st1, b1, h1, _⟩ := Runs.append hrun
    have hnu : u ∉ st1.started := fun h => by
      have := runs_imports_blocked hu he h1 (by simp) (by simp) h
      simp at this
      exact huv this
    obtain ⟨k1, k2, k3⟩ := Runs.closed h1
    have hc := k3 [v] (by intro x hx; simp at hx; simp [hx])
    have hall : ∀ x, Reaches prog v x → x ∈ st1.started := by
      have key : ∀ a x, Reaches prog a x → a ∈ st1.started → x ∈ st1.started := by
        intro a x hax
        induction hax with
        | refl => exact id
        | step hb hp _ ih =>
          intro ha
          apply ih
          rcases hc _ ha with h | ⟨b, e1, e2⟩
          · simp at h; subst h
            rw [hv] at hb; cases hb
            rw [mem_importsOf_append, hrest] at hp
            rcases hp with hp | hp
            · exact k2 _ hp
            · cases hp
          · rw [hb] at e1; cases e1; exact e2 _ hp
      intro x hx
      exact key v x hx (k1 v (by simp))
    exact hnu (hall u hr)

end Failure

end Zserio.Imports
