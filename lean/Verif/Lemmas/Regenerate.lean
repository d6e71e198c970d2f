import Verif.Spec.Regenerate
set_option linter.unusedSimpArgs false
set_option linter.unusedVariables false
/-
Helper lemmas for runs of the compiler.
-/
namespace Zserio.Regen

/-! ### The header -/

theorem takeLine_line : ∀ {l : PyStr} (s : PyStr), (∀ c ∈ l, c ≠ ch! '\n' ∧ c ≠ ch! '\r') → takeLine (l ++ ch! '\n' :: s) = (l, s)
  | [], s, _ => by simp [takeLine]
  | c :: l, s, h => by
    obtain ⟨h1, h2⟩ := h c (by simp)
    simp only [List.cons_append, takeLine]
    rw [if_neg h1, if_neg h2, takeLine_line s fun c hc => h c (by simp [hc])]

theorem firstLines_two {l1 l2 : PyStr} (s : PyStr) (h1 : ∀ c ∈ l1, c ≠ ch! '\n' ∧ c ≠ ch! '\r')
    (h2 : ∀ c ∈ l2, c ≠ ch! '\n' ∧ c ≠ ch! '\r') : firstLines 2 (l1 ++ [ch! '\n'] ++ l2 ++ [ch! '\n'] ++ s) = [l1, l2] := by
  have e1 : l1 ++ [ch! '\n'] ++ l2 ++ [ch! '\n'] ++ s = l1 ++ ch! '\n' :: (l2 ++ ch! '\n' :: s) := by simp
  have step : ∀ (n : Nat) (l r : PyStr), (∀ c ∈ l, c ≠ ch! '\n' ∧ c ≠ ch! '\r') →
      firstLines (n + 1) (l ++ ch! '\n' :: r) = l :: firstLines n r := by
    intro n l r h
    have := takeLine_line r h
    cases l with
    | nil => simp only [List.nil_append] at this ⊢; simp only [firstLines, this]
    | cons c l => simp only [List.cons_append] at this ⊢; simp only [firstLines, this]
  rw [e1, step 1 l1 _ h1, step 0 l2 _ h2]
  rfl

theorem setup_plain (f : Flags) : ∀ c ∈ f.setupLine, c ≠ ch! '\n' ∧ c ≠ ch! '\r' := by
  obtain ⟨a, b, c, d, e, g, h⟩ := f
  have : ∀ a b c d e g h : Bool, (Flags.mk a b c d e g h).setupLine.all (fun x => x != ch! '\n' && x != ch! '\r') = true := by
    decide +kernel
  have := this a b c d e g h
  simpa [List.all_eq_true] using this

theorem setup_inj {f f' : Flags} (h : f.setupLine = f'.setupLine) : f = f' := by
  have key : ∀ a b c d e g h : Bool, (fun l : PyStr => Flags.mk (l.contains (ch! 'w')) (l.contains (ch! 'b')) (l.contains (ch! 'v'))
      (l.contains (ch! 'q')) (l.contains (ch! 'h')) (l.contains (ch! 'y')) (l.contains (ch! 'm'))) (Flags.mk a b c d e g h).setupLine
      = Flags.mk a b c d e g h := by decide +kernel
  obtain ⟨a, b, c, d, e, g, k⟩ := f
  obtain ⟨a', b', c', d', e', g', k'⟩ := f'
  rw [← key a b c d e g k, ← key a' b' c' d' e' g' k', h]

theorem version_plain {J : Jar → Prop} (hJ : Releases J) {j : Jar} (hj : J j) : ∀ c ∈ j.versionLine, c ≠ ch! '\n' ∧ c ≠ ch! '\r' := by
  intro c hc
  simp only [Jar.versionLine, List.mem_append] at hc
  rcases hc with (((hc | hc) | hc) | hc) | hc
  · revert c; decide
  · exact (hJ.version j hj c hc).2
  · revert c; decide
  · exact hJ.core j hj c hc
  · revert c; decide

theorem split_space : ∀ {v v' : PyStr} {r r' : PyStr}, (∀ c ∈ v, c ≠ ch! ' ') → (∀ c ∈ v', c ≠ ch! ' ') →
    v ++ ch! ' ' :: r = v' ++ ch! ' ' :: r' → v = v' ∧ r = r'
  | [], [], r, r', _, _, h => by simpa using h
  | [], c :: v', r, r', _, h2, h => by
    simp only [List.nil_append, List.cons_append, List.cons.injEq] at h
    exact absurd h.1.symm (h2 c (by simp))
  | c :: v, [], r, r', h1, _, h => by
    simp only [List.nil_append, List.cons_append, List.cons.injEq] at h
    exact absurd h.1 (h1 c (by simp))
  | c :: v, c' :: v', r, r', h1, h2, h => by
    simp only [List.cons_append, List.cons.injEq] at h
    obtain ⟨e1, e2⟩ := split_space (fun c hc => h1 c (by simp [hc])) (fun c hc => h2 c (by simp [hc])) h.2
    exact ⟨by rw [h.1, e1], e2⟩

theorem version_inj {J : Jar → Prop} (hJ : Releases J) {j j' : Jar} (hj : J j) (hj' : J j') (h : j.versionLine = j'.versionLine) :
    j.version = j'.version ∧ j.core = j'.core := by
  simp only [Jar.versionLine, List.append_assoc, List.append_cancel_left_eq] at h
  have e : ∀ (v c : PyStr), v ++ (py! " using Zserio core " ++ (c ++ py! ".")) = v ++ ch! ' ' :: (py! "using Zserio core " ++ (c ++ py! ".")) :=
    fun _ _ => rfl
  rw [e, e] at h
  obtain ⟨h1, h2⟩ := split_space (fun c hc => (hJ.version j hj c hc).1) (fun c hc => (hJ.version j' hj' c hc).1) h
  rw [List.append_cancel_left_eq, List.append_cancel_right_eq] at h2
  exact ⟨h1, h2⟩

/-- a file with the header of a run was generated by the same compiler with the same options -/
theorem header_same {J : Jar → Prop} (hJ : Releases J) {j j' : Jar} (hj : J j) (hj' : J j') {f f' : Flags} {body : PyStr} {m : Nat}
    (h : checkDescription j f (some ⟨j'.fileText f' body, m⟩) = true) : j.imports = j'.imports ∧ j.outputs = j'.outputs ∧ f = f' ∧
      ∀ b, j.fileText f b = j'.fileText f' b := by
  simp only [checkDescription] at h
  replace h := of_decide_eq_true h
  simp only [Jar.fileText] at h
  rw [firstLines_two _ (version_plain hJ hj') (setup_plain f')] at h
  simp only [List.cons.injEq, and_true] at h
  obtain ⟨h1, h2⟩ := h
  obtain ⟨h3, h4⟩ := version_inj hJ hj' hj h1
  obtain ⟨h5, h6⟩ := hJ.same j j' hj hj' h3.symm h4.symm
  refine ⟨h5, h6, (setup_inj h2).symm, fun b => ?_⟩
  simp only [Jar.fileText, h1, h2]

/-! ### Parsing -/

variable {j j' : Jar} {src src' : Tree}

theorem Parsed.unique : ∀ {todo view v1 v2}, Parsed j src todo view v1 → Parsed j src todo view v2 → v1 = v2 := by
  intro todo view v1 v2 h1
  induction h1 with
  | done => intro h2; cases h2; rfl
  | known h _ ih =>
    intro h2
    cases h2 with
    | known _ h2 => exact ih h2
    | file h3 _ _ _ => exact absurd h h3
  | file h3 h4 h5 _ ih =>
    intro h2
    cases h2 with
    | known h _ => exact absurd h h3
    | file _ h6 h7 h8 =>
      rw [h4] at h6
      cases h6
      rw [h5] at h7
      cases h7
      exact ih h8

theorem Parsed.subset {todo view v} (h : Parsed j src todo view v) : ∀ x ∈ view, x ∈ v := by
  induction h with
  | done => exact fun _ h => h
  | known _ _ ih => exact ih
  | file _ _ _ _ ih => exact fun x hx => ih x (by simp [hx])

/-- only the files which belong to the schema matter -/
theorem Parsed.local {todo view v} (h : Parsed j src todo view v) (hi : j.imports = j'.imports)
    (he : ∀ x ∈ v, src' x.1 = src x.1) : Parsed j' src' todo view v := by
  induction h with
  | done => exact .done _
  | known h1 _ ih => exact .known h1 (ih he)
  | @file p todo view view' f imports h1 h2 h3 h4 ih =>
    refine .file h1 ?_ (by rw [← hi]; exact h3) (ih he)
    rw [he (p, f.text) (h4.subset _ (by simp))]
    exact h2

theorem Parsed.exists {todo view v} (h : Parsed j src todo view v) (h0 : ∀ x ∈ view, ∃ f, src x.1 = some f) :
    ∀ x ∈ v, ∃ f, src x.1 = some f := by
  induction h with
  | done => exact h0
  | known _ _ ih => exact ih h0
  | @file p todo view view' f imports h1 h2 h3 h4 ih =>
    refine ih fun x hx => ?_
    rw [List.mem_append] at hx
    rcases hx with hx | hx
    · exact h0 x hx
    · rw [List.mem_singleton] at hx; subst hx; exact ⟨f, h2⟩

/-! ### A run -/

/-- what is known while the schema files are read -/
def Reading (main : PyStr) (src : Tree) (a : Params) (todo : List PyStr) (view : List (PyStr × PyStr)) (time : InputTime)
    (current : Option (PyStr × PyStr × List PyStr)) : Prop :=
  (match current with
    | none => ∀ v, Parsed a.jar src todo view v → Parsed a.jar src [main] [] v
    | some (p, text, imports) => (∃ f, src p = some f ∧ f.text = text ∧ a.jar.imports text = some imports) ∧ p ∉ view.map (·.1) ∧
        ∀ v, Parsed a.jar src (imports ++ todo) (view ++ [(p, text)]) v → Parsed a.jar src [main] [] v) ∧
    (time.error = true → time.time = 0 ∧ ∃ x ∈ view, lastModified (src x.1) = 0) ∧
    (time.error = false → (∀ x ∈ view, 0 < lastModified (src x.1) ∧ lastModified (src x.1) ≤ time.time) ∧
      (view = [] ∧ time.time = 0 ∨ ∃ x ∈ view, lastModified (src x.1) = time.time))

/-- what is known while files are generated -/
def Emitting (main : PyStr) (s0 : State) (src out : Tree) (clock : Nat) (a : Params) (time : Nat) (todo : List (PyStr × PyStr))
    (registered : List PyStr) (opened : Option PyStr) : Prop :=
  ∃ view outs done, Parsed a.jar src [main] [] view ∧ a.jar.outputs a.flags (view.map (·.2)) = some outs ∧ outs = done ++ todo ∧
    registered = done.map (·.1) ∧ registered.Nodup ∧ (∀ n, (time ≠ 0 ∧ time < n) ↔ Older a.jar src view n) ∧
    (∀ x ∈ done, (outs.map (·.1)).Nodup → (Kept a src view (s0.out x.1) → out x.1 = s0.out x.1) ∧
      (¬ Kept a src view (s0.out x.1) → ∃ m, s0.clock ≤ m ∧ out x.1 = some ⟨a.jar.fileText a.flags x.2, m⟩)) ∧
    (∀ text, opened = some text → ∃ p body rest w m, todo = (p, body) :: rest ∧ out p = some ⟨w, m⟩ ∧ s0.clock ≤ m ∧ m ≤ clock ∧
      w ++ text = a.jar.fileText a.flags body ∧ ((outs.map (·.1)).Nodup → ¬ Kept a src view (s0.out p))) ∧
    (∀ q, q ∉ registered → (opened ≠ none → ∀ x, todo.head? = some x → x.1 ≠ q) → out q = s0.out q)

/-- what is known of a run which began in the state `s0` -/
def Active (main : PyStr) (a : Params) (s0 s : State) : Prop :=
  match s.proc with
  | .idle _ => True
  | .reading a' todo view time current => a' = a ∧ a.jar = s.jar ∧ s0.clock ≤ s.clock ∧ s.out = s0.out ∧
      Reading main s.sources a todo view time current
  | .emitting a' time todo registered opened => a' = a ∧ a.jar = s.jar ∧ s0.clock ≤ s.clock ∧
      Emitting main s0 s.sources s.out s.clock a time todo registered opened

theorem put_self (t : Tree) (p : PyStr) (f : Option File) : t.put p f p = f := if_pos rfl

theorem put_other (t : Tree) {p q : PyStr} (f : Option File) (h : q ≠ p) : t.put p f q = t q := if_neg h

theorem Parsed.nonempty {p : PyStr} {v} (h : Parsed j src [p] [] v) : v ≠ [] := by
  cases h with
  | known h _ => simp at h
  | file _ _ _ h =>
    intro hv
    subst hv
    have := h.subset _ (List.mem_append_right _ (List.mem_singleton.mpr rfl))
    simp at this

theorem reading_step {main : PyStr} {s0 s : State} {a : Params} {todo view time current} (hj : a.jar = s.jar) (hc : s0.clock ≤ s.clock)
    (ho0 : s.out = s0.out) (hr : Reading main s.sources a todo view time current) :
    Active main a s0 { s with proc := readStep s a todo view time current } := by
  obtain ⟨h1, h2, h3⟩ := hr
  rcases current with _ | ⟨p, text, imports⟩
  · simp only at h1
    rcases todo with _ | ⟨p, ps⟩
    · simp only [readStep]
      rcases ho : a.jar.outputs a.flags (view.map (·.2)) with _ | outs
      · simp only [Active, ho]
      · simp only [Active, ho, true_and]
        refine ⟨hj, hc, view, outs, [], h1 _ (.done _), ho, rfl, rfl, List.nodup_nil, ?_, by simp, by simp, fun q _ _ => by rw [ho0]⟩
        intro n
        have hne := (h1 _ (.done _)).nonempty
        rw [← hj]
        unfold sourceTime
        cases he : time.error with
        | true =>
          obtain ⟨e1, x, hx, e2⟩ := h2 he
          rw [if_pos (.inl e1)]
          simp only [ne_eq, not_true_eq_false, false_and, false_iff]
          rintro ⟨_, h⟩
          have := (h x hx).1
          omega
        | false =>
          obtain ⟨e1, e2⟩ := h3 he
          rcases e2 with ⟨e2, _⟩ | ⟨x, hx, e2⟩
          · exact absurd e2 hne
          · by_cases hz : a.jar.stamp = 0
            · rw [if_pos (.inr hz)]
              simp only [ne_eq, not_true_eq_false, false_and, false_iff]
              rintro ⟨h, _⟩
              omega
            · have := (e1 x hx).1
              rw [if_neg (by omega)]
              constructor
              · rintro ⟨_, h⟩
                refine ⟨⟨by omega, by omega⟩, fun y hy => ⟨(e1 y hy).1, ?_⟩⟩
                have := (e1 y hy).2
                omega
              · rintro ⟨⟨g1, g2⟩, g3⟩
                have := (g3 x hx).2
                exact ⟨by omega, by omega⟩
    · simp only [readStep]
      by_cases hp : (paths view).contains p = true
      · rw [if_pos hp]
        simp only [Active, true_and]
        exact ⟨hj, hc, ho0, fun v hv => h1 v (.known (by simpa [paths] using hp) hv), h2, h3⟩
      · rw [if_neg hp]
        rcases hf : s.sources p with _ | f
        · simp only [Active]
        · rcases hi : a.jar.imports f.text with _ | imports
          · simp only [hi, Active]
          · simp only [hi, Active, true_and]
            have hp' : p ∉ view.map (·.1) := by simpa [paths] using hp
            exact ⟨hj, hc, ho0, ⟨⟨f, hf, rfl, hi⟩, hp', fun v hv => h1 v (.file hp' hf hi hv)⟩, h2, h3⟩
  · simp only at h1
    obtain ⟨⟨f, hf, ht, hi⟩, hp, hv⟩ := h1
    simp only [readStep, Active, true_and]
    refine ⟨hj, hc, ho0, hv, ?_⟩
    unfold InputTime.register
    by_cases he : time.error = true
    · rw [if_pos he]
      obtain ⟨e1, x, hx, e2⟩ := h2 he
      exact ⟨fun _ => ⟨e1, x, List.mem_append_left _ hx, e2⟩, fun h => absurd (he.symm.trans h) (by simp)⟩
    · rw [if_neg he]
      have he : time.error = false := by simpa using he
      obtain ⟨e1, e2⟩ := h3 he
      by_cases hlt : lastModified (s.sources p) > time.time
      · rw [if_pos hlt]
        refine ⟨fun h => by simp at h, fun _ => ⟨fun x hx => ?_, .inr ⟨_, List.mem_append_right _ (List.mem_singleton.mpr rfl), rfl⟩⟩⟩
        rw [List.mem_append, List.mem_singleton] at hx
        rcases hx with hx | rfl
        · have := e1 x hx
          exact ⟨this.1, by simp only; omega⟩
        · exact ⟨by simp only; omega, le_rfl⟩
      · rw [if_neg hlt]
        by_cases hz : lastModified (s.sources p) = 0
        · rw [if_pos hz]
          exact ⟨fun _ => ⟨rfl, _, List.mem_append_right _ (List.mem_singleton.mpr rfl), hz⟩, fun h => by simp at h⟩
        · rw [if_neg hz]
          refine ⟨fun h => absurd (he.symm.trans h) (by simp), fun _ => ⟨fun x hx => ?_, ?_⟩⟩
          · rw [List.mem_append, List.mem_singleton] at hx
            rcases hx with hx | rfl
            · exact e1 x hx
            · exact ⟨by simp only; omega, by simp only; omega⟩
          · rcases e2 with ⟨e2, e3⟩ | ⟨x, hx, e2⟩
            · omega
            · exact .inr ⟨x, List.mem_append_left _ hx, e2⟩

theorem register_not_true (a : Params) (time p rest registered) : register a time p rest registered ≠ .idle true := by
  unfold register
  split <;> simp

theorem register_active {main : PyStr} {s0 s : State} {a : Params} {time : Nat} {p body : PyStr} {rest : List (PyStr × PyStr)}
    {registered : List PyStr} {view outs done} (hj : a.jar = s.jar) (hc : s0.clock ≤ s.clock)
    (h1 : Parsed a.jar s.sources [main] [] view)
    (h2 : a.jar.outputs a.flags (view.map (·.2)) = some outs) (h3 : outs = done ++ (p, body) :: rest)
    (h4 : registered = done.map (·.1)) (h5 : registered.Nodup) (h6 : ∀ n, (time ≠ 0 ∧ time < n) ↔ Older a.jar s.sources view n)
    (h7 : ∀ x ∈ done ++ [(p, body)], (outs.map (·.1)).Nodup → (Kept a s.sources view (s0.out x.1) → s.out x.1 = s0.out x.1) ∧
      (¬ Kept a s.sources view (s0.out x.1) → ∃ m, s0.clock ≤ m ∧ s.out x.1 = some ⟨a.jar.fileText a.flags x.2, m⟩))
    (h8 : ∀ q, q ∉ registered → q ≠ p → s.out q = s0.out q) :
    Active main a s0 { s with proc := register a time p rest registered } := by
  unfold register
  split
  · simp only [Active]
  · rename_i hp
    simp only [Active, true_and]
    refine ⟨hj, hc, view, outs, done ++ [(p, body)], h1, h2, by simp [h3], by simp [h4], ?_, h6, h7, by simp, fun q hq _ => ?_⟩
    · rw [List.nodup_append]
      refine ⟨h5, by simp, ?_⟩
      rintro x hx y hy rfl
      rw [List.mem_singleton] at hy
      subst hy
      exact hp (by simpa using hx)
    · simp only [List.mem_append, List.mem_singleton, not_or] at hq
      exact h8 q hq.1 hq.2

theorem kept_iff {a : Params} {src : Tree} {view} {time : Nat} (h6 : ∀ n, (time ≠ 0 ∧ time < n) ↔ Older a.jar src view n) (f : Option File) :
    Kept a src view f ↔ ¬ (!checkTimestamps a.ignore time f || !checkDescription a.jar a.flags f) = true := by
  unfold Kept
  rw [← h6]
  unfold checkTimestamps
  cases a.ignore <;> cases checkDescription a.jar a.flags f <;> simp

theorem emitting_step {main : PyStr} {s0 s : State} {a : Params} {n time : Nat} {todo registered opened} (hj : a.jar = s.jar)
    (hc : s0.clock ≤ s.clock) (he : Emitting main s0 s.sources s.out s.clock a time todo registered opened) :
    Active main a s0 (emitStep s n a time todo registered opened) ∧
      ((emitStep s n a time todo registered opened).proc = .idle true → s0.sources = s.sources → Outcome main a s0 s) := by
  obtain ⟨view, outs, done, h1, h2, h3, h4, h5, h6, h7, h8, h9⟩ := he
  rcases todo with _ | ⟨⟨p, body⟩, rest⟩
  · simp only [emitStep]
    refine ⟨trivial, fun _ hs => ⟨view, outs, by rw [hs]; exact h1, h2, ?_, ?_, ?_⟩⟩
    · rw [h3, List.append_nil, ← h4]; exact h5
    · intro p body hp
      rw [hs]
      rw [List.append_nil] at h3
      exact h7 (p, body) (by rw [← h3]; exact hp) (by rw [h3, ← h4]; exact h5)
    · intro p hp
      rw [List.append_nil] at h3
      exact h9 p (by rw [h4, ← h3]; exact hp) (by simp)
  have head_new : (outs.map (·.1)).Nodup → ∀ x ∈ done, x.1 ≠ p := by
    intro hn x hx
    rw [h3, List.map_append, List.nodup_append] at hn
    exact hn.2.2 x.1 (List.mem_map_of_mem hx) p (by simp)
  have head_out : (outs.map (·.1)).Nodup → opened = none → s.out p = s0.out p := by
    intro hn ho
    refine h9 p ?_ (by simp [ho])
    rw [h4, List.mem_map]
    rintro ⟨x, hx, rfl⟩
    exact head_new hn x hx rfl
  rcases opened with _ | text
  · simp only [emitStep]
    split
    · rename_i hg
      refine ⟨?_, by simp⟩
      simp only [Active, true_and]
      refine ⟨hj, hc, view, outs, done, h1, h2, h3, h4, h5, h6, ?_, ?_, ?_⟩
      · intro x hx hn
        rw [put_other _ _ (head_new hn x hx)]
        exact h7 x hx hn
      · intro text ht
        cases ht
        refine ⟨p, body, rest, [], s.clock, rfl, put_self _ _ _, hc, le_rfl, rfl, fun hn hk => ?_⟩
        rw [← head_out hn rfl, kept_iff h6] at hk
        exact hk hg
      · intro q hq hx
        rw [put_other _ _ fun h => hx (by simp) (p, body) rfl h.symm]
        exact h9 q hq (by simp)
    · rename_i hg
      refine ⟨?_, fun h => absurd h (register_not_true _ _ _ _ _)⟩
      refine register_active hj hc h1 h2 h3 h4 h5 h6 (fun x hx hn => ?_) fun q hq _ => h9 q hq (by simp)
      rw [List.mem_append, List.mem_singleton] at hx
      rcases hx with hx | rfl
      · exact h7 x hx hn
      · exact ⟨fun _ => head_out hn rfl, fun hk => absurd ((kept_iff h6 _).mpr hg) (by rw [head_out hn rfl]; exact hk)⟩
  · obtain ⟨p', body', rest', w, m, e1, e2, e3, e4, e5, e6⟩ := h8 text rfl
    simp only [List.cons.injEq, Prod.mk.injEq] at e1
    obtain ⟨⟨rfl, rfl⟩, rfl⟩ := e1
    rcases text with _ | ⟨c, text⟩
    · simp only [emitStep]
      refine ⟨?_, fun h => absurd h (register_not_true _ _ _ _ _)⟩
      refine register_active hj hc h1 h2 h3 h4 h5 h6 (fun x hx hn => ?_) fun q hq hne => h9 q hq fun _ x hx => by
        simp only [List.head?_cons, Option.some.injEq] at hx
        subst hx
        exact fun h => hne h.symm
      rw [List.mem_append, List.mem_singleton] at hx
      rcases hx with hx | rfl
      · exact h7 x hx hn
      · rw [List.append_nil] at e5
        exact ⟨fun hk => absurd hk (e6 hn), fun _ => ⟨m, e3, by rw [e2, e5]⟩⟩
    · simp only [emitStep]
      refine ⟨?_, by simp⟩
      simp only [Active, true_and]
      refine ⟨hj, hc, view, outs, done, h1, h2, h3, h4, h5, h6, ?_, ?_, ?_⟩
      · intro x hx hn
        rw [put_other _ _ (head_new hn x hx)]
        exact h7 x hx hn
      · intro text' ht
        simp only [Option.some.injEq] at ht
        subst ht
        refine ⟨p, body, rest, _, s.clock, rfl, put_self _ _ _, hc, le_rfl, ?_, e6⟩
        simp only [e2, Option.map_some, Option.getD_some]
        rw [List.append_assoc, List.take_append_drop, e5]
      · intro q hq hx
        rw [put_other _ _ fun h => hx (by simp) (p, body) rfl h.symm]
        exact h9 q hq fun _ => hx (by simp)

theorem step_out {s : State} {n : Nat} {a : Params} {time todo registered opened}
    (h : (emitStep s n a time todo registered opened).proc = .idle true) : emitStep s n a time todo registered opened = { s with proc := .idle true } := by
  rcases todo with _ | ⟨⟨p, body⟩, rest⟩
  · rfl
  · exfalso
    revert h
    rcases opened with _ | ⟨_ | ⟨c, text⟩⟩
    · simp only [emitStep]
      split
      · simp
      · exact register_not_true _ _ _ _ _
    · exact register_not_true _ _ _ _ _
    · simp [emitStep]

/-- a run which nothing disturbs -/
theorem quiet_run {main : PyStr} {a : Params} {s0 : State} : ∀ (es : List Event) (s : State), (∀ e ∈ es, e.quiet = true) →
    s.sources = s0.sources → Active main a s0 s → (s.proc = .idle true → Outcome main a s0 s) →
    (run s es).sources = s0.sources ∧ Active main a s0 (run s es) ∧ ((run s es).proc = .idle true → Outcome main a s0 (run s es))
  | [], s, _, h1, h2, h3 => ⟨h1, h2, h3⟩
  | e :: es, s, hq, h1, h2, h3 => by
    have key : (apply s e).sources = s0.sources ∧ Active main a s0 (apply s e) ∧
        ((apply s e).proc = .idle true → Outcome main a s0 (apply s e)) := by
      cases e with
      | tick =>
        refine ⟨h1, ?_, h3⟩
        simp only [apply, Active] at h2 ⊢
        split
        · trivial
        · rename_i hp
          simp only [hp] at h2
          obtain ⟨g1, g2, g3, g4⟩ := h2
          exact ⟨g1, g2, by omega, g4⟩
        · rename_i hp
          simp only [hp] at h2
          obtain ⟨g1, g2, g3, view, outs, done, i1, i2, i3, i4, i5, i6, i7, i8, i9⟩ := h2
          refine ⟨g1, g2, by omega, view, outs, done, i1, i2, i3, i4, i5, i6, i7, fun text ht => ?_, i9⟩
          obtain ⟨p, body, rest, w, m, e1, e2, e3, e4, e5, e6⟩ := i8 text ht
          exact ⟨p, body, rest, w, m, e1, e2, e3, by omega, e5, e6⟩
      | step n =>
        simp only [apply]
        rcases hp : s.proc with b | ⟨a', todo, view, time, current⟩ | ⟨a', time, todo, registered, opened⟩
        · exact ⟨h1, h2, h3⟩
        · simp only [Active, hp] at h2
          obtain ⟨rfl, g1, g2, g3, g4⟩ := h2
          refine ⟨h1, reading_step g1 g2 g3 g4, fun h => ?_⟩
          exfalso
          revert h
          simp only
          unfold readStep
          repeat' split
          all_goals simp
        · simp only [Active, hp] at h2
          obtain ⟨rfl, g1, g2, g3⟩ := h2
          obtain ⟨k1, k2⟩ := emitting_step (n := n) g1 g2 g3
          refine ⟨?_, k1, fun h => ?_⟩
          · rw [← h1]
            simp only [emitStep]
            repeat' split
            all_goals rfl
          · have := k2 h h1.symm
            simp only at h ⊢
            rw [step_out h]
            exact this
      | _ => simp [Event.quiet] at hq
    exact quiet_run es (apply s e) (fun e he => hq e (List.mem_cons_of_mem _ he)) key.1 key.2.1 key.2.2

/-- from the start of a run -/
theorem quiet_start {main : PyStr} {flags : Flags} {ignore : Bool} {s : State} {es : List Event} (hi : s.proc.isIdle = true)
    (hq : ∀ e ∈ es, e.quiet = true) :
    Active main ⟨s.jar, flags, ignore⟩ s (run s (.start main flags ignore :: es)) ∧
      ((run s (.start main flags ignore :: es)).proc = .idle true →
        Outcome main ⟨s.jar, flags, ignore⟩ s (run s (.start main flags ignore :: es))) := by
  have e : apply s (.start main flags ignore) = { s with proc := .reading ⟨s.jar, flags, ignore⟩ [main] [] {} none } := by
    simp only [apply]
    rcases hp : s.proc with b | _ | _
    · rfl
    · simp [hp, Proc.isIdle] at hi
    · simp [hp, Proc.isIdle] at hi
  have := quiet_run (main := main) (a := ⟨s.jar, flags, ignore⟩) (s0 := s) es (apply s (.start main flags ignore)) hq (by rw [e])
    (by
      rw [e]
      simp only [Active, true_and]
      exact ⟨le_rfl, fun v hv => hv, fun h => by simp at h, fun _ => ⟨by simp, .inl ⟨rfl, rfl⟩⟩⟩)
    (by rw [e]; simp)
  exact this.2

/-! ### Histories -/

/-- the file which is open -/
def Proc.opening : Proc → Option PyStr
  | .emitting _ _ ((p, _) :: _) _ (some _) => some p
  | _ => none

/-- A generated file is that of a compiler and of a view of the schema; this is still the view unless something is newer. -/
def Good (main : PyStr) (J : Jar → Prop) (src : Tree) (clock : Nat) (p : PyStr) (f : File) : Prop :=
  ∃ j flags view outs body, J j ∧ j.outputs flags (view.map (·.2)) = some outs ∧ (p, body) ∈ outs ∧ f.text = j.fileText flags body ∧
    f.stamp ≤ clock ∧ ∀ v, Parsed j src [main] [] v → (∀ x ∈ v, lastModified (src x.1) < f.stamp) → v = view

/-- what is known between and during runs -/
def Sound (main : PyStr) (J : Jar → Prop) (s : State) : Prop :=
  J s.jar ∧ (∀ p f, s.out p = some f → s.proc.opening ≠ some p → Good main J s.sources s.clock p f) ∧
    (∃ a s0, Active main a s0 s ∧ (s.proc.isIdle = false → J a.jar))

theorem Good.tick {main J src clock p f} (h : Good main J src clock p f) : Good main J src (clock + 1) p f := by
  obtain ⟨j, flags, view, outs, body, h1, h2, h3, h4, h5, h6⟩ := h
  exact ⟨j, flags, view, outs, body, h1, h2, h3, h4, by omega, h6⟩

theorem Good.change {main J src clock p f} (h : Good main J src clock p f) (q : PyStr) (g : Option File)
    (hg : ∀ x, g = some x → x.stamp = clock) : Good main J (src.put q g) clock p f := by
  obtain ⟨j, flags, view, outs, body, h1, h2, h3, h4, h5, h6⟩ := h
  refine ⟨j, flags, view, outs, body, h1, h2, h3, h4, h5, fun v hv hx => ?_⟩
  have hne : ∀ x ∈ v, x.1 ≠ q := by
    rintro x hxv rfl
    obtain ⟨y, hy⟩ := hv.exists (by simp) x hxv
    have := hx x hxv
    rw [hy] at this
    rw [put_self] at hy
    have := hg y hy
    simp only [lastModified] at *
    omega
  have he : ∀ x ∈ v, src x.1 = (src.put q g) x.1 := fun x hxv => (put_other _ _ (hne x hxv)).symm
  exact h6 v (hv.local rfl he) fun x hxv => by rw [he x hxv]; exact hx x hxv

theorem sound_step {main : PyStr} {J : Jar → Prop} {s : State} {e : Event} (hs : Sound main J s) (he : allowed main J s e) :
    Sound main J (apply s e) := by
  obtain ⟨h1, h2, a, s0, h3, h4⟩ := hs
  have idle_of : s.proc.isIdle = true → ∃ b, s.proc = .idle b := by
    rcases s.proc with b | _ | _
    · exact fun _ => ⟨b, rfl⟩
    · simp [Proc.isIdle]
    · simp [Proc.isIdle]
  cases e with
  | tick =>
    refine ⟨h1, fun p f hf ho => (h2 p f hf ho).tick, a, s0, ?_, h4⟩
    simp only [apply, Active] at h3 ⊢
    split
    · trivial
    · rename_i hp
      simp only [hp] at h3
      obtain ⟨g1, g2, g3, g4⟩ := h3
      exact ⟨g1, g2, by omega, g4⟩
    · rename_i hp
      simp only [hp] at h3
      obtain ⟨g1, g2, g3, view, outs, done, i1, i2, i3, i4, i5, i6, i7, i8, i9⟩ := h3
      refine ⟨g1, g2, by omega, view, outs, done, i1, i2, i3, i4, i5, i6, i7, fun text ht => ?_, i9⟩
      obtain ⟨p, body, rest, w, m, e1, e2, e3, e4, e5, e6⟩ := i8 text ht
      exact ⟨p, body, rest, w, m, e1, e2, e3, by omega, e5, e6⟩
  | edit q text =>
    obtain ⟨b, hb⟩ := idle_of he
    refine ⟨h1, fun p f hf ho => (h2 p f hf ho).change q _ (by rintro x hx; cases hx; rfl), a, s0, ?_, h4⟩
    simp only [apply, Active, hb]
  | copy => exact he.elim
  | remove q =>
    obtain ⟨b, hb⟩ := idle_of he
    refine ⟨h1, fun p f hf ho => (h2 p f hf ho).change q _ (by simp), a, s0, ?_, h4⟩
    simp only [apply, Active, hb]
  | install j =>
    obtain ⟨b, hb⟩ := idle_of he.1
    refine ⟨he.2, h2, a, s0, ?_, h4⟩
    simp only [apply, Active, hb]
  | start m flags ignore =>
    simp only [allowed] at he
    subst he
    simp only [apply]
    rcases hp : s.proc with b | _ | _
    · refine ⟨h1, fun p f hf _ => h2 p f hf (by simp [hp, Proc.opening]), ⟨s.jar, flags, ignore⟩, s, ?_, fun _ => h1⟩
      simp only [Active, true_and]
      exact ⟨le_rfl, fun v hv => hv, fun h => by simp at h, fun _ => ⟨by simp, .inl ⟨rfl, rfl⟩⟩⟩
    · exact ⟨h1, h2, a, s0, h3, h4⟩
    · exact ⟨h1, h2, a, s0, h3, h4⟩
  | stop =>
    refine ⟨h1, fun p f hf _ => h2 p f hf ?_, a, s0, trivial, fun h => by simp [apply, Proc.isIdle] at h⟩
    simp only [allowed] at he
    revert he
    rcases s.proc with b | _ | ⟨_, _, _ | ⟨⟨_, _⟩, _⟩, _, _ | _⟩ <;> simp [Proc.isWriting, Proc.opening]
  | step n =>
    simp only [apply]
    rcases hp : s.proc with b | ⟨a', todo, view, time, current⟩ | ⟨a', time, todo, registered, opened⟩
    · exact ⟨h1, h2, a, s0, h3, h4⟩
    · simp only [Active, hp] at h3
      obtain ⟨rfl, g1, g2, g3, g4⟩ := h3
      exact ⟨h1, fun p f hf _ => h2 p f hf (by simp [hp, Proc.opening]), a', s0, reading_step g1 g2 g3 g4, fun _ => h4 (by simp [hp, Proc.isIdle])⟩
    · simp only [Active, hp] at h3
      obtain ⟨rfl, g1, g2, g3⟩ := h3
      have hJ : J a'.jar := h4 (by simp [hp, Proc.isIdle])
      refine ⟨?_, ?_, a', s0, (emitting_step (n := n) g1 g2 g3).1, fun _ => hJ⟩
      · simp only [emitStep]
        repeat' split
        all_goals exact h1
      · obtain ⟨view, outs, done, i1, i2, i3, i4, i5, i6, i7, i8, i9⟩ := g3
        rcases todo with _ | ⟨⟨q, body⟩, rest⟩
        · exact fun p f hf _ => h2 p f hf (by simp [hp, Proc.opening])
        rcases opened with _ | ⟨_ | ⟨c, text⟩⟩
        · simp only [emitStep]
          split
          · intro p f hf ho
            have hne : p ≠ q := fun h => ho (by simp [Proc.opening, h])
            simp only [put_other _ _ hne] at hf
            exact h2 p f hf (by simp [hp, Proc.opening])
          · exact fun p f hf _ => h2 p f hf (by simp [hp, Proc.opening])
        · simp only [emitStep]
          intro p f hf _
          by_cases hne : p = q
          · subst hne
            obtain ⟨p', body', rest', w, m, e1, e2, e3, e4, e5, e6⟩ := i8 [] rfl
            simp only [List.cons.injEq, Prod.mk.injEq] at e1
            obtain ⟨⟨rfl, rfl⟩, rfl⟩ := e1
            rw [e2] at hf
            cases hf
            rw [List.append_nil] at e5
            exact ⟨a'.jar, a'.flags, view, outs, body, hJ, i2, by simp [i3], e5, e4, fun v hv _ => hv.unique i1⟩
          · exact h2 p f hf (by simp [hp, Proc.opening, Ne.symm hne])
        · simp only [emitStep]
          intro p f hf ho
          have hne : p ≠ q := fun h => ho (by simp [Proc.opening, h])
          simp only [put_other _ _ hne] at hf
          exact h2 p f hf (by simp [hp, Proc.opening, Ne.symm hne])

theorem sound_run {main : PyStr} {J : Jar → Prop} : ∀ (es : List Event) (s : State), Sound main J s → Careful main J s es →
    Sound main J (run s es)
  | [], _, h, _ => h
  | e :: es, s, h, hc => sound_run es (apply s e) (sound_step h hc.1) hc.2

theorem nodup_body : ∀ {outs : List (PyStr × PyStr)}, (outs.map (·.1)).Nodup → ∀ {p b b' : PyStr}, (p, b) ∈ outs → (p, b') ∈ outs → b = b'
  | [], _, _, _, _, h, _ => by simp at h
  | x :: outs, hn, p, b, b', h, h' => by
    rw [List.map_cons, List.nodup_cons] at hn
    rw [List.mem_cons] at h h'
    rcases h with h | h <;> rcases h' with h' | h'
    · rw [← h] at h'; simpa using h'.symm
    · exact absurd (List.mem_map_of_mem (f := (·.1)) h') (by rw [← h] at hn; exact hn.1)
    · exact absurd (List.mem_map_of_mem (f := (·.1)) h) (by rw [← h'] at hn; exact hn.1)
    · exact nodup_body hn.2 h h'

/-- a file which is kept has the right text -/
theorem kept_text {main : PyStr} {J : Jar → Prop} (hJ : Releases J) {s : State} {a : Params} (haj : J a.jar) {p body view outs}
    (hg : ∀ p f, s.out p = some f → Good main J s.sources s.clock p f) (h1 : Parsed a.jar s.sources [main] [] view)
    (h2 : a.jar.outputs a.flags (view.map (·.2)) = some outs) (hn : (outs.map (·.1)).Nodup) (hp : (p, body) ∈ outs)
    (hk : Kept a s.sources view (s.out p)) : ∃ m, s.out p = some ⟨a.jar.fileText a.flags body, m⟩ := by
  obtain ⟨_, k1, _, k2⟩ := hk
  rcases ho : s.out p with _ | ⟨text, m⟩
  · simp [ho, checkDescription] at k1
  obtain ⟨j, flags, view', outs', body', g1, g2, g3, g4, g5, g6⟩ := hg p _ ho
  simp only at g4
  subst g4
  rw [ho] at k1 k2
  obtain ⟨e1, e2, e3, e4⟩ := header_same hJ haj g1 k1
  have := g6 view (h1.local e1 fun _ _ => rfl) fun x hx => (k2 x hx).2
  subst this
  rw [← e3, ← e2, h2] at g2
  cases g2
  rw [nodup_body hn g3 hp]
  exact ⟨m, by rw [e4]⟩

/-! ### A run comes to its end -/

/-- steps in which single characters are written -/
abbrev steps (k : Nat) : List Event := List.replicate k (.step 0)

theorem run_steps (s : State) (k l : Nat) : run s (steps (k + l)) = run (run s (steps k)) (steps l) := by
  simp only [run, steps]
  rw [← List.replicate_append_replicate, List.foldl_append]

theorem run_step (s : State) (k : Nat) : run s (steps (k + 1)) = run (apply s (.step 0)) (steps k) := by
  simp only [run, steps, List.replicate_succ, List.foldl_cons]

theorem read_finishes {a : Params} {src : Tree} {todo view v} (h : Parsed a.jar src todo view v) : ∀ (s : State) (time : InputTime), s.sources = src →
    s.proc = .reading a todo view time none → ∃ k time', run s (steps k) = { s with proc := .reading a [] v time' none } := by
  induction h with
  | done view => exact fun s time _ hp => ⟨0, time, by simp [run, steps, ← hp]⟩
  | @known p todo view view' h1 _ ih =>
    intro s time hs hp
    have e : apply s (.step 0) = { s with proc := .reading a todo view time none } := by
      simp only [apply, hp, readStep]
      rw [if_pos (by simpa [paths] using h1)]
    obtain ⟨k, time', hk⟩ := ih (apply s (.step 0)) time (by rw [e]; exact hs) (by rw [e])
    exact ⟨k + 1, time', by rw [run_step, hk, e]⟩
  | @file p todo view view' f imports h1 h2 h3 _ ih =>
    intro s time hs hp
    have e : apply s (.step 0) = { s with proc := .reading a todo view time (some (p, f.text, imports)) } := by
      simp only [apply, hp, readStep]
      rw [if_neg (by simpa [paths] using h1), hs, h2]
      simp only [h3]
    have e' : apply (apply s (.step 0)) (.step 0) = { s with
        proc := .reading a (imports ++ todo) (view ++ [(p, f.text)]) (time.register (lastModified (s.sources p))) none } := by
      rw [e]
      simp only [apply, readStep]
    obtain ⟨k, time', hk⟩ := ih (apply (apply s (.step 0)) (.step 0)) _ (by rw [e']; exact hs) (by rw [e'])
    exact ⟨k + 2, time', by rw [run_step, run_step, hk, e']⟩

theorem write_finishes {a : Params} {time : Nat} {p body : PyStr} {rest registered} : ∀ (text : PyStr) (s : State),
    s.proc = .emitting a time ((p, body) :: rest) registered (some text) →
    ∃ k, (run s (steps k)).proc = register a time p rest registered
  | [], s, hp => ⟨1, by simp [run, steps, apply, hp, emitStep]⟩
  | c :: text, s, hp => by
    obtain ⟨k, hk⟩ := write_finishes (a := a) (time := time) (p := p) (body := body) (rest := rest) (registered := registered)
      text (apply s (.step 0)) (by simp [apply, hp, emitStep])
    exact ⟨k + 1, by rw [run_step, hk]⟩

theorem emit_finishes {a : Params} {time : Nat} : ∀ (todo : List (PyStr × PyStr)) (registered : List PyStr) (s : State),
    (registered ++ todo.map (·.1)).Nodup → s.proc = .emitting a time todo registered none → ∃ k, (run s (steps k)).proc = .idle true
  | [], registered, s, _, hp => ⟨1, by simp [run, steps, apply, hp, emitStep]⟩
  | (p, body) :: rest, registered, s, hn, hp => by
    have hreg : register a time p rest registered = .emitting a time rest (registered ++ [p]) none := by
      unfold register
      rw [if_neg]
      intro h
      rw [List.nodup_append] at hn
      exact hn.2.2 p (by simpa using h) p (by simp) rfl
    have hn' : ((registered ++ [p]) ++ rest.map (·.1)).Nodup := by simpa using hn
    have key : ∃ k, (run s (steps k)).proc = register a time p rest registered := by
      by_cases hg : (!checkTimestamps a.ignore time (s.out p) || !checkDescription a.jar a.flags (s.out p)) = true
      · obtain ⟨k, hk⟩ := write_finishes (a := a) (time := time) (p := p) (body := body) (rest := rest) (registered := registered)
          (a.jar.fileText a.flags body) (apply s (.step 0)) (by simp only [apply, hp, emitStep]; rw [if_pos hg])
        exact ⟨k + 1, by rw [run_step, hk]⟩
      · refine ⟨1, ?_⟩
        simp only [run, steps, List.replicate_one, List.foldl_cons, List.foldl_nil, apply, hp, emitStep]
        rw [if_neg hg]
    obtain ⟨k, hk⟩ := key
    obtain ⟨l, hl⟩ := emit_finishes rest (registered ++ [p]) (run s (steps k)) hn' (by rw [hk, hreg])
    exact ⟨k + l, by rw [run_steps, hl]⟩

theorem run_finishes {main : PyStr} {flags : Flags} {ignore : Bool} {s : State} {view outs} (hi : s.proc.isIdle = true)
    (h1 : Parsed s.jar s.sources [main] [] view) (h2 : s.jar.outputs flags (view.map (·.2)) = some outs) (h3 : (outs.map (·.1)).Nodup) :
    ∃ k, (run s (.start main flags ignore :: steps k)).proc = .idle true := by
  have e : apply s (.start main flags ignore) = { s with proc := .reading ⟨s.jar, flags, ignore⟩ [main] [] {} none } := by
    simp only [apply]
    rcases hp : s.proc with b | _ | _
    · rfl
    · simp [hp, Proc.isIdle] at hi
    · simp [hp, Proc.isIdle] at hi
  obtain ⟨k, time, hk⟩ := read_finishes (a := ⟨s.jar, flags, ignore⟩) h1 (apply s (.start main flags ignore)) {} (by rw [e]) (by rw [e])
  obtain ⟨l, hl⟩ := emit_finishes (a := ⟨s.jar, flags, ignore⟩) (time := sourceTime time.time s.jar.stamp) outs []
    (run (apply s (.start main flags ignore)) (steps (k + 1))) (by simpa using h3) (by
      rw [run_steps, hk, e]
      simp only [run, steps, List.replicate_one, List.foldl_cons, List.foldl_nil, apply, readStep, h2])
  refine ⟨k + 1 + l, ?_⟩
  rw [show run s (.start main flags ignore :: steps (k + 1 + l)) = run (apply s (.start main flags ignore)) (steps (k + 1 + l)) from rfl,
    run_steps, hl]

/-! ### A schema which is refused -/

theorem refused_run {main : PyStr} {flags : Flags} {ignore : Bool} {s : State} {es : List Event} (hi : s.proc.isIdle = true)
    (hq : ∀ e ∈ es, e.quiet = true)
    (hr : ¬ ∃ view outs, Parsed s.jar s.sources [main] [] view ∧ s.jar.outputs flags (view.map (·.2)) = some outs) :
    (run s (.start main flags ignore :: es)).out = s.out := by
  have key : ∀ (es : List Event) (s' : State), (∀ e ∈ es, e.quiet = true) → s'.sources = s.sources → s'.out = s.out →
      Active main ⟨s.jar, flags, ignore⟩ s s' → (run s' es).out = s.out := by
    intro es
    induction es with
    | nil => exact fun s' _ _ h _ => h
    | cons e es ih =>
      intro s' hq h1 h2 h3
      have hq' : ∀ e ∈ es, e.quiet = true := fun e he => hq e (List.mem_cons_of_mem _ he)
      have hone := quiet_run (main := main) (a := ⟨s.jar, flags, ignore⟩) (s0 := s) [e] s' (by simpa using hq e (by simp)) h1 h3
      rcases hp : s'.proc with b | ⟨a', todo, view, time, current⟩ | ⟨a', time, todo, registered, opened⟩
      · have hact : Active main ⟨s.jar, flags, ignore⟩ s (apply s' e) ∧ (apply s' e).sources = s.sources ∧ (apply s' e).out = s.out := by
          cases e with
          | tick => exact ⟨by simp only [Active, apply, hp], h1, h2⟩
          | step n => exact ⟨by simp only [Active, apply, hp], by simp only [apply, hp]; exact h1, by simp only [apply, hp]; exact h2⟩
          | _ => simp [Event.quiet] at hq
        exact ih (apply s' e) hq' hact.2.1 hact.2.2 hact.1
      · obtain ⟨g1, g2, _⟩ := hone (by simp [hp])
        refine ih (apply s' e) hq' g1 ?_ g2
        cases e with
        | tick => exact h2
        | step n => simp only [apply, hp]; exact h2
        | _ => simp [Event.quiet] at hq
      · exfalso
        simp only [Active, hp] at h3
        obtain ⟨rfl, _, _, view, outs, done, i1, i2, _⟩ := h3
        exact hr ⟨view, outs, by rw [← h1]; exact i1, i2⟩
  have e : apply s (.start main flags ignore) = { s with proc := .reading ⟨s.jar, flags, ignore⟩ [main] [] {} none } := by
    simp only [apply]
    rcases hp : s.proc with b | _ | _
    · rfl
    · simp [hp, Proc.isIdle] at hi
    · simp [hp, Proc.isIdle] at hi
  refine key es (apply s (.start main flags ignore)) hq (by rw [e]) (by rw [e]) ?_
  rw [e]
  simp only [Active, true_and]
  exact ⟨le_rfl, fun v hv => hv, fun h => by simp at h, fun _ => ⟨by simp, .inl ⟨rfl, rfl⟩⟩⟩

end Zserio.Regen
