import Verif.Spec.Options
/-
Property C100: the options of the compiler do what the user guide says: which warnings are printed, which parts of the code are
generated, and which command lines are refused.

`warningsConfig`, `isEnabled`, `printed` and `readOptions` (Model/Options.lean) are the code; the guide is in Spec/Options.lean.
-/
set_option linter.unusedSimpArgs false
namespace Zserio.Options

/-! ### warnings -/

theorem lookup_setWarning (m : List (String × Config)) (o : String) (v : Bool) (p : Int) (w : String) :
    (setWarning m o v p).lookup w = (m.lookup w).map fun c => if w = o ∧ p > c.priority then ⟨v, p⟩ else c := by
  induction m with
  | nil => rfl
  | cons e m ih =>
    obtain ⟨n, c⟩ := e
    unfold setWarning at ih ⊢
    by_cases hw : w = n
    · subst hw
      by_cases h : w = o ∧ p > c.priority <;> simp [h, List.lookup]
    · have hn : (w == n) = false := by simpa using hw
      by_cases h : n = o ∧ p > c.priority
      · simp only [List.map_cons, if_pos h, List.lookup, hn]
        exact ih
      · simp only [List.map_cons, if_neg h, List.lookup, hn]
        exact ih

theorem keys_setWarning (m : List (String × Config)) (o : String) (v : Bool) (p : Int) :
    (setWarning m o v p).map (·.1) = m.map (·.1) := by
  unfold setWarning
  rw [List.map_map]
  apply List.map_congr_left
  intro e _
  simp only [Function.comp_apply]
  split <;> rfl

theorem lookup_fold (ks : List String) (m : List (String × Config)) (v : Bool) (p : Int) (w : String) :
    (ks.foldl (fun m o => setWarning m o v p) m).lookup w =
      (m.lookup w).map fun c => if w ∈ ks ∧ p > c.priority then ⟨v, p⟩ else c := by
  induction ks generalizing m with
  | nil => simp
  | cons k ks ih =>
    rw [List.foldl_cons, ih, lookup_setWarning]
    cases m.lookup w with
    | none => rfl
    | some c =>
      simp only [Option.map_some, Option.some.injEq, List.mem_cons]
      by_cases h1 : w = k <;> by_cases h2 : p > c.priority <;> by_cases h3 : w ∈ ks <;> simp [h1, h2, h3]
      all_goals (subst h1; simp [h3])

theorem lookup_mem_keys {m : List (String × Config)} {w : String} {c : Config} (h : m.lookup w = some c) : w ∈ m.map (·.1) := by
  induction m with
  | nil => cases h
  | cons e m ih =>
    obtain ⟨n, d⟩ := e
    by_cases hw : w = n
    · simp [hw]
    · have hn : (w == n) = false := by simpa using hw
      simp only [List.lookup, hn] at h
      simp only [List.map_cons, List.mem_cons]
      exact .inr (ih h)

theorem priority_all : priorityOf all = 0 := by decide +kernel

theorem lookup_setAll (m : List (String × Config)) (v : Bool) (w : String) :
    (setAll m v).lookup w = (m.lookup w).map fun c => if c.priority < 0 then ⟨v, 0⟩ else c := by
  unfold setAll
  rw [lookup_fold, priority_all]
  cases h : m.lookup w with
  | none => rfl
  | some c =>
    have := lookup_mem_keys h
    simp only [Option.map_some, this, true_and, gt_iff_lt]

/-- what a list of options does to the entry of a warning -/
theorem lookup_setWarnings (os : List String) (m : List (String × Config)) (v : Bool) (w : String) (hw : w ≠ all)
    (hp : priorityOf w = maxPriority) :
    (setWarnings m os v).lookup w = (m.lookup w).map fun c =>
      if w ∈ os ∧ c.priority < maxPriority then ⟨v, maxPriority⟩ else if all ∈ os ∧ c.priority < 0 then ⟨v, 0⟩ else c := by
  unfold setWarnings
  induction os generalizing m with
  | nil => simp
  | cons o os ih =>
    rw [List.foldl_cons, ih]
    have hmax : (0 : Int) < maxPriority := by decide
    by_cases ho : o = all
    · subst ho
      rw [if_pos rfl, lookup_setAll]
      cases m.lookup w with
      | none => rfl
      | some c =>
        simp only [Option.map_some, Option.some.injEq, List.mem_cons, hw, false_or, true_or, true_and]
        by_cases h1 : c.priority < 0
        · have h2 : c.priority < maxPriority := by omega
          by_cases h3 : w ∈ os <;> simp [h1, h2, h3, hmax]
        · by_cases h2 : c.priority < maxPriority <;> by_cases h3 : w ∈ os <;> simp [h1, h2, h3]
    · rw [if_neg ho, lookup_setWarning]
      have ho' : ¬ all = o := fun h => ho h.symm
      cases m.lookup w with
      | none => rfl
      | some c =>
        simp only [Option.map_some, Option.some.injEq, List.mem_cons, ho', false_or]
        by_cases h1 : w = o
        · subst h1
          rw [hp]
          by_cases h2 : c.priority < maxPriority <;> by_cases h4 : c.priority < 0 <;> by_cases h3 : w ∈ os <;>
            by_cases h5 : all ∈ os <;> simp [h2, h3, h4, h5, hmax] <;> omega
        · by_cases h2 : c.priority < maxPriority <;> by_cases h3 : w ∈ os <;> simp [h1, h2, h3]

theorem documented_added : documented = added := rfl

theorem lookup_initial {w : String} {d : Bool} (h : (w, d) ∈ documented) :
    initial.lookup w = some ⟨d, minPriority⟩ ∧ w ≠ all ∧ priorityOf w = maxPriority := by
  have : ∀ e ∈ documented, initial.lookup e.1 = some ⟨e.2, minPriority⟩ ∧ e.1 ≠ all ∧ priorityOf e.1 = maxPriority := by decide +kernel
  exact this _ h

theorem lookup_initial_none {w : String} (h : ∀ d, (w, d) ∉ documented) : initial.lookup w = none := by
  cases hl : initial.lookup w with
  | none => rfl
  | some c =>
    have hk := lookup_mem_keys hl
    unfold initial at hk
    rw [List.map_map] at hk
    obtain ⟨e, he, rfl⟩ := List.mem_map.mp hk
    exact absurd he (h e.2)

theorem defined_iff (o : String) : (definitions.lookup o).isSome = true ↔ Known o := by
  have hd : definitions.map (·.1) = all :: documented.map (·.1) := by decide +kernel
  have hm : ∀ (m : List (String × Int)), (m.lookup o).isSome = true ↔ o ∈ m.map (·.1) := by
    intro m
    induction m with
    | nil => simp
    | cons e m ih =>
      by_cases h : o = e.1
      · subst h
        simp [List.lookup]
      · have hn : (o == e.1) = false := by simpa using h
        simp only [List.lookup, hn, List.map_cons, List.mem_cons, h, false_or]
        exact ih
  rw [hm, hd, List.mem_cons]
  unfold Known
  constructor
  · rintro (h | h)
    · exact .inl h
    · obtain ⟨e, he, rfl⟩ := List.mem_map.mp h
      exact .inr ⟨e.2, he⟩
  · rintro (h | ⟨d, h⟩)
    · exact .inl h
    · exact .inr (List.mem_map.mpr ⟨_, h, rfl⟩)

theorem validate_ok {enabled disabled : List String} : validate enabled disabled = .ok () ↔
    (∀ o ∈ enabled, Known o) ∧ (∀ o ∈ disabled, Known o) ∧ ∀ o ∈ enabled, o ∉ disabled := by
  unfold validate
  simp only [← defined_iff]
  by_cases h1 : ∀ o ∈ enabled, (definitions.lookup o).isSome = true
  · by_cases h2 : ∀ o ∈ disabled, (definitions.lookup o).isSome = true
    · have h1' : enabled.all (fun o => (definitions.lookup o).isSome) = true := List.all_eq_true.mpr h1
      have h2' : disabled.all (fun o => (definitions.lookup o).isSome) = true := List.all_eq_true.mpr h2
      simp only [h1', h2', Bool.not_true, Bool.false_eq_true, if_false]
      rw [and_iff_right h1, and_iff_right h2]
      by_cases h3 : ∀ o ∈ enabled, o ∉ disabled
      · have h3' : enabled.filter (disabled.contains ·) = [] := by
          rw [List.filter_eq_nil_iff]
          intro o ho
          simpa using h3 o ho
        simp [h3', h3]
      · have h3' : enabled.filter (disabled.contains ·) ≠ [] := by
          intro h
          apply h3
          intro o ho
          have := (List.filter_eq_nil_iff.mp h) o ho
          simpa using this
        have h3'' : (enabled.filter (disabled.contains ·)).isEmpty = false := by simpa using h3'
        simp only [h3'', Bool.not_false, if_true]
        constructor
        · intro h; cases h
        · intro h; exact absurd h h3
    · have h1' : enabled.all (fun o => (definitions.lookup o).isSome) = true := List.all_eq_true.mpr h1
      have h2' : disabled.all (fun o => (definitions.lookup o).isSome) = false := by
        rw [Bool.eq_false_iff]
        exact fun h => h2 (List.all_eq_true.mp h)
      simp only [h1', h2', Bool.not_true, Bool.not_false, Bool.false_eq_true, if_false, if_true]
      constructor
      · intro h; cases h
      · intro h; exact absurd h.2.1 h2
  · have h1' : enabled.all (fun o => (definitions.lookup o).isSome) = false := by
      rw [Bool.eq_false_iff]
      exact fun h => h1 (List.all_eq_true.mp h)
    simp only [h1', Bool.not_false, if_true]
    constructor
    · intro h; cases h
    · intro h; exact absurd h.1 h1

theorem warningsConfig_ok {enabled disabled : List String} {m : List (String × Config)} :
    warningsConfig enabled disabled = .ok m ↔ validate enabled disabled = .ok () ∧
      m = setWarnings (setWarnings initial enabled true) disabled false := by
  unfold warningsConfig
  cases h : validate enabled disabled with
  | error e => simp [Bind.bind, Except.bind]
  | ok u => simp [Bind.bind, Except.bind, eq_comm]

/-- **C100.** The options `-withWarnings` and `-withoutWarnings` are accepted exactly if they name warnings of the guide or `all`, and
nothing is named in both. -/
theorem C100_accepted (enabled disabled : List String) :
    (∃ m, warningsConfig enabled disabled = .ok m) ↔
      (∀ o ∈ enabled, Known o) ∧ (∀ o ∈ disabled, Known o) ∧ ∀ o ∈ enabled, o ∉ disabled := by
  rw [← validate_ok]
  constructor
  · rintro ⟨m, h⟩; exact (warningsConfig_ok.mp h).1
  · intro h; exact ⟨_, warningsConfig_ok.mpr ⟨h, rfl⟩⟩

/-- **C100.** If they are accepted, the warnings which are enabled are those which the guide says: a warning which is named is as the
option says, whatever is said about `all`, and the order and repetitions do not matter. -/
theorem C100_enabled {enabled disabled : List String} {m : List (String × Config)} (h : warningsConfig enabled disabled = .ok m)
    (w : String) : isEnabled m w = true ↔ On enabled disabled w := by
  obtain ⟨hv, rfl⟩ := warningsConfig_ok.mp h
  obtain ⟨_, _, hdis⟩ := validate_ok.mp hv
  unfold isEnabled On
  by_cases hw : ∃ d, (w, d) ∈ documented
  · obtain ⟨d, hd⟩ := hw
    obtain ⟨hl, hne, hp⟩ := lookup_initial hd
    have huniq : ∀ d', (w, d') ∈ documented → d' = d := by
      intro d' hd'
      have := (lookup_initial hd').1
      rw [hl] at this
      simpa using this.symm
    have hall : "all" = all := rfl
    rw [lookup_setWarnings _ _ _ _ hne hp, lookup_setWarnings _ _ _ _ hne hp, hl]
    have hRHS : (∃ byDefault, (w, byDefault) ∈ documented ∧
        (w ∈ enabled ∨ (w ∉ disabled ∧ ("all" ∈ enabled ∨ ("all" ∉ disabled ∧ byDefault = true))))) ↔
        (w ∈ enabled ∨ (w ∉ disabled ∧ (all ∈ enabled ∨ (all ∉ disabled ∧ d = true)))) := by
      constructor
      · rintro ⟨b, hb, h⟩
        rw [huniq b hb] at h
        exact h
      · intro h; exact ⟨d, hd, h⟩
    rw [hRHS]
    have hmm : minPriority < maxPriority := by decide
    have hm0 : minPriority < 0 := by decide
    have h0m : (0 : Int) < maxPriority := by decide
    have h0n : ¬ maxPriority < 0 := by decide
    have h1 := hdis w
    have h2 := hdis all
    by_cases a : w ∈ enabled <;> by_cases b : w ∈ disabled <;> by_cases c : all ∈ enabled <;> by_cases e : all ∈ disabled <;>
      simp_all
    rw [if_neg (by omega)]
  · have hnone := lookup_initial_none (w := w) fun d hd => hw ⟨d, hd⟩
    have hkeep : ∀ os (m : List (String × Config)) v, m.lookup w = none → (setWarnings m os v).lookup w = none := by
      intro os
      unfold setWarnings
      induction os with
      | nil => intro m v h; exact h
      | cons o os ih =>
        intro m v h
        rw [List.foldl_cons]
        apply ih
        split
        · rw [lookup_setAll, h]; rfl
        · rw [lookup_setWarning, h]; rfl
    rw [hkeep _ _ _ (hkeep _ _ _ hnone)]
    constructor
    · intro h; cases h
    · rintro ⟨d, hd, _⟩; exact absurd ⟨d, hd⟩ hw

/-- **C100.** Of the warnings which the compiler finds, exactly the enabled ones are printed. -/
theorem C100_printed {α : Type} {enabled disabled : List String} {m : List (String × Config)}
    (h : warningsConfig enabled disabled = .ok m) (found : List (String × α)) (x : String × α) :
    x ∈ printed m found ↔ x ∈ found ∧ On enabled disabled x.1 := by
  unfold printed
  rw [List.mem_filter, C100_enabled h]

/-- **C100.** The order of the names and repetitions do not matter. -/
theorem C100_order {e₁ d₁ e₂ d₂ : List String} {m₁ m₂ : List (String × Config)} (h₁ : warningsConfig e₁ d₁ = .ok m₁)
    (h₂ : warningsConfig e₂ d₂ = .ok m₂) (he : ∀ o, o ∈ e₁ ↔ o ∈ e₂) (hd : ∀ o, o ∈ d₁ ↔ o ∈ d₂) (w : String) :
    isEnabled m₁ w = isEnabled m₂ w := by
  rw [Bool.eq_iff_iff, C100_enabled h₁, C100_enabled h₂]
  unfold On
  simp only [he, hd]

/-- all warnings but two -/
example : ∃ m, warningsConfig ["all"] ["unused", "import"] = .ok m ∧ isEnabled m "unused" = false ∧ isEnabled m "encoding" = true ∧
    isEnabled m "doc-comment-missing" = true := ⟨_, rfl, by decide +kernel⟩

/-- one warning only -/
example : ∃ m, warningsConfig ["unused"] ["all"] = .ok m ∧ isEnabled m "unused" = true ∧ isEnabled m "encoding" = false :=
  ⟨_, rfl, by decide +kernel⟩

example : warningsConfig ["unused"] ["unused"] = .error .warningConflict ∧ warningsConfig ["Unused"] [] = .error .unknownWarning := by
  decide +kernel

/-! ### parts of the code -/

theorem bind_ok {α β : Type} {x : Except Problem α} {f : α → Except Problem β} {b : β} :
    (x >>= f) = .ok b ↔ ∃ a, x = .ok a ∧ f a = .ok b := by
  cases x with
  | error e => simp [Bind.bind, Except.bind]
  | ok a => simp [Bind.bind, Except.bind]

theorem validateOptions_ok {options : List String} {ids : List PyStr} : validateOptions options ids = .ok () ↔
    (∀ id ∈ ids, validTopLevelId id = true) ∧
    ∀ f : Feature, f.needsWriter = true → Feature.writerCode.off ∈ options → f.on ∉ options := by
  have hf : (∀ f : Feature, f.needsWriter = true → Feature.writerCode.off ∈ options → f.on ∉ options) ↔
      ("withoutWriterCode" ∈ options → "withRangeCheckCode" ∉ options ∧ "withValidationCode" ∉ options ∧ "withPubsubCode" ∉ options ∧
        "withServiceCode" ∉ options) := by
    constructor
    · intro h hw
      exact ⟨h .rangeCheckCode rfl hw, h .validationCode rfl hw, h .pubsubCode rfl hw, h .serviceCode rfl hw⟩
    · intro h f hn hw
      obtain ⟨h1, h2, h3, h4⟩ := h hw
      cases f <;> first | assumption | cases hn
  rw [hf, ← List.all_eq_true]
  unfold validateOptions
  cases ids.all validTopLevelId
  · simp
  · by_cases h : "withoutWriterCode" ∈ options
    · simp only [Bool.not_true, Bool.false_eq_true, if_false, List.contains_iff_mem, h, if_true, true_and, true_implies]
      by_cases h1 : "withRangeCheckCode" ∈ options <;> by_cases h2 : "withValidationCode" ∈ options <;>
        by_cases h3 : "withPubsubCode" ∈ options <;> by_cases h4 : "withServiceCode" ∈ options <;> simp [h1, h2, h3, h4]
    · simp [h]

theorem groups_none {options : List String} : groups.any (fun g => options.contains g.1 && options.contains g.2) = false ↔
    ∀ f : Feature, ¬ (f.on ∈ options ∧ f.off ∈ options) := by
  have hm : ∀ g, g ∈ groups ↔ ∃ f : Feature, g = (f.on, f.off) := by
    intro g
    constructor
    · intro h
      simp only [groups, List.mem_cons, List.not_mem_nil, or_false] at h
      rcases h with h | h | h | h | h | h | h | h | h | h
      exacts [⟨.pubsubCode, h⟩, ⟨.rangeCheckCode, h⟩, ⟨.serviceCode, h⟩, ⟨.sqlCode, h⟩, ⟨.typeInfoCode, h⟩, ⟨.validationCode, h⟩,
        ⟨.writerCode, h⟩, ⟨.crossExtensionCheck, h⟩, ⟨.globalRuleIdCheck, h⟩, ⟨.codeComments, h⟩]
    · rintro ⟨f, rfl⟩
      cases f <;> simp [groups, Feature.on, Feature.off]
  rw [List.any_eq_false]
  constructor
  · intro h f hf
    have := h _ ((hm _).mpr ⟨f, rfl⟩)
    simp [hf] at this
  · intro h g hg
    obtain ⟨f, rfl⟩ := (hm g).mp hg
    have := h f
    simpa using this

theorem readOptions_ok {c : CommandLine} {s : Settings} : readOptions c = .ok s ↔
    (∀ f : Feature, ¬ (f.on ∈ c.options ∧ f.off ∈ c.options)) ∧ ∃ m, warningsConfig c.withWarnings c.withoutWarnings = .ok m ∧
    validateOptions c.options (topLevelIds c) = .ok () ∧ s = {
      pubsubCode := !c.options.contains "withoutPubsubCode" && !c.options.contains "withoutWriterCode"
      rangeCheckCode := c.options.contains "withRangeCheckCode"
      serviceCode := !c.options.contains "withoutServiceCode" && !c.options.contains "withoutWriterCode"
      sqlCode := !c.options.contains "withoutSqlCode"
      typeInfoCode := c.options.contains "withTypeInfoCode"
      validationCode := c.options.contains "withValidationCode"
      writerCode := !c.options.contains "withoutWriterCode"
      crossExtensionCheck := !c.options.contains "withoutCrossExtensionCheck"
      globalRuleIdCheck := c.options.contains "withGlobalRuleIdCheck"
      codeComments := c.options.contains "withCodeComments"
      warnings := m
      topLevelPackageIds := topLevelIds c } := by
  unfold readOptions
  cases hg : groups.any (fun g => c.options.contains g.1 && c.options.contains g.2) with
  | true =>
    simp only [if_true]
    constructor
    · intro h; cases h
    · rintro ⟨h, _⟩
      rw [groups_none.mpr h] at hg
      cases hg
  | false =>
    simp only [Bool.false_eq_true, if_false, bind_ok, Except.ok.injEq]
    rw [and_iff_right (groups_none.mp hg)]
    constructor
    · rintro ⟨m, hm, u, hu, rfl⟩
      exact ⟨m, hm, hu, rfl⟩
    · rintro ⟨m, hm, hu, hs⟩
      exact ⟨m, hm, (), hu, hs.symm⟩

/-- **C100.** A command line is accepted exactly if no feature is both enabled and disabled, nothing which needs writer code is enabled
together with `-withoutWriterCode`, the warnings are accepted and the parts of the top level package are. -/
theorem C100_command_line (c : CommandLine) : (∃ s, readOptions c = .ok s) ↔
    (∀ f : Feature, ¬ (f.on ∈ c.options ∧ f.off ∈ c.options)) ∧
    (∀ f : Feature, f.needsWriter = true → Feature.writerCode.off ∈ c.options → f.on ∉ c.options) ∧
    ((∀ o ∈ c.withWarnings, Known o) ∧ (∀ o ∈ c.withoutWarnings, Known o) ∧ ∀ o ∈ c.withWarnings, o ∉ c.withoutWarnings) ∧
    ∀ id ∈ topLevelIds c, validTopLevelId id = true := by
  rw [← C100_accepted]
  constructor
  · rintro ⟨s, h⟩
    obtain ⟨h1, m, h2, h3, _⟩ := readOptions_ok.mp h
    obtain ⟨h4, h5⟩ := validateOptions_ok.mp h3
    exact ⟨h1, h5, ⟨m, h2⟩, h4⟩
  · rintro ⟨h1, h5, ⟨m, h2⟩, h4⟩
    exact ⟨_, readOptions_ok.mpr ⟨h1, m, h2, validateOptions_ok.mpr ⟨h4, h5⟩, rfl⟩⟩

/-- **C100.** A command line which is accepted has the effect which the guide says, for every feature. -/
theorem C100_features {c : CommandLine} {s : Settings} (h : readOptions c = .ok s) (f : Feature) :
    s.get f = true ↔ Wanted c.options f := by
  obtain ⟨h1, _, _, h3, hs⟩ := readOptions_ok.mp h
  obtain ⟨_, h5⟩ := validateOptions_ok.mp h3
  have h1f := h1 f
  have h5f := h5 f
  have h1w := h1 .writerCode
  rw [hs]
  cases f <;>
    simp only [Settings.get, Wanted, Feature.on, Feature.off, Feature.byDefault, Feature.needsWriter, Bool.and_eq_true,
      Bool.not_eq_true', List.contains_eq_mem, decide_eq_true_eq, decide_eq_false_iff_not, Bool.false_eq_true, false_and, and_false,
      or_false, true_and, true_implies, false_implies, and_true] at * <;> tauto

/-- **C100.** Whatever needs writer code is off if writer code is off. -/
theorem C100_writer {c : CommandLine} {s : Settings} (h : readOptions c = .ok s) (hw : s.get .writerCode = false) (f : Feature)
    (hf : f.needsWriter = true) : s.get f = false := by
  obtain ⟨h1, _, _, h3, _⟩ := readOptions_ok.mp h
  obtain ⟨_, h5⟩ := validateOptions_ok.mp h3
  have hoff : Feature.writerCode.off ∈ c.options := by
    by_contra hn
    have := (C100_features h .writerCode).mpr (.inr ⟨hn, rfl, fun h => by cases h⟩)
    rw [hw] at this
    cases this
  rw [Bool.eq_false_iff]
  intro ht
  rcases (C100_features h f).mp ht with h | ⟨_, _, h⟩
  · exact h5 f hf hoff h
  · exact h hf hoff

/-- only the SQL code is left out; and without writer code also the code for services and for pubsub -/
example : ∃ s, readOptions { options := ["withoutSqlCode"] } = .ok s ∧ s.get .sqlCode = false ∧ s.get .serviceCode = true := ⟨_, rfl, rfl, rfl⟩
example : ∃ s, readOptions { options := ["withoutWriterCode"] } = .ok s ∧ s.get .sqlCode = true ∧ s.get .serviceCode = false :=
  ⟨_, rfl, rfl, rfl⟩
example : readOptions { options := ["withoutWriterCode", "withServiceCode"] } = .error .writerConflict := by decide +kernel
example : readOptions { options := ["withSqlCode", "withoutSqlCode"] } = .error .alreadySelected := by decide +kernel

/-! ### the top level package -/

theorem splitParts_ne_nil (sep : Nat) (s : PyStr) : splitParts sep s ≠ [] := by
  cases s with
  | nil => simp [splitParts]
  | cons c cs =>
    unfold splitParts
    split
    · simp
    · split <;> simp

theorem intercalate_splitParts (sep : Nat) (s : PyStr) : List.intercalate [sep] (splitParts sep s) = s := by
  induction s with
  | nil => simp [splitParts, List.intercalate]
  | cons c cs ih =>
    unfold splitParts
    split
    · rename_i h
      subst h
      obtain ⟨p, ps, hp⟩ := List.exists_cons_of_ne_nil (splitParts_ne_nil c cs)
      rw [hp] at ih ⊢
      rw [← ih]
      simp [List.intercalate, List.intersperse]
    · obtain ⟨p, ps, hp⟩ := List.exists_cons_of_ne_nil (splitParts_ne_nil sep cs)
      rw [hp] at ih ⊢
      rw [← ih]
      cases ps <;> simp [List.intercalate, List.intersperse]

theorem splitParts_append (sep : Nat) (p s : PyStr) (h : sep ∉ p) :
    splitParts sep (p ++ sep :: s) = p :: splitParts sep s := by
  induction p with
  | nil => simp [splitParts]
  | cons c p ih =>
    have hc : c ≠ sep := fun hc => h (by simp [hc])
    have hp : sep ∉ p := fun hp => h (by simp [hp])
    rw [List.cons_append, splitParts, if_neg hc, ih hp]

theorem splitParts_plain (sep : Nat) (p : PyStr) (h : sep ∉ p) : splitParts sep p = [p] := by
  induction p with
  | nil => rfl
  | cons c p ih =>
    have hc : c ≠ sep := fun hc => h (by simp [hc])
    have hp : sep ∉ p := fun hp => h (by simp [hp])
    rw [splitParts, if_neg hc, ih hp]

theorem splitParts_dotted (ids : List PyStr) (hne : ids ≠ []) (h : ∀ id ∈ ids, ch! '.' ∉ id) :
    splitParts (ch! '.') (dotted ids) = ids := by
  induction ids with
  | nil => exact absurd rfl hne
  | cons p ps ih =>
    cases ps with
    | nil =>
      have : dotted [p] = p := by simp [dotted, List.intercalate]
      rw [this]
      exact splitParts_plain _ _ (h p (by simp))
    | cons q qs =>
      have : dotted (p :: q :: qs) = p ++ (ch! '.') :: dotted (q :: qs) := by simp [dotted, List.intercalate, List.intersperse]
      rw [this, splitParts_append _ _ _ (h p (by simp)), ih (by simp) fun id hid => h id (by simp [hid])]

theorem isIdStart_iff (c : Nat) : isIdStart c = true ↔ Letter c := by
  simp only [isIdStart, Letter, Bool.or_eq_true, Bool.and_eq_true, decide_eq_true_eq, or_assoc]

theorem isIdPart_iff (c : Nat) : isIdPart c = true ↔ LetterOrDigit c := by
  simp only [isIdPart, LetterOrDigit, Bool.or_eq_true, isIdStart_iff, Bool.and_eq_true, decide_eq_true_eq]

theorem takeWhile_all {p : Nat → Bool} {l : PyStr} (h : ∀ x ∈ l, p x = true) : l.takeWhile p = l := by
  induction l with
  | nil => rfl
  | cons a l ih =>
    rw [List.takeWhile_cons, if_pos (h a (by simp)), ih fun x hx => h x (by simp [hx])]

theorem letter_not_white {c : Nat} (h : LetterOrDigit c) : isWhite c = false := by
  simp only [LetterOrDigit, Letter] at h
  simp only [isWhite, Bool.or_eq_false_iff, decide_eq_false_iff_not]
  omega

theorem zserio_prefix (s : PyStr) : (py! "zserio").isPrefixOf (s.map toLower) = true ↔ ∃ p r, s = p ++ r ∧ p.map toLower = py! "zserio" := by
  rw [List.isPrefixOf_iff_prefix]
  constructor
  · rintro ⟨t, ht⟩
    obtain ⟨p, r, rfl, hp, hr⟩ := List.map_eq_append_iff.mp ht.symm
    exact ⟨p, r, rfl, hp⟩
  · rintro ⟨p, r, rfl, hp⟩
    exact ⟨r.map toLower, by rw [List.map_append, hp]⟩

/-- for texts with the characters of identifiers, the check is the right one -/
theorem validTopLevelId_iff {s : PyStr} (h : ∀ c ∈ s, LetterOrDigit c) : validTopLevelId s = true ↔ PackageId s := by
  unfold validTopLevelId PackageId
  rw [Bool.and_eq_true, Bool.not_eq_true', Bool.eq_false_iff, ne_eq, zserio_prefix, ← and_assoc]
  refine and_congr ?_ Iff.rfl
  unfold firstTokenIsId
  cases s with
  | nil => simp
  | cons c cs =>
    have hw : isWhite c = false := letter_not_white (h c (by simp))
    rw [List.dropWhile_cons, hw]
    have htw : cs.takeWhile isIdPart = cs := takeWhile_all fun x hx => (isIdPart_iff x).mpr (h x (by simp [hx]))
    simp only [Bool.false_eq_true, if_false, htw, Bool.and_eq_true, Bool.not_eq_true', List.contains_eq_mem, decide_eq_false_iff_not,
      isIdStart_iff]
    refine and_congr ?_ Iff.rfl
    constructor
    · intro hc; exact ⟨c, cs, rfl, hc, fun x hx => h x (by simp [hx])⟩
    · rintro ⟨c', cs', he, hc, _⟩
      cases he
      exact hc

theorem javaSplit_eq {s : PyStr} (h : s.getLast? ≠ some (ch! '.')) : javaSplit (ch! '.') s = splitParts (ch! '.') s := by
  unfold javaSplit
  by_cases hc : ch! '.' ∈ s
  · rw [if_pos (by simpa using hc)]
    have hlast : ∀ s : PyStr, s ≠ [] → s.getLast? ≠ some (ch! '.') → ∀ p ∈ (splitParts (ch! '.') s).getLast?, p ≠ [] := by
      intro s
      induction s with
      | nil => intro h; exact absurd rfl h
      | cons c cs ih =>
        intro _ hl p hp
        cases cs with
        | nil =>
          have hcd : c ≠ ch! '.' := fun he => hl (by simp [he])
          simp only [splitParts, if_neg hcd, List.getLast?_singleton, Option.mem_def, Option.some.injEq] at hp
          subst hp
          simp
        | cons d ds =>
          have hl' : (d :: ds).getLast? ≠ some (ch! '.') := by simpa [List.getLast?_cons_cons] using hl
          obtain ⟨q, qs, hq⟩ := List.exists_cons_of_ne_nil (splitParts_ne_nil (ch! '.') (d :: ds))
          have ih' := ih (by simp) hl'
          rw [hq] at ih'
          rw [splitParts] at hp
          split at hp
          · rw [hq, List.getLast?_cons_cons] at hp
            exact ih' p hp
          · rw [hq] at hp
            cases qs with
            | nil =>
              simp only [List.getLast?_singleton, Option.mem_def, Option.some.injEq] at hp
              subst hp
              simp
            | cons r rs =>
              simp only [List.getLast?_cons_cons] at hp ih'
              exact ih' p hp
    have hs : s ≠ [] := by rintro rfl; simp at hc
    have hne := splitParts_ne_nil (ch! '.') s
    have := hlast s hs h
    obtain ⟨l, hl⟩ : ∃ l, (splitParts (ch! '.') s).getLast? = some l := ⟨_, List.getLast?_eq_some_getLast hne⟩
    have hll := this l hl
    have hr : (splitParts (ch! '.') s).reverse.head? = some l := by rw [List.head?_reverse]; exact hl
    cases hrev : (splitParts (ch! '.') s).reverse with
    | nil => rw [hrev] at hr; cases hr
    | cons a as =>
      rw [hrev] at hr
      simp only [List.head?_cons, Option.some.injEq] at hr
      subst hr
      have hle : a.isEmpty = false := by simpa using hll
      rw [List.dropWhile_cons, hle]
      simp only [Bool.false_eq_true, if_false]
      rw [← hrev, List.reverse_reverse]
  · rw [if_neg (by simpa using hc), splitParts_plain _ _ hc]

theorem mem_splitParts {sep : Nat} {s p : PyStr} (h : p ∈ splitParts sep s) : ∀ c ∈ p, c ∈ s ∧ c ≠ sep := by
  induction s generalizing p with
  | nil =>
    simp only [splitParts, List.mem_singleton] at h
    subst h
    simp
  | cons d ds ih =>
    obtain ⟨q, qs, hq⟩ := List.exists_cons_of_ne_nil (splitParts_ne_nil sep ds)
    rw [splitParts] at h
    split at h
    · rcases List.mem_cons.mp h with rfl | h
      · simp
      · intro c hc
        obtain ⟨h1, h2⟩ := ih h c hc
        exact ⟨by simp [h1], h2⟩
    · rename_i hd
      rw [hq] at h
      rcases List.mem_cons.mp h with rfl | h
      · intro c hc
        rcases List.mem_cons.mp hc with rfl | hc
        · exact ⟨by simp, hd⟩
        · obtain ⟨h1, h2⟩ := ih (p := q) (by rw [hq]; simp) c hc
          exact ⟨by simp [h1], h2⟩
      · intro c hc
        obtain ⟨h1, h2⟩ := ih (p := p) (by rw [hq]; simp [h]) c hc
        exact ⟨by simp [h1], h2⟩

/-- **C100.** The name of the top level package: if it has only letters, digits, underscores and dots and does not end with a dot, it is
accepted exactly if each part is a name which a package can have, and the parts are those between the dots. -/
theorem C100_package_partial (c : CommandLine) (name : PyStr) (hn : c.topLevelPackage = some name)
    (hchars : ∀ x ∈ name, LetterOrDigit x ∨ x = ch! '.') (hlast : name.getLast? ≠ some (ch! '.')) :
    dotted (topLevelIds c) = name ∧ ((∀ id ∈ topLevelIds c, validTopLevelId id = true) ↔ ∀ id ∈ topLevelIds c, PackageId id) ∧
    ∀ s, readOptions c = .ok s → s.topLevelPackageIds = topLevelIds c ∧ ∀ id ∈ s.topLevelPackageIds, PackageId id := by
  have hids : topLevelIds c = splitParts (ch! '.') name := by
    unfold topLevelIds
    rw [hn]
    exact javaSplit_eq hlast
  have hiff : (∀ id ∈ topLevelIds c, validTopLevelId id = true) ↔ ∀ id ∈ topLevelIds c, PackageId id := by
    rw [hids]
    refine forall₂_congr fun id hid => validTopLevelId_iff fun x hx => ?_
    obtain ⟨h1, h2⟩ := mem_splitParts hid x hx
    exact (hchars x h1).resolve_right h2
  refine ⟨by rw [hids]; exact intercalate_splitParts _ _, hiff, fun s hs => ?_⟩
  obtain ⟨_, _, _, h3, h4⟩ := readOptions_ok.mp hs
  have : s.topLevelPackageIds = topLevelIds c := by rw [h4]
  exact ⟨this, by rw [this]; exact hiff.mp (validateOptions_ok.mp h3).1⟩

/-- **C100.** Every name which is made of names which packages can have is accepted. -/
theorem C100_package_accepts (c : CommandLine) (ids : List PyStr) (hne : ids ≠ []) (h : ∀ id ∈ ids, PackageId id)
    (hn : c.topLevelPackage = some (dotted ids)) : topLevelIds c = ids ∧ ∀ id ∈ topLevelIds c, validTopLevelId id = true := by
  have hchars : ∀ id ∈ ids, ∀ x ∈ id, LetterOrDigit x := by
    intro id hid x hx
    obtain ⟨⟨d, ds, rfl, hd, hds⟩, _⟩ := h id hid
    rcases List.mem_cons.mp hx with rfl | hx
    · exact .inl hd
    · exact hds x hx
  have hdot : ∀ id ∈ ids, ch! '.' ∉ id := by
    intro id hid hx
    have := hchars id hid _ hx
    simp only [LetterOrDigit, Letter] at this
    omega
  have hlast : (dotted ids).getLast? ≠ some (ch! '.') := by
    have : ∀ ids : List PyStr, ids ≠ [] → (∀ id ∈ ids, id ≠ [] ∧ ch! '.' ∉ id) → (dotted ids).getLast? ≠ some (ch! '.') := by
      intro ids
      induction ids with
      | nil => intro h; exact absurd rfl h
      | cons p ps ih =>
        intro _ hh
        obtain ⟨hp, hpd⟩ := hh p (by simp)
        cases ps with
        | nil =>
          have : dotted [p] = p := by simp [dotted, List.intercalate]
          rw [this]
          intro hl
          exact hpd (List.mem_of_getLast? hl)
        | cons q qs =>
          have he : dotted (p :: q :: qs) = p ++ (ch! '.') :: dotted (q :: qs) := by simp [dotted, List.intercalate, List.intersperse]
          have ih' := ih (by simp) fun id hid => hh id (by simp [hid])
          have hq := (hh q (by simp)).1
          have hne : dotted (q :: qs) ≠ [] := by
            cases q with
            | nil => exact absurd rfl hq
            | cons a as => cases qs <;> simp [dotted, List.intercalate, List.intersperse]
          rw [he]
          obtain ⟨a, as, ha⟩ := List.exists_cons_of_ne_nil hne
          rw [ha] at ih' ⊢
          rw [List.getLast?_append, List.getLast?_cons_cons, List.getLast?_eq_some_getLast (by simp), Option.some_or]
          rw [List.getLast?_eq_some_getLast (by simp)] at ih'
          exact ih'
    refine this ids hne fun id hid => ⟨?_, hdot id hid⟩
    obtain ⟨⟨d, ds, rfl, _⟩, _⟩ := h id hid
    simp
  have hids : topLevelIds c = ids := by
    unfold topLevelIds
    rw [hn]
    show javaSplit (ch! '.') (dotted ids) = ids
    rw [javaSplit_eq hlast, splitParts_dotted ids hne hdot]
  exact ⟨hids, by rw [hids]; exact fun id hid => (validTopLevelId_iff (hchars id hid)).mpr (h id hid)⟩

example : ∃ s, readOptions { options := [], topLevelPackage := some (py! "appl.Zser1o") } = .ok s ∧
    s.topLevelPackageIds = [py! "appl", py! "Zser1o"] := ⟨_, rfl, by decide +kernel⟩
example : readOptions { options := [], topLevelPackage := some (py! "appl.1x") } = .error .topLevelPackage ∧
    readOptions { options := [], topLevelPackage := some (py! "appl.ZserioX") } = .error .topLevelPackage ∧
    readOptions { options := [], topLevelPackage := some (py! "appl..x") } = .error .topLevelPackage ∧
    readOptions { options := [], topLevelPackage := some (py! "struct") } = .error .topLevelPackage := by decide +kernel

/-- **Deviation.** Only the first token of each part is looked at: `my-company.x y` is accepted as a top level package, although its parts
are no identifiers and the generated code cannot be imported. -/
theorem C100_package_deviates : ∃ s, readOptions { options := [], topLevelPackage := some (py! "my-company.x y") } = .ok s ∧
    s.topLevelPackageIds = [py! "my-company", py! "x y"] ∧ ∀ id ∈ s.topLevelPackageIds, ¬ PackageId id := by
  refine ⟨_, rfl, by decide +kernel, ?_⟩
  have : (topLevelIds { options := [], topLevelPackage := some (py! "my-company.x y") }) = [py! "my-company", py! "x y"] := by decide +kernel
  intro id hid
  change id ∈ topLevelIds { options := [], topLevelPackage := some (py! "my-company.x y") } at hid
  rw [this] at hid
  rintro ⟨⟨c, cs, rfl, hc, hcs⟩, _⟩
  simp only [List.mem_cons, List.not_mem_nil, or_false] at hid
  rcases hid with h | h
  · cases h
    have := hcs (ch! '-') (by decide)
    simp [LetterOrDigit, Letter] at this
  · cases h
    have := hcs 32 (by decide)
    simp [LetterOrDigit, Letter] at this

/-- **Deviation.** Dots at the end are ignored: `.` is accepted and means no top level package at all. -/
theorem C100_dot_deviates : ∃ s, readOptions { options := [], topLevelPackage := some (py! ".") } = .ok s ∧ s.topLevelPackageIds = [] :=
  ⟨_, rfl, by decide +kernel⟩

end Zserio.Options
