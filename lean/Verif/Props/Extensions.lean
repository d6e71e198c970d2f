import Verif.Spec.Extensions
/-
C116: extensions generate only after all checks, and the compiler stops at the first failure.
-/
set_option linter.unusedSimpArgs false

namespace Zserio.Extensions

/-- a run which stops at the first failure -/
private def Regular (r : Run) : Prop :=
  match r.result with
  | .ok _ => ∀ ev ∈ r.events, ev.Succeeded
  | .error m => ∃ pre ev, r.events = pre ++ [ev] ∧ ev.FailedWith m ∧ ∀ ev' ∈ pre, ev'.Succeeded

private theorem Regular.seq {a b : Run} (ha : Regular a) (hb : Regular b) : Regular (a.seq b) := by
  unfold Run.seq
  cases hr : a.result with
  | error m =>
    simp only [Regular, hr] at ha ⊢
    exact ha
  | ok u =>
    simp only [Regular, hr] at ha
    cases hs : b.result with
    | ok u' =>
      simp only [Regular, hs] at hb ⊢
      intro ev hev
      rcases List.mem_append.1 hev with h | h
      · exact ha ev h
      · exact hb ev h
    | error m =>
      simp only [Regular, hs] at hb ⊢
      obtain ⟨pre, ev, h1, h2, h3⟩ := hb
      refine ⟨a.events ++ pre, ev, by rw [h1, List.append_assoc], h2, ?_⟩
      intro ev' hev'
      rcases List.mem_append.1 hev' with h | h
      · exact ha ev' h
      · exact h3 ev' h

private theorem regular_nil : Regular ⟨[], .ok ()⟩ := by
  intro ev h
  cases h

private theorem regular_check (e : Extension) : Regular (check e) := by
  cases h : e.check with
  | ok u =>
    simp only [Regular, check, wrap, h, List.mem_singleton]
    rintro ev rfl
    exact h
  | error t =>
    simp only [Regular, check, wrap, h]
    exact ⟨[], _, rfl, ⟨t, h, rfl⟩, by simp⟩

private theorem regular_process (e : Extension) : Regular (process e) := by
  cases h : e.process with
  | ok u =>
    simp only [Regular, process, wrap, h, List.mem_singleton]
    rintro ev rfl
    exact h
  | error t =>
    simp only [Regular, process, wrap, h]
    exact ⟨[], _, rfl, ⟨t, h, rfl⟩, by simp⟩

private theorem regular_checkAll (es : List Extension) : Regular (checkAll es) := by
  induction es with
  | nil => exact regular_nil
  | cons e es ih => exact (regular_check e).seq ih

private theorem regular_callOne (cross : Bool) (e : Extension) : Regular (callOne cross e) := by
  unfold callOne
  split
  · refine Regular.seq ?_ (regular_process e)
    split
    · exact regular_check e
    · exact regular_nil
  · intro ev h
    simp only [List.mem_singleton] at h
    subst h
    trivial

private theorem regular_callAll (cross : Bool) (es : List Extension) : Regular (callAll cross es) := by
  induction es with
  | nil => exact regular_nil
  | cons e es ih => exact (regular_callOne cross e).seq ih

private theorem regular_callExtensions (cross : Bool) (es : List Extension) : Regular (callExtensions cross es) := by
  unfold callExtensions
  split
  · intro ev h
    simp only [List.mem_singleton] at h
    subst h
    trivial
  · refine Regular.seq ?_ (regular_callAll cross es)
    split
    · exact regular_checkAll es
    · exact regular_nil

private theorem tool_ok (core : PyStr) (loaded : List Extension) (cross : Bool) :
    tool core loaded cross (.ok ()) =
      ⟨ignoredEvents core loaded ++ ((callExtensions cross (available core loaded)).seq ⟨[.done], .ok ()⟩).events,
        ((callExtensions cross (available core loaded)).seq ⟨[.done], .ok ()⟩).result⟩ := by
  simp [tool, Run.seq]

private theorem regular_tool (core : PyStr) (loaded : List Extension) (cross : Bool) : Regular (tool core loaded cross (.ok ())) := by
  have h1 : Regular ⟨ignoredEvents core loaded, .ok ()⟩ := by
    intro ev h
    simp only [ignoredEvents, List.mem_map] at h
    obtain ⟨e, _, rfl⟩ := h
    trivial
  have h2 : Regular ⟨[.done], .ok ()⟩ := by
    intro ev h
    simp only [List.mem_singleton] at h
    subst h
    trivial
  unfold tool
  refine h1.seq ?_
  exact Regular.seq regular_nil ((regular_callExtensions _ _).seq h2)

/-- A schema with errors reaches no extension. -/
theorem C116_parse_error (core : PyStr) (loaded : List Extension) (cross : Bool) (m : PyStr) :
    (tool core loaded cross (.error m)).result = .error m ∧ ∀ ev ∈ (tool core loaded cross (.error m)).events, ev.called = none := by
  simp only [tool, Run.seq, List.append_nil, true_and]
  intro ev h
  simp only [ignoredEvents, List.mem_map] at h
  obtain ⟨e, _, rfl⟩ := h
  rfl

/-- The compiler stops at the first exception of an extension: it was raised by the very last call, all calls before it have succeeded, and the
message names the extension. -/
theorem C116_first_failure (core : PyStr) (loaded : List Extension) (cross : Bool) (m : PyStr)
    (h : (tool core loaded cross (.ok ())).result = .error m) :
    ∃ pre ev, (tool core loaded cross (.ok ())).events = pre ++ [ev] ∧ ev.FailedWith m ∧ ∀ ev' ∈ pre, ev'.Succeeded := by
  have := regular_tool core loaded cross
  unfold Regular at this
  rw [h] at this
  exact this

/-- If the compiler succeeds, all calls have succeeded. -/
theorem C116_success_events (core : PyStr) (loaded : List Extension) (cross : Bool)
    (h : (tool core loaded cross (.ok ())).result = .ok ()) : ∀ ev ∈ (tool core loaded cross (.ok ())).events, ev.Succeeded := by
  have := regular_tool core loaded cross
  unfold Regular at this
  rw [h] at this
  exact this

private theorem wrap_ok {e : Extension} {r : Except PyStr Unit} : wrap e r = .ok () ↔ r = .ok () := by
  cases r <;> simp [wrap]

private theorem seq_ok {a b : Run} : (a.seq b).result = .ok () ↔ a.result = .ok () ∧ b.result = .ok () := by
  unfold Run.seq
  cases h : a.result <;> simp

private theorem checkAll_ok (es : List Extension) : (checkAll es).result = .ok () ↔ ∀ e ∈ es, e.check = .ok () := by
  induction es with
  | nil => simp [checkAll]
  | cons e es ih => rw [checkAll, seq_ok, ih]; simp [check, wrap_ok]

private theorem callOne_ok (cross : Bool) (e : Extension) :
    (callOne cross e).result = .ok () ↔ (e.isEnabled = true → (cross = false → e.check = .ok ()) ∧ e.process = .ok ()) := by
  unfold callOne
  cases e.isEnabled
  · simp
  · rw [if_pos rfl, seq_ok]
    cases cross <;> simp [check, process, wrap_ok]

private theorem callAll_ok (cross : Bool) (es : List Extension) :
    (callAll cross es).result = .ok () ↔
      ∀ e ∈ es, e.isEnabled = true → (cross = false → e.check = .ok ()) ∧ e.process = .ok () := by
  induction es with
  | nil => simp [callAll]
  | cons e es ih => rw [callAll, seq_ok, ih, callOne_ok]; simp

/-- The compiler succeeds if and only if the checks of all extensions which fit its version (without cross extension check: of those which are
enabled) succeed, and all of them which are enabled generate without exception. -/
theorem C116_success_iff (core : PyStr) (loaded : List Extension) (cross : Bool) :
    (tool core loaded cross (.ok ())).result = .ok () ↔
      ∀ e ∈ loaded, Version.matchExtension core e.zserioVersion = true →
        (cross = true ∨ e.isEnabled = true → e.check = .ok ()) ∧ (e.isEnabled = true → e.process = .ok ()) := by
  rw [tool_ok]
  simp only
  rw [seq_ok]
  simp only [and_true]
  unfold callExtensions
  by_cases he : (available core loaded).isEmpty = true
  · rw [if_pos he]
    simp only [true_iff]
    intro e hmem hv
    exfalso
    rw [List.isEmpty_iff] at he
    have : e ∈ available core loaded := List.mem_filter.2 ⟨hmem, hv⟩
    rw [he] at this
    cases this
  · rw [if_neg he, seq_ok, callAll_ok]
    have hcheck : (if cross = true then checkAll (available core loaded) else ⟨[], .ok ()⟩).result = .ok () ↔
        (cross = true → ∀ e ∈ available core loaded, e.check = .ok ()) := by
      cases cross
      · simp
      · simp [checkAll_ok]
    rw [hcheck]
    simp only [available, List.mem_filter, and_imp]
    constructor
    · rintro ⟨h1, h2⟩ e hm hv
      refine ⟨?_, fun hen => (h2 e hm hv hen).2⟩
      rintro (hc | hen)
      · exact h1 hc e hm hv
      · cases cross
        · exact (h2 e hm hv hen).1 rfl
        · exact h1 rfl e hm hv
    · intro h
      exact ⟨fun hc e hm hv => (h e hm hv).1 (Or.inl hc), fun e hm hv hen => ⟨fun _ => (h e hm hv).1 (Or.inr hen), (h e hm hv).2 hen⟩⟩

private theorem processed_checkAll (es : List Extension) : (checkAll es).events.filterMap Event.processed = [] := by
  induction es with
  | nil => rfl
  | cons e es ih =>
    unfold checkAll Run.seq
    split <;> simp_all [check, Event.processed]

private theorem processed_callAll (cross : Bool) (es : List Extension) (h : (callAll cross es).result = .ok ()) :
    (callAll cross es).events.filterMap Event.processed = es.filter (·.isEnabled) := by
  induction es with
  | nil => rfl
  | cons e es ih =>
    rw [callAll, seq_ok] at h
    have h1 : ((callOne cross e).seq (callAll cross es)).events = (callOne cross e).events ++ (callAll cross es).events := by
      unfold Run.seq
      rw [h.1]
    rw [callAll, h1, List.filterMap_append, ih h.2]
    have h2 := h.1
    unfold callOne at h2 ⊢
    cases hen : e.isEnabled
    · simp [hen, Event.processed]
    · rw [hen, if_pos rfl, seq_ok] at h2
      rw [if_pos rfl]
      unfold Run.seq
      rw [h2.1]
      cases cross <;> simp [check, process, Event.processed, hen, List.filterMap_cons]

/-- If the compiler succeeds, exactly the extensions which are enabled and fit its version have generated, each once and in the order in which
they are found. -/
theorem C116_complete (core : PyStr) (loaded : List Extension) (cross : Bool) (h : (tool core loaded cross (.ok ())).result = .ok ()) :
    (tool core loaded cross (.ok ())).events.filterMap Event.processed =
      loaded.filter fun e => Version.matchExtension core e.zserioVersion && e.isEnabled := by
  rw [tool_ok] at h ⊢
  simp only at h ⊢
  have hig : (ignoredEvents core loaded).filterMap Event.processed = [] := by
    unfold ignoredEvents
    rw [List.filterMap_map, List.filterMap_eq_nil_iff]
    intro e _
    rfl
  rw [seq_ok] at h
  have hev : ((callExtensions cross (available core loaded)).seq ⟨[.done], .ok ()⟩).events =
      (callExtensions cross (available core loaded)).events ++ [.done] := by
    unfold Run.seq
    rw [h.1]
  rw [hev, List.filterMap_append, List.filterMap_append, hig]
  have hfil : (loaded.filter fun e => Version.matchExtension core e.zserioVersion && e.isEnabled) =
      (available core loaded).filter (·.isEnabled) := by
    simp only [available, List.filter_filter]
    congr 1
    funext e
    rw [Bool.and_comm]
  rw [hfil]
  have h1 := h.1
  unfold callExtensions at h1 ⊢
  by_cases he : (available core loaded).isEmpty = true
  · rw [if_pos he]
    rw [List.isEmpty_iff] at he
    rw [he]
    rfl
  · rw [if_neg he] at h1 ⊢
    rw [seq_ok] at h1
    have hev2 : ((if cross = true then checkAll (available core loaded) else ⟨[], .ok ()⟩).seq (callAll cross (available core loaded))).events =
        (if cross = true then checkAll (available core loaded) else ⟨[], .ok ()⟩).events ++ (callAll cross (available core loaded)).events := by
      unfold Run.seq
      rw [h1.1]
    rw [hev2, List.filterMap_append, processed_callAll _ _ h1.2]
    cases cross
    · simp [Event.processed]
    · simp [processed_checkAll, Event.processed]

/-! ### What precedes -/

private def CheckedBefore (seen evs : List Event) : Prop := ∀ a e b, evs = a ++ .process e :: b → .check e ∈ seen ++ a

private theorem CheckedBefore.append {seen x y : List Event} (hx : CheckedBefore seen x) (hy : CheckedBefore (seen ++ x) y) :
    CheckedBefore seen (x ++ y) := by
  intro a e b h
  rcases List.append_eq_append_iff.1 h with ⟨c, rfl, hc⟩ | ⟨c, hc, hc'⟩
  · have := hy c e b hc
    rwa [List.append_assoc] at this
  · cases c with
    | nil =>
      simp only [List.nil_append, List.append_nil] at hc hc'
      subst hc
      have := hy [] e b hc'.symm
      simpa using this
    | cons z zs =>
      simp only [List.cons_append, List.cons.injEq] at hc'
      obtain ⟨rfl, _⟩ := hc'
      exact hx a e zs hc

private theorem checkedBefore_none {seen evs : List Event} (h : evs.filterMap Event.processed = []) : CheckedBefore seen evs := by
  intro a e b he
  rw [he] at h
  simp [Event.processed] at h

private theorem CheckedBefore.mono {seen seen' evs : List Event} (h : CheckedBefore seen evs) (hs : ∀ ev ∈ seen, ev ∈ seen') :
    CheckedBefore seen' evs := by
  intro a e b he
  rcases List.mem_append.1 (h a e b he) with h' | h'
  · exact List.mem_append.2 (Or.inl (hs _ h'))
  · exact List.mem_append.2 (Or.inr h')

private theorem checkedBefore_seq {seen : List Event} {a b : Run} (ha : CheckedBefore seen a.events)
    (hb : a.result = .ok () → CheckedBefore (seen ++ a.events) b.events) : CheckedBefore seen (a.seq b).events := by
  unfold Run.seq
  cases h : a.result with
  | error m => exact ha
  | ok u => exact ha.append (hb h)

private theorem checkedBefore_callOne {cross : Bool} {seen : List Event} {e : Extension} (h : cross = true → .check e ∈ seen) :
    CheckedBefore seen (callOne cross e).events := by
  unfold callOne
  cases hen : e.isEnabled
  · exact checkedBefore_none (by simp [Event.processed])
  · rw [if_pos rfl]
    refine checkedBefore_seq (checkedBefore_none ?_) (fun _ => ?_)
    · cases cross <;> simp [check, Event.processed]
    · intro a e' b hab
      simp only [process] at hab
      cases a with
      | nil =>
        simp only [List.nil_append, List.cons.injEq, Event.process.injEq] at hab
        rw [← hab.1]
        cases cross
        · simp [check]
        · simp [h rfl]
      | cons z zs => simp at hab

private theorem checkedBefore_callAll {cross : Bool} (es : List Extension) {seen : List Event} (h : cross = true → ∀ e ∈ es, .check e ∈ seen) :
    CheckedBefore seen (callAll cross es).events := by
  induction es generalizing seen with
  | nil => exact checkedBefore_none rfl
  | cons e es ih =>
    rw [callAll]
    refine checkedBefore_seq (checkedBefore_callOne fun hc => h hc e (by simp)) fun _ => ?_
    exact ih fun hc e' he' => List.mem_append.2 (Or.inl (h hc e' (by simp [he'])))

private theorem checkAll_events (es : List Extension) (h : (checkAll es).result = .ok ()) : (checkAll es).events = es.map .check := by
  induction es with
  | nil => rfl
  | cons e es ih =>
    rw [checkAll, seq_ok] at h
    rw [checkAll]
    unfold Run.seq
    rw [h.1]
    simp [check, ih h.2]

/-- No extension generates before its own check has succeeded. -/
theorem C116_checked_before (core : PyStr) (loaded : List Extension) (cross : Bool) (a b : List Event) (e : Extension)
    (h : (tool core loaded cross (.ok ())).events = a ++ .process e :: b) : .check e ∈ a ∧ e.check = .ok () := by
  have key : CheckedBefore [] (tool core loaded cross (.ok ())).events := by
    rw [tool_ok]
    refine CheckedBefore.append (checkedBefore_none ?_) ?_
    · unfold ignoredEvents
      rw [List.filterMap_map, List.filterMap_eq_nil_iff]
      intro e _
      rfl
    · refine checkedBefore_seq ?_ fun _ => checkedBefore_none rfl
      unfold callExtensions
      split
      · exact checkedBefore_none rfl
      · refine checkedBefore_seq (checkedBefore_none ?_) fun hok => ?_
        · cases cross
          · rfl
          · exact processed_checkAll _
        · refine checkedBefore_callAll _ fun hc e he => ?_
          subst hc
          rw [if_pos rfl] at hok ⊢
          rw [checkAll_events _ hok]
          exact List.mem_append.2 (Or.inr (List.mem_map_of_mem he))
  have hmem : .check e ∈ a := by simpa using key a e b h
  refine ⟨hmem, ?_⟩
  have hreg := regular_tool core loaded cross
  have hsucc : ∀ ev ∈ a, ev.Succeeded := by
    unfold Regular at hreg
    split at hreg
    · intro ev hev
      exact hreg ev (by rw [h]; exact List.mem_append.2 (Or.inl hev))
    · obtain ⟨pre, ev, h1, _, h3⟩ := hreg
      intro ev' hev'
      apply h3
      rw [h] at h1
      have : ∃ c, pre = a ++ c := by
        rcases List.append_eq_append_iff.1 h1 with ⟨c, hc, _⟩ | ⟨c, hc, hc'⟩
        · exact ⟨c, hc⟩
        · cases c with
          | nil => exact ⟨[], by simpa using hc.symm⟩
          | cons z zs =>
            have := congrArg List.length hc'
            simp at this
      obtain ⟨c, rfl⟩ := this
      exact List.mem_append.2 (Or.inl hev')
  exact hsucc _ hmem

private theorem mem_checkAll {es : List Extension} {ev : Event} (h : ev ∈ (checkAll es).events) : ∃ e ∈ es, ev = .check e := by
  induction es with
  | nil => cases h
  | cons e es ih =>
    unfold checkAll Run.seq at h
    split at h
    · simp only [check, List.mem_singleton] at h
      exact ⟨e, by simp, h⟩
    · rcases List.mem_append.1 h with h | h
      · simp only [check, List.mem_singleton] at h
        exact ⟨e, by simp, h⟩
      · obtain ⟨e', h1, h2⟩ := ih h
        exact ⟨e', by simp [h1], h2⟩

private theorem mem_seq {a b : Run} {ev : Event} (h : ev ∈ (a.seq b).events) : ev ∈ a.events ∨ ev ∈ b.events := by
  unfold Run.seq at h
  split at h
  · exact Or.inl h
  · exact List.mem_append.1 h

private theorem mem_callAll {cross : Bool} {es : List Extension} {ev : Event} (h : ev ∈ (callAll cross es).events) :
    ∃ e ∈ es, ev = .disabled e ∨ (e.isEnabled = true ∧ (ev = .process e ∨ (cross = false ∧ ev = .check e))) := by
  induction es with
  | nil => cases h
  | cons e es ih =>
    rw [callAll] at h
    rcases mem_seq h with h | h
    · refine ⟨e, by simp, ?_⟩
      unfold callOne at h
      cases hen : e.isEnabled
      · simp only [hen, Bool.false_eq_true, if_false, List.mem_singleton] at h
        exact Or.inl h
      · rw [hen, if_pos rfl] at h
        rcases mem_seq h with h | h
        · cases cross
          · simp only [Bool.not_false, if_true, check, List.mem_singleton] at h
            exact Or.inr ⟨rfl, Or.inr ⟨rfl, h⟩⟩
          · simp at h
        · simp only [process, List.mem_singleton] at h
          exact Or.inr ⟨rfl, Or.inl h⟩
    · obtain ⟨e', h1, h2⟩ := ih h
      exact ⟨e', by simp [h1], h2⟩

/-- Only extensions which fit the version of the compiler are called; only those which are enabled generate, and without cross extension check
only those are checked. -/
theorem C116_called (core : PyStr) (loaded : List Extension) (cross : Bool) (ev : Event) (e : Extension)
    (h : ev ∈ (tool core loaded cross (.ok ())).events) (he : ev.called = some e) :
    e ∈ loaded ∧ Version.matchExtension core e.zserioVersion = true ∧ (ev = .process e ∨ cross = false → e.isEnabled = true) := by
  rw [tool_ok] at h
  simp only at h
  have hav : ∀ {e}, e ∈ available core loaded → e ∈ loaded ∧ Version.matchExtension core e.zserioVersion = true := by
    intro e he
    simpa [available] using he
  rcases List.mem_append.1 h with h | h
  · simp only [ignoredEvents, List.mem_map] at h
    obtain ⟨e', _, rfl⟩ := h
    cases he
  · rcases mem_seq h with h | h
    · unfold callExtensions at h
      split at h
      · simp only [List.mem_singleton] at h
        subst h
        cases he
      · rcases mem_seq h with h | h
        · cases cross
          · simp at h
          · obtain ⟨e', h1, rfl⟩ := mem_checkAll h
            cases he
            exact ⟨(hav h1).1, (hav h1).2, by rintro (h | h) <;> cases h⟩
        · obtain ⟨e', h1, h2⟩ := mem_callAll h
          rcases h2 with rfl | ⟨hen, rfl | ⟨_, rfl⟩⟩
          · cases he
          · cases he
            exact ⟨(hav h1).1, (hav h1).2, fun _ => hen⟩
          · cases he
            exact ⟨(hav h1).1, (hav h1).2, fun _ => hen⟩
    · simp only [List.mem_singleton] at h
      subst h
      cases he

/-- With the cross extension check, which is the default, nothing is generated at all if the check of any extension which fits the version of the
compiler fails, be it enabled or not. -/
theorem C116_cross_check (core : PyStr) (loaded : List Extension) (e : Extension) (he : e ∈ loaded)
    (hv : Version.matchExtension core e.zserioVersion = true) (hc : e.check ≠ .ok ()) (e' : Extension) :
    .process e' ∉ (tool core loaded true (.ok ())).events := by
  intro h
  rw [tool_ok] at h
  simp only at h
  have hmem : e ∈ available core loaded := List.mem_filter.2 ⟨he, hv⟩
  rcases List.mem_append.1 h with h | h
  · simp [ignoredEvents] at h
  · rcases mem_seq h with h | h
    · unfold callExtensions at h
      split at h
      · simp at h
      · rw [if_pos rfl] at h
        unfold Run.seq at h
        cases hr : (checkAll (available core loaded)).result with
        | ok u => exact hc ((checkAll_ok _).1 hr e hmem)
        | error m =>
          rw [hr] at h
          obtain ⟨e'', _, h2⟩ := mem_checkAll h
          cases h2
    · simp at h

private theorem mem_callExtensions {cross : Bool} {es : List Extension} {ev : Event} (h : ev ∈ (callExtensions cross es).events) :
    ev = .noExtensions ∨ (∃ e, ev = .check e ∨ ev = .process e ∨ ev = .disabled e) := by
  unfold callExtensions at h
  split at h
  · simp only [List.mem_singleton] at h
    exact Or.inl h
  · right
    rcases mem_seq h with h | h
    · cases cross
      · simp at h
      · obtain ⟨e, _, h⟩ := mem_checkAll h
        exact ⟨e, Or.inl h⟩
    · obtain ⟨e, _, h⟩ := mem_callAll h
      rcases h with h | ⟨_, h | ⟨_, h⟩⟩
      · exact ⟨e, Or.inr (Or.inr h)⟩
      · exact ⟨e, Or.inr (Or.inl h)⟩
      · exact ⟨e, Or.inl h⟩

/-- The compiler reports that it is done if and only if it has succeeded. -/
theorem C116_done (core : PyStr) (loaded : List Extension) (cross : Bool) (parsed : Except PyStr Unit) :
    .done ∈ (tool core loaded cross parsed).events ↔ (tool core loaded cross parsed).result = .ok () := by
  cases parsed with
  | error m => simp [tool, Run.seq, ignoredEvents]
  | ok u =>
    rw [tool_ok]
    simp only
    rw [seq_ok]
    have hn : .done ∉ (callExtensions cross (available core loaded)).events := by
      intro h
      rcases mem_callExtensions h with h | ⟨e, h | h | h⟩ <;> cases h
    unfold Run.seq
    cases h : (callExtensions cross (available core loaded)).result with
    | error m => simp [ignoredEvents, hn]
    | ok u' => simp

/-- There is a message for every extension which does not fit the version of the compiler, and only for these. -/
theorem C116_ignored (core : PyStr) (loaded : List Extension) (cross : Bool) (parsed : Except PyStr Unit) (e : Extension) :
    .ignored e ∈ (tool core loaded cross parsed).events ↔ e ∈ loaded ∧ Version.matchExtension core e.zserioVersion = false := by
  have hi : .ignored e ∈ ignoredEvents core loaded ↔ e ∈ loaded ∧ Version.matchExtension core e.zserioVersion = false := by
    simp [ignoredEvents]
  cases parsed with
  | error m => simpa [tool, Run.seq] using hi
  | ok u =>
    rw [tool_ok]
    simp only
    rw [List.mem_append, hi]
    refine ⟨fun h => h.elim id fun h => ?_, Or.inl⟩
    rcases mem_seq h with h | h
    · rcases mem_callExtensions h with h | ⟨e, h | h | h⟩ <;> cases h
    · simp at h

/-! ### Concrete cases -/

namespace Demo
def core : PyStr := py! "2.18.2"
def python : Extension := ⟨py! "Python Generator", py! "2.18.2", true, .ok (), .ok ()⟩
def java : Extension := ⟨py! "Java Generator", py! "2.18.1", false, .error (py! "clash"), .ok ()⟩
def cpp : Extension := ⟨py! "C++11 Generator", py! "2.18.2", true, .error (py! "clash"), .ok ()⟩
def old : Extension := ⟨py! "Old", py! "2.17.0", true, .ok (), .ok ()⟩
end Demo
open Demo

example : tool core [python, old] true (.ok ()) = ⟨[.ignored old, .check python, .process python, .done], .ok ()⟩ := by decide +kernel
example : tool core [python, java] true (.ok ()) = ⟨[.check python, .check java], .error (py! "Java Generator: clash")⟩ := by decide +kernel
example : tool core [python, java] false (.ok ()) = ⟨[.check python, .process python, .disabled java, .done], .ok ()⟩ := by decide +kernel
/-- without the cross extension check, the first extension has generated when the check of the second fails -/
example : tool core [python, cpp] false (.ok ()) = ⟨[.check python, .process python, .check cpp], .error (py! "C++11 Generator: clash")⟩ := by
  decide +kernel
example : java ∈ [python, java] ∧ Version.matchExtension core java.zserioVersion = true ∧ java.check ≠ .ok () := by decide +kernel

end Zserio.Extensions
