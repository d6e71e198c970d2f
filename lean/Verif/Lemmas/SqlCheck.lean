import Verif.Spec.SqlCheck
import Verif.Lemmas.SqlText
set_option linter.unusedSimpArgs false
set_option linter.unusedVariables false
/-
Helper lemmas for the checks of SQL tables.
-/
namespace Zserio.SqlCheck

open Sql (lower isName split)

/-! ### Checks -/

theorem checkNames_ok : ∀ {ns seen : List PyStr}, checkNames seen ns = .ok () ↔
    (ns.map (·.map lower)).Nodup ∧ ∀ n ∈ ns, n.map lower ∉ seen
  | [], seen => by simp [checkNames]
  | n :: ns, seen => by
    simp only [checkNames, List.map_cons, List.nodup_cons, List.mem_cons, forall_eq_or_imp]
    by_cases h : seen.contains (n.map lower) = true
    · rw [if_pos h]
      simp only [reduceCtorEq, false_iff]
      rintro ⟨_, h', _⟩
      exact h' (by simpa using h)
    · rw [if_neg h, checkNames_ok]
      simp only [List.mem_cons, not_or]
      constructor
      · rintro ⟨h1, h2⟩
        refine ⟨⟨?_, h1⟩, by simpa using h, fun m hm => (h2 m hm).2⟩
        rw [List.mem_map]
        rintro ⟨m, hm, he⟩
        exact (h2 m hm).1 he
      · rintro ⟨⟨h1, h2⟩, h3, h4⟩
        exact ⟨h2, fun m hm => ⟨fun he => h1 (by rw [← he]; exact List.mem_map_of_mem hm), h4 m hm⟩⟩

theorem checkNoTables_ok : ∀ {cs : List ColumnDecl}, checkNoTables cs = .ok () ↔ ∀ c ∈ cs, c.isTable = false
  | [] => by simp [checkNoTables]
  | c :: cs => by
    cases h : c.isTable <;> simp [checkNoTables, h, checkNoTables_ok]

theorem checkAllTables_ok : ∀ {cs : List ColumnDecl}, checkAllTables cs = .ok () ↔ ∀ c ∈ cs, c.isTable = true
  | [] => by simp [checkAllTables]
  | c :: cs => by
    cases h : c.isTable <;> simp [checkAllTables, h, checkAllTables_ok]

theorem checkNotVirtual_ok : ∀ {cs : List ColumnDecl}, checkNotVirtual cs = .ok () ↔ ∀ c ∈ cs, c.isVirtual = false
  | [] => by simp [checkNotVirtual]
  | c :: cs => by
    cases h : c.isVirtual <;> simp [checkNotVirtual, h, checkNotVirtual_ok]

theorem checkUnique_ok {cols : List ColumnDecl} : ∀ {ns : List PyStr}, checkUnique cols ns = .ok () ↔ ∀ n ∈ ns, ∃ c ∈ cols, c.name = n
  | [] => by simp [checkUnique]
  | n :: ns => by
    simp only [checkUnique, List.mem_cons, forall_eq_or_imp]
    by_cases h : cols.any (·.name == n) = true
    · rw [if_pos h, checkUnique_ok]
      simp only [iff_and_self]
      intro _
      simpa using h
    · rw [if_neg h]
      simp only [reduceCtorEq, false_iff]
      rintro ⟨h', _⟩
      exact h (by simpa using h')

theorem checkArguments_sound : ∀ {args seen seen' : List (PyStr × PyStr)}, checkArguments seen args = .ok seen' →
    (∀ n t, (n, t) ∈ args → seen'.lookup n = some t) ∧ (∀ n t, seen.lookup n = some t → seen'.lookup n = some t) ∧
      ∀ n t, seen'.lookup n = some t → seen.lookup n = some t ∨ (n, t) ∈ args
  | [], seen, seen', h => by
    simp only [checkArguments, Except.ok.injEq] at h
    subst h
    exact ⟨by simp, fun _ _ h => h, fun _ _ h => .inl h⟩
  | (m, u) :: args, seen, seen', h => by
    simp only [checkArguments] at h
    rcases hl : seen.lookup m with _ | u'
    · rw [hl] at h
      obtain ⟨h1, h2, h3⟩ := checkArguments_sound h
      have hself : ((m, u) :: seen).lookup m = some u := by simp [List.lookup]
      refine ⟨?_, ?_, ?_⟩
      · intro n t hm
        rw [List.mem_cons] at hm
        rcases hm with hm | hm
        · simp only [Prod.mk.injEq] at hm
          obtain ⟨rfl, rfl⟩ := hm
          exact h2 _ _ hself
        · exact h1 n t hm
      · intro n t hn
        refine h2 n t ?_
        by_cases he : n = m
        · subst he; rw [hl] at hn; simp at hn
        · have : (n == m) = false := by simpa using he
          simp only [List.lookup, this]
          exact hn
      · intro n t hn
        rcases h3 n t hn with h | h
        · by_cases he : n = m
          · subst he
            rw [hself] at h
            cases h
            exact .inr (by simp)
          · have : (n == m) = false := by simpa using he
            simp only [List.lookup, this] at h
            exact .inl h
        · exact .inr (List.mem_cons_of_mem _ h)
    · rw [hl] at h
      simp only at h
      split at h
      · simp at h
      · rename_i he
        have he : u' = u := by simpa using he
        subst he
        obtain ⟨h1, h2, h3⟩ := checkArguments_sound h
        refine ⟨?_, h2, fun n t hn => (h3 n t hn).imp id (List.mem_cons_of_mem _)⟩
        intro n t hm
        rw [List.mem_cons] at hm
        rcases hm with hm | hm
        · simp only [Prod.mk.injEq] at hm
          obtain ⟨rfl, rfl⟩ := hm
          exact h2 _ _ hl
        · exact h1 n t hm

theorem checkArguments_complete : ∀ {args seen : List (PyStr × PyStr)}, (∀ n t t', (n, t) ∈ args → seen.lookup n = some t' → t' = t) →
    (∀ n t t', (n, t) ∈ args → (n, t') ∈ args → t = t') → ∃ seen', checkArguments seen args = .ok seen'
  | [], seen, _, _ => ⟨seen, rfl⟩
  | (m, u) :: args, seen, h1, h2 => by
    simp only [checkArguments]
    have h2' : ∀ n t t', (n, t) ∈ args → (n, t') ∈ args → t = t' :=
      fun n t t' h h' => h2 n t t' (List.mem_cons_of_mem _ h) (List.mem_cons_of_mem _ h')
    rcases hl : seen.lookup m with _ | u'
    · refine checkArguments_complete (fun n t t' hm hn => ?_) h2'
      by_cases he : n = m
      · subst he
        simp only [List.lookup, beq_self_eq_true, Option.some.injEq] at hn
        subst hn
        exact h2 n u t (by simp) (List.mem_cons_of_mem _ hm)
      · have : (n == m) = false := by simpa using he
        simp only [List.lookup, this] at hn
        exact h1 n t t' (List.mem_cons_of_mem _ hm) hn
    · have := h1 m u u' (by simp) hl
      subst this
      simp only [ne_eq, not_true_eq_false, if_false]
      exact checkArguments_complete (fun n t t' hm hn => h1 n t t' (List.mem_cons_of_mem _ hm) hn) h2'

theorem checkExplicit_ok : ∀ {cs : List ColumnDecl} {seen : List (PyStr × PyStr)}, checkExplicit seen cs = .ok () ↔
    (∀ c ∈ cs, ∀ n t t', (n, t) ∈ c.arguments → seen.lookup n = some t' → t' = t) ∧
      ∀ c ∈ cs, ∀ c' ∈ cs, ∀ n t t', (n, t) ∈ c.arguments → (n, t') ∈ c'.arguments → t = t'
  | [], seen => by simp [checkExplicit]
  | c :: cs, seen => by
    simp only [checkExplicit]
    rcases h : checkArguments seen c.arguments with e | seen'
    · simp only [reduceCtorEq, false_iff]
      rintro ⟨h1, h2⟩
      obtain ⟨s, hs⟩ := checkArguments_complete (h1 c (by simp)) (h2 c (by simp) c (by simp))
      rw [h] at hs
      simp at hs
    · simp only
      rw [checkExplicit_ok]
      obtain ⟨a1, a2, a3⟩ := checkArguments_sound h
      constructor
      · rintro ⟨h1, h2⟩
        have key : ∀ d ∈ cs, ∀ n t t', (n, t) ∈ d.arguments → (n, t') ∈ c.arguments → t' = t :=
          fun d hd n t t' hn hn' => h1 d hd n t t' hn (a1 n t' hn')
        constructor
        · intro d hd n t t' hn hl
          rw [List.mem_cons] at hd
          rcases hd with rfl | hd
          · have := a1 n t hn
            rw [a2 n t' hl] at this
            simpa using this
          · exact h1 d hd n t t' hn (a2 n t' hl)
        · intro d hd d' hd' n t t' hn hn'
          rw [List.mem_cons] at hd hd'
          rcases hd with rfl | hd <;> rcases hd' with rfl | hd'
          · have := a1 n t hn
            rw [a1 n t' hn'] at this
            simpa using this.symm
          · exact key d' hd' n t' t hn' hn
          · exact (key d hd n t t' hn hn').symm
          · exact h2 d hd d' hd' n t t' hn hn'
      · rintro ⟨h1, h2⟩
        refine ⟨fun d hd n t t' hn hl => ?_, fun d hd d' hd' => h2 d (List.mem_cons_of_mem _ hd) d' (List.mem_cons_of_mem _ hd')⟩
        rcases a3 n t' hl with h' | h'
        · exact h1 d (List.mem_cons_of_mem _ hd) n t t' hn h'
        · exact h2 c (by simp) d (List.mem_cons_of_mem _ hd) n t' t h' hn

theorem find_some {cols : List ColumnDecl} {n : PyStr} : (∃ c ∈ cols, c.name = n) ↔
    ∃ i c, cols.findIdx? (·.name == n) = some i ∧ cols.find? (·.name == n) = some c := by
  constructor
  · rintro ⟨c, hc, hn⟩
    have h1 : (cols.find? (·.name == n)).isSome = true := by
      rw [List.find?_isSome]; exact ⟨c, hc, by simpa using hn⟩
    have h2 : (cols.findIdx? (·.name == n)).isSome = true := by
      rw [List.findIdx?_isSome, List.any_eq_true]; exact ⟨c, hc, by simpa using hn⟩
    obtain ⟨a, ha⟩ := Option.isSome_iff_exists.mp h1
    obtain ⟨i, hi⟩ := Option.isSome_iff_exists.mp h2
    exact ⟨i, a, hi, ha⟩
  · rintro ⟨i, c, _, h⟩
    exact ⟨c, List.mem_of_find?_eq_some h, by simpa using List.find?_some h⟩

theorem checkKeyNames_ok {cols : List ColumnDecl} : ∀ {ns : List PyStr} {i : Nat}, (∃ ws, checkKeyNames cols i ns = .ok ws) ↔
    ∀ n ∈ ns, ∃ c ∈ cols, c.name = n
  | [], i => by simp [checkKeyNames]
  | n :: ns, i => by
    simp only [checkKeyNames, List.mem_cons, forall_eq_or_imp]
    rcases h1 : cols.findIdx? (·.name == n) with _ | j
    · simp only [h1, reduceCtorEq, exists_false, false_iff]
      rintro ⟨h, _⟩
      obtain ⟨i, c, h, _⟩ := find_some.mp h
      rw [h1] at h
      simp at h
    · rcases h2 : cols.find? (·.name == n) with _ | c
      · simp only [h1, h2, reduceCtorEq, exists_false, false_iff]
        rintro ⟨h, _⟩
        obtain ⟨i, c, _, h⟩ := find_some.mp h
        rw [h2] at h
        simp at h
      · simp only [h1, h2]
        have hc := find_some.mpr ⟨j, c, h1, h2⟩
        rw [← checkKeyNames_ok (i := i + 1)]
        rcases checkKeyNames cols (i + 1) ns with e | ws
        · simp
        · simp [hc]

theorem checkKeyFields_found : ∀ {cs : List ColumnDecl} {first found : Bool},
    (checkKeyFields first found cs).2.1 = (found || cs.any fun c => isPrimaryKey c.constraint)
  | [], first, found => by simp [checkKeyFields]
  | c :: cs, first, found => by
    simp only [checkKeyFields, List.any_cons]
    cases h : isPrimaryKey c.constraint
    · simp [checkKeyFields_found]
    · simp [checkKeyFields_found]

theorem checkKeyCount_ok {T : TableDecl} {found : Bool} : (∃ ws, checkKeyCount T found = .ok ws) ↔
    (T.withoutRowId = true → keyColumns T.constraint ≠ [] ∨ found = true) := by
  unfold checkKeyCount
  cases found
  · by_cases h : keyColumns T.constraint = []
    · cases hw : T.withoutRowId <;> simp [h]
    · simp [h]
  · simp

theorem check_ok {T : TableDecl} : (∃ ws, check T = .ok ws) ↔ Accepted T := by
  unfold check Accepted
  have e0 : (T.columns.map fun c => c.name.map lower) = (T.columns.map (·.name)).map (·.map lower) := by simp
  rw [e0]
  rcases h1 : checkNames [] (T.columns.map (·.name)) with e | ⟨⟩
  · simp only [h1, reduceCtorEq, exists_false, false_iff]
    rintro ⟨_, h, _⟩
    rw [checkNames_ok.mpr ⟨h, by simp⟩] at h1
    simp at h1
  have h1' := (checkNames_ok.mp h1).1
  simp only [h1, h1', true_and]
  rcases h2 : checkNoTables T.columns with e | ⟨⟩
  · simp only [h2, reduceCtorEq, exists_false, false_iff]
    rintro ⟨_, h, _⟩
    rw [checkNoTables_ok.mpr h] at h2
    simp at h2
  have h2' := checkNoTables_ok.mp h2
  simp only [h2]
  rcases h3 : checkExplicit [] T.columns with e | ⟨⟩
  · simp only [h3, reduceCtorEq, exists_false, false_iff]
    rintro ⟨_, _, h, _⟩
    rw [checkExplicit_ok.mpr ⟨by simp [List.lookup], h⟩] at h3
    simp at h3
  have h3' := (checkExplicit_ok.mp h3).2
  simp only [h3]
  by_cases h4 : T.columns = []
  · simp [h4]
  rw [if_neg h4]
  rcases h5 : T.module with _ | m <;> simp only [h5]
  swap
  · simp only [Except.ok.injEq, exists_eq', reduceCtorEq, IsEmpty.forall_iff, and_true, true_iff]
    exact ⟨h4, h2', h3'⟩
  simp only [true_implies]
  rcases h6 : checkNotVirtual T.columns with e | ⟨⟩
  · simp only [h6, reduceCtorEq, exists_false, false_iff]
    rintro ⟨_, _, _, h, _⟩
    rw [checkNotVirtual_ok.mpr h] at h6
    simp at h6
  have h6' := checkNotVirtual_ok.mp h6
  simp only [h6]
  have hk : (∃ ws, checkPrimaryKey T = .ok ws) ↔ (∀ n ∈ keyColumns T.constraint, ∃ c ∈ T.columns, c.name = n) ∧
      (T.withoutRowId = true → keyColumns T.constraint ≠ [] ∨ ∃ c ∈ T.columns, isPrimaryKey c.constraint = true) := by
    unfold checkPrimaryKey
    have hf : (checkKeyFields true false T.columns).2.1 = true ↔ ∃ c ∈ T.columns, isPrimaryKey c.constraint = true := by
      rw [checkKeyFields_found]; simp
    rw [← hf, ← checkKeyCount_ok, ← checkKeyNames_ok (i := 0)]
    rcases c1 : checkKeyCount T (checkKeyFields true false T.columns).2.1 with e | ws
    · simp [c1]
    · rcases c2 : checkKeyNames T.columns 0 (keyColumns T.constraint) with e | ws'
      · simp [c1, c2]
      · simp [c1, c2]
  rcases h7 : checkPrimaryKey T with e | ws
  · simp only [h7, reduceCtorEq, exists_false, false_iff]
    rintro ⟨_, _, _, _, hx, _, hy⟩
    obtain ⟨ws, hw⟩ := hk.mpr ⟨hx, hy⟩
    rw [h7] at hw
    simp at hw
  obtain ⟨k1, k2⟩ := hk.mp ⟨ws, h7⟩
  simp only [h7]
  rcases h8 : checkUnique T.columns (uniqueColumns T.constraint) with e | ⟨⟩
  · simp only [h8, reduceCtorEq, exists_false, false_iff]
    rintro ⟨_, _, _, _, _, h, _⟩
    rw [checkUnique_ok.mpr h] at h8
    simp at h8
  have h8' := checkUnique_ok.mp h8
  simp only [h8, Except.ok.injEq, exists_eq', true_iff]
  exact ⟨h4, h2', h3', h6', k1, h8', k2⟩

/-! ### Warnings -/

theorem checkKeyFields_silent : ∀ {cs : List ColumnDecl} {found : Bool}, (checkKeyFields false found cs).1 = [] ↔
    ∀ c ∈ cs, isPrimaryKey c.constraint = false
  | [], found => by simp [checkKeyFields]
  | c :: cs, found => by
    simp only [checkKeyFields, List.mem_cons, forall_eq_or_imp]
    cases h : isPrimaryKey c.constraint
    · simp [checkKeyFields_silent]
    · cases found <;> simp

theorem checkKeyFields_keys : ∀ {cs : List ColumnDecl} {first found : Bool}, (checkKeyFields first found cs).2.2 =
    (cs.filter fun c => isPrimaryKey c.constraint).map (·.name)
  | [], first, found => by simp [checkKeyFields]
  | c :: cs, first, found => by
    simp only [checkKeyFields]
    cases h : isPrimaryKey c.constraint
    · simp [h, checkKeyFields_keys]
    · simp [h, checkKeyFields_keys]

theorem keyWarnings_nil {c : ColumnDecl} : keyColumnWarnings c = [] ↔ isNullAllowed c.constraint = false := by
  unfold keyColumnWarnings
  cases isNullAllowed c.constraint <;> simp

theorem findIdx_get {cols : List ColumnDecl} {n : PyStr} {i : Nat} {c : ColumnDecl} (h1 : cols.findIdx? (·.name == n) = some i)
    (h2 : cols.find? (·.name == n) = some c) : cols[i]? = some c ∧ c.name = n := by
  refine ⟨?_, by simpa using List.find?_some h2⟩
  induction cols generalizing i with
  | nil => simp at h2
  | cons d cols ih =>
    rw [List.findIdx?_cons] at h1
    rw [List.find?_cons] at h2
    cases hd : d.name == n
    · rw [hd] at h1 h2
      simp only [Bool.false_eq_true, if_false, Option.map_eq_some_iff] at h1
      obtain ⟨j, hj, rfl⟩ := h1
      simpa using ih hj h2
    · rw [hd] at h1 h2
      simp only [if_true, Option.some.injEq] at h1 h2
      subst h1 h2
      rfl

theorem checkKeyNames_silent {cols : List ColumnDecl} : ∀ {ns : List PyStr} {i : Nat}, checkKeyNames cols i ns = .ok [] →
    ∀ k n, ns[k]? = some n → ∃ c, cols[i + k]? = some c ∧ c.name = n ∧ isNullAllowed c.constraint = false
  | [], i, _, k, n, hk => by simp at hk
  | m :: ns, i, h, k, n, hk => by
    simp only [checkKeyNames] at h
    rcases h1 : cols.findIdx? (·.name == m) with _ | j
    · simp [h1] at h
    rcases h2 : cols.find? (·.name == m) with _ | c
    · simp [h1, h2] at h
    simp only [h1, h2] at h
    rcases h3 : checkKeyNames cols (i + 1) ns with e | ws
    · simp [h3] at h
    simp only [h3, Except.ok.injEq, List.append_eq_nil_iff, keyWarnings_nil] at h
    obtain ⟨⟨h4, h5⟩, h6⟩ := h
    subst h6
    have hj : j = i := by
      by_contra hne
      rw [if_pos hne] at h5
      simp at h5
    subst hj
    rcases k with _ | k
    · simp only [List.getElem?_cons_zero, Option.some.injEq] at hk
      subst hk
      obtain ⟨g1, g2⟩ := findIdx_get h1 h2
      exact ⟨c, g1, g2, h4⟩
    · obtain ⟨c, hc⟩ := checkKeyNames_silent h3 k n (by simpa using hk)
      exact ⟨c, by rw [show j + (k + 1) = j + 1 + k by omega]; exact hc⟩

theorem checkKeyNames_prefix : ∀ {cs pre ds : List ColumnDecl}, ((pre ++ cs ++ ds).map (·.name)).Nodup →
    (∀ c ∈ cs, isNullAllowed c.constraint = false) → checkKeyNames (pre ++ cs ++ ds) pre.length (cs.map (·.name)) = .ok []
  | [], pre, ds, _, _ => rfl
  | c :: cs, pre, ds, hn, hc => by
    simp only [List.map_cons, checkKeyNames]
    have e : pre ++ c :: cs ++ ds = pre ++ (c :: (cs ++ ds)) := by simp
    have hpre : ∀ d ∈ pre, (d.name == c.name) = false := by
      intro d hd
      rw [e, List.map_append, List.nodup_append] at hn
      have := hn.2.2 d.name (List.mem_map_of_mem hd) c.name (by simp)
      simpa using this
    have i1 : (pre ++ c :: cs ++ ds).findIdx? (·.name == c.name) = some pre.length := by
      rw [e, List.findIdx?_append]
      have : pre.findIdx? (·.name == c.name) = none := by
        rw [List.findIdx?_eq_none_iff]; exact hpre
      rw [this]
      simp [List.findIdx?_cons]
    have i2 : (pre ++ c :: cs ++ ds).find? (·.name == c.name) = some c := by
      rw [e, List.find?_append]
      have : pre.find? (·.name == c.name) = none := by
        rw [List.find?_eq_none]; exact fun d hd => by simp [hpre d hd]
      rw [this]
      simp
    have ih := checkKeyNames_prefix (cs := cs) (pre := pre ++ [c]) (ds := ds) (by simpa using hn) fun d hd => hc d (List.mem_cons_of_mem _ hd)
    have e' : pre ++ [c] ++ cs ++ ds = pre ++ c :: cs ++ ds := by simp
    rw [e', List.length_append, List.length_singleton] at ih
    simp only [i1, i2, ih, ne_eq, not_true_eq_false, if_false, List.append_nil, Except.ok.injEq]
    exact keyWarnings_nil.mpr (hc c (by simp))

theorem checkKeyFields_first {c : ColumnDecl} {cs : List ColumnDecl} : (checkKeyFields true false (c :: cs)).1 = [] ↔
    (isPrimaryKey c.constraint = true → isNullAllowed c.constraint = false) ∧ ∀ d ∈ cs, isPrimaryKey d.constraint = false := by
  simp only [checkKeyFields]
  cases h : isPrimaryKey c.constraint
  · simp [checkKeyFields_silent]
  · simp [checkKeyFields_silent, keyWarnings_nil]

theorem checkPrimaryKey_silent {T : TableDecl} (h : checkPrimaryKey T = .ok []) (hne : T.columns ≠ []) :
    OneKey T ∧ checkWithoutRowId T ((T.columns.filter fun c => isPrimaryKey c.constraint).map (·.name) ++ keyColumns T.constraint) = [] := by
  unfold checkPrimaryKey at h
  rcases h1 : checkKeyCount T (checkKeyFields true false T.columns).2.1 with e | ws
  · simp [h1] at h
  rcases h2 : checkKeyNames T.columns 0 (keyColumns T.constraint) with e | ws'
  · simp [h1, h2] at h
  simp only [h1, h2, Except.ok.injEq, List.append_eq_nil_iff] at h
  obtain ⟨⟨⟨g1, g2⟩, g3⟩, g4⟩ := h
  subst g2 g3
  rw [checkKeyFields_keys] at g4
  refine ⟨?_, g4⟩
  rcases hc : T.columns with _ | ⟨c, cs⟩
  · exact absurd hc hne
  rw [hc, checkKeyFields_first] at g1
  rw [checkKeyFields_found, Bool.false_or] at h1
  unfold checkKeyCount at h1
  cases hp : isPrimaryKey c.constraint
  · have hall : ∀ d ∈ T.columns, isPrimaryKey d.constraint = false := by
      intro d hd
      rw [hc, List.mem_cons] at hd
      rcases hd with rfl | hd
      · exact hp
      · exact g1.2 d hd
    have hany : (T.columns.any fun c => isPrimaryKey c.constraint) = false := by
      rw [List.any_eq_false]
      exact fun d hd => by simp [hall d hd]
    rw [hany] at h1
    simp only [Bool.false_eq_true, if_false] at h1
    have hk : keyColumns T.constraint ≠ [] := by
      intro hk
      rw [if_pos hk] at h1
      split at h1 <;> simp at h1
    have hs := checkKeyNames_silent h2
    have hlen : (keyColumns T.constraint).length ≤ T.columns.length := by
      by_contra hlt
      obtain ⟨c, hc, _⟩ := hs T.columns.length _ (List.getElem?_eq_getElem (by omega))
      simp at hc
    refine .inr ⟨T.columns.take (keyColumns T.constraint).length, T.columns.drop (keyColumns T.constraint).length, ?_, ?_, ?_, ?_, ?_⟩
    · rw [List.take_append_drop]
    · intro h
      have := congrArg List.length h
      simp only [List.length_take, List.length_nil] at this
      have := List.length_pos_iff.mpr hk
      omega
    · apply List.ext_getElem?
      intro k
      rw [List.getElem?_map, List.getElem?_take]
      by_cases hlt : k < (keyColumns T.constraint).length
      · rw [if_pos hlt]
        obtain ⟨c, hc, hn, _⟩ := hs k _ (List.getElem?_eq_getElem hlt)
        rw [Nat.zero_add] at hc
        rw [hc, List.getElem?_eq_getElem hlt, ← hn]
        rfl
      · rw [if_neg hlt, List.getElem?_eq_none (by omega)]
        rfl
    · intro d hd
      obtain ⟨k, hk1, hk2⟩ := List.getElem_of_mem hd
      have hlt : k < (keyColumns T.constraint).length := by
        simp only [List.length_take] at hk1
        omega
      obtain ⟨c, hc, _, hnull⟩ := hs k _ (List.getElem?_eq_getElem hlt)
      rw [Nat.zero_add] at hc
      have : (T.columns.take (keyColumns T.constraint).length)[k]? = some d := by rw [List.getElem?_eq_getElem hk1, hk2]
      rw [List.getElem?_take, if_pos hlt, hc] at this
      cases this
      exact hnull
    · exact hall
  · refine .inl ⟨c, cs, hc, hp, g1.1 hp, g1.2, ?_⟩
    have hany : (T.columns.any fun c => isPrimaryKey c.constraint) = true := by
      rw [hc]; simp [hp]
    rw [hany] at h1
    simp only [if_true, Except.ok.injEq] at h1
    by_contra hk
    rw [if_pos hk] at h1
    simp at h1

theorem checkPrimaryKey_oneKey {T : TableDecl} (hn : (T.columns.map (·.name)).Nodup) (h : OneKey T)
    (hp : checkWithoutRowId T ((T.columns.filter fun c => isPrimaryKey c.constraint).map (·.name) ++ keyColumns T.constraint) = []) :
    checkPrimaryKey T = .ok [] := by
  unfold checkPrimaryKey
  rw [← checkKeyFields_keys (first := true) (found := false)] at hp
  rcases h with ⟨c, cs, h1, h2, h3, h4, h5⟩ | ⟨cs, ds, h1, h2, h3, h4, h5⟩
  · have e1 : checkKeyCount T (checkKeyFields true false T.columns).2.1 = .ok [] := by
      rw [checkKeyFields_found]
      simp [h1, h2, checkKeyCount, h5]
    have e2 : checkKeyNames T.columns 0 (keyColumns T.constraint) = .ok [] := by rw [h5]; rfl
    have e3 : (checkKeyFields true false T.columns).1 = [] := by rw [h1]; exact checkKeyFields_first.mpr ⟨fun _ => h3, h4⟩
    simp only [e1, e2, e3, hp, List.append_nil]
  · have hany : (T.columns.any fun c => isPrimaryKey c.constraint) = false := by
      rw [List.any_eq_false]
      exact fun d hd => by simp [h5 d hd]
    have e1 : checkKeyCount T (checkKeyFields true false T.columns).2.1 = .ok [] := by
      rw [checkKeyFields_found, hany]
      have : keyColumns T.constraint ≠ [] := by rw [h3]; simpa using h2
      simp [checkKeyCount, this]
    have e2 : checkKeyNames T.columns 0 (keyColumns T.constraint) = .ok [] := by
      have := checkKeyNames_prefix (pre := []) (cs := cs) (ds := ds) (by simpa [← h1] using hn) h4
      simpa [← h1, h3] using this
    have e3 : (checkKeyFields true false T.columns).1 = [] := by
      rcases hc : T.columns with _ | ⟨c, cs⟩
      · rfl
      · exact checkKeyFields_first.mpr ⟨fun hk => by rw [h5 c (by simp [hc])] at hk; simp at hk, fun d hd => h5 d (by simp [hc, hd])⟩
    simp only [e1, e2, e3, hp, List.append_nil]

/-! ### Texts -/

theorem literal_spelled : ∀ {w s : PyStr} (r : PyStr), Spelled w s → literal w (s ++ r) = some r
  | [], [], r, _ => rfl
  | [], _ :: _, r, h => by simp [Spelled] at h
  | _ :: _, [], r, h => by simp [Spelled] at h
  | c :: w, d :: s, r, h => by
    simp only [Spelled, List.map_cons, List.cons.injEq] at h
    simp only [List.cons_append, literal]
    rw [if_pos h.1.symm]
    exact literal_spelled r h.2

theorem literal_none : ∀ {w s : PyStr}, ¬ w.map lower <+: s.map lower → literal w s = none
  | [], s, h => absurd List.nil_prefix h
  | _ :: _, [], _ => rfl
  | c :: w, d :: s, h => by
    simp only [literal]
    split
    · rename_i he
      refine literal_none fun hp => h ?_
      simp only [List.map_cons, he]
      exact List.cons_prefix_cons.mpr ⟨rfl, hp⟩
    · rfl

theorem find_skip {at_ : PyStr → Option PyStr} {rest : PyStr} : ∀ {pre : PyStr},
    (∀ a b, pre = a ++ b → b ≠ [] → at_ (b ++ rest) = none) → find at_ (pre ++ rest) = find at_ rest
  | [], _ => rfl
  | c :: pre, h => by
    rw [List.cons_append, find, show at_ (c :: (pre ++ rest)) = none from h [] (c :: pre) rfl (by simp)]
    exact find_skip fun a b hab hb => h (c :: a) b (by simp [hab]) hb

theorem find_here {at_ : PyStr → Option PyStr} {s g : PyStr} (h : at_ s = some g) : find at_ s = some g := by
  cases s with
  | nil => exact h
  | cons c s => simp only [find, h]

theorem dropWhile_blank {p : Nat → Bool} : ∀ {a r : PyStr}, (∀ c ∈ a, p c = true) → (∀ c, r.head? = some c → p c = false) → (a ++ r).dropWhile p = r
  | [], [], _, _ => rfl
  | [], c :: r, _, h => by simp [List.dropWhile, h c rfl]
  | c :: a, r, h, h' => by
    rw [List.cons_append, List.dropWhile_cons_of_pos (h c (by simp))]
    exact dropWhile_blank (fun d hd => h d (by simp [hd])) h'

theorem name_char {c : Nat} (h : Sql.isNameChar c = true) : isSpace c = false ∧ 32 < c ∧ c ≠ ch! ')' ∧ c ≠ ch! ',' := by
  simp only [Sql.isNameChar, Bool.or_eq_true, Bool.and_eq_true, decide_eq_true_eq, beq_iff_eq] at h
  simp only [isSpace, Bool.or_eq_false_iff, Bool.and_eq_false_iff, beq_eq_false_iff_ne, decide_eq_false_iff_not]
  omega

theorem isSpace_iff {c : Nat} : isSpace c = true ↔ c ∈ [9, 10, 11, 12, 13, 32] := by
  simp only [isSpace, Bool.or_eq_true, Bool.and_eq_true, decide_eq_true_eq, beq_iff_eq, List.mem_cons, List.not_mem_nil, or_false]
  omega

theorem Blank.space {s : PyStr} (h : Blank s) : ∀ c ∈ s, isSpace c = true := fun c hc => isSpace_iff.mpr (h c hc)

theorem blank_char {c : Nat} (h : c ∈ [9, 10, 11, 12, 13, 32]) : c ≤ 32 ∧ c ≠ ch! ')' ∧ c ≠ ch! ',' := by
  simp only [List.mem_cons, List.not_mem_nil, or_false] at h
  rcases h with rfl | rfl | rfl | rfl | rfl | rfl <;> decide

theorem name_head {n r : PyStr} (h : isName n = true) : ∃ c, (n ++ r).head? = some c ∧ Sql.isNameChar c = true := by
  cases n with
  | nil => simp [isName] at h
  | cons c n => exact ⟨c, rfl, Sql.isName_chars h c (by simp)⟩

theorem name_rev {n r : PyStr} (h : isName n = true) : ∃ c, ((r ++ n).reverse).head? = some c ∧ Sql.isNameChar c = true := by
  have hn : n ≠ [] := by rintro rfl; simp [isName] at h
  refine ⟨n.getLast hn, ?_, Sql.isName_chars h _ (List.getLast_mem hn)⟩
  rw [List.head?_reverse, List.getLast?_append, List.getLast?_eq_some_getLast hn]
  rfl

theorem strip_name {a n b : PyStr} (hn : isName n = true) (ha : Blank a) (hb : Blank b) : strip (a ++ n ++ b) = n := by
  unfold strip
  obtain ⟨c, hc, hc'⟩ := name_head (r := b) hn
  rw [List.append_assoc, dropWhile_blank ha.space (fun d hd => by rw [hc] at hd; cases hd; exact (name_char hc').1), List.reverse_append]
  obtain ⟨e, he, he'⟩ := name_rev (r := []) hn
  rw [dropWhile_blank (fun d hd => hb.space d (by simpa using hd)) (fun d hd => by
    rw [List.nil_append] at he; rw [he] at hd; cases hd; exact (name_char he').1), List.reverse_reverse]

theorem listing_chars {ns : List PyStr} {l : PyStr} (h : Listing ns l) : ch! ')' ∉ l := by
  induction h with
  | one hn ha hb =>
    simp only [List.mem_append, not_or]
    exact ⟨⟨fun h => (blank_char (ha _ h)).2.1 rfl, fun h => (name_char (Sql.isName_chars hn _ h)).2.2.1 rfl⟩, fun h => (blank_char (hb _ h)).2.1 rfl⟩
  | more hn ha hb _ ih =>
    simp only [List.mem_append, List.mem_cons, not_or]
    exact ⟨⟨⟨fun h => (blank_char (ha _ h)).2.1 rfl, fun h => (name_char (Sql.isName_chars hn _ h)).2.2.1 rfl⟩, fun h => (blank_char (hb _ h)).2.1 rfl⟩,
      by decide, ih⟩

theorem listing_ne {ns : List PyStr} {l : PyStr} (h : Listing ns l) : l ≠ [] ∧ ns ≠ [] ∧ ∀ n ∈ ns, isName n = true := by
  induction h with
  | one hn _ _ =>
    refine ⟨?_, by simp, by simpa using hn⟩
    intro h
    simp only [List.append_eq_nil_iff] at h
    rw [h.1.2] at hn
    simp [isName] at hn
  | more hn _ _ _ ih => exact ⟨by simp, by simp, by simpa using ⟨hn, ih.2.2⟩⟩

theorem piece_comma {a n b : PyStr} (hn : isName n = true) (ha : Blank a) (hb : Blank b) : ch! ',' ∉ a ++ n ++ b := by
  simp only [List.mem_append, not_or]
  exact ⟨⟨fun h => (blank_char (ha _ h)).2.2 rfl, fun h => (name_char (Sql.isName_chars hn _ h)).2.2.2 rfl⟩, fun h => (blank_char (hb _ h)).2.2 rfl⟩

theorem listing_split {ns : List PyStr} {l : PyStr} (h : Listing ns l) : (split (ch! ',') l).map strip = ns := by
  induction h with
  | one hn ha hb => rw [Sql.split_all (piece_comma hn ha hb), List.map_cons, List.map_nil, strip_name hn ha hb]
  | more hn ha hb _ ih => rw [Sql.split_append (piece_comma hn ha hb), List.map_cons, ih, strip_name hn ha hb]

/-- no space in front -/
theorem listing_front {ns : List PyStr} {l : PyStr} (h : Listing ns l) : Listing ns (l.dropWhile (· ≤ 32)) ∧
    ∃ c, (l.dropWhile (· ≤ 32)).head? = some c ∧ Sql.isNameChar c = true := by
  have key : ∀ {a n r : PyStr}, isName n = true → Blank a → (a ++ (n ++ r)).dropWhile (fun c => decide (c ≤ 32)) = n ++ r := by
    intro a n r hn ha
    obtain ⟨c, hc, hc'⟩ := name_head (r := r) hn
    exact dropWhile_blank (fun d hd => by simpa using (blank_char (ha d hd)).1) fun d hd => by
      rw [hc] at hd; cases hd; simpa using (name_char hc').2.1
  cases h with
  | @one n a b hn ha hb =>
    rw [show a ++ n ++ b = a ++ (n ++ b) by simp, key hn ha]
    exact ⟨by simpa using Listing.one (a := []) hn (by simp [Blank]) hb, name_head hn⟩
  | @more n ns a b s hn ha hb hl =>
    rw [show a ++ n ++ b ++ ch! ',' :: s = a ++ (n ++ (b ++ ch! ',' :: s)) by simp, key hn ha]
    exact ⟨by simpa using Listing.more (a := []) hn (by simp [Blank]) hb hl, name_head hn⟩

/-- no space at the end -/
theorem listing_back {ns : List PyStr} {l : PyStr} (h : Listing ns l) : ∃ l' e, l = l' ++ e ∧ Blank e ∧ Listing ns l' ∧
    (∃ c, l'.reverse.head? = some c ∧ Sql.isNameChar c = true) ∧ l'.head? = l.head? := by
  induction h with
  | @one n a b hn ha hb =>
    refine ⟨a ++ n, b, rfl, hb, by simpa using Listing.one (b := []) hn ha (by simp [Blank]), name_rev hn, ?_⟩
    obtain ⟨c, hc, _⟩ := name_head (r := []) hn
    cases a with
    | nil =>
      cases n with
      | nil => simp [isName] at hn
      | cons _ _ => rfl
    | cons _ _ => rfl
  | @more n ns a b s hn ha hb _ ih =>
    obtain ⟨l', e, h1, h2, h3, ⟨c, h4, h4'⟩, _⟩ := ih
    refine ⟨a ++ n ++ b ++ ch! ',' :: l', e, by simp [h1], h2, .more hn ha hb h3, ⟨c, ?_, h4'⟩, ?_⟩
    · rw [List.reverse_append, List.reverse_cons, List.head?_append, List.head?_append, h4]
      rfl
    · cases a with
      | nil =>
        cases n with
        | nil => simp [isName] at hn
        | cons _ _ => rfl
      | cons _ _ => rfl

theorem splitColumns_listing {ns : List PyStr} {l : PyStr} (h : Listing ns l) : splitColumns (trim l) = ns := by
  obtain ⟨h1, c, hc, hc'⟩ := listing_front h
  obtain ⟨l', e, e1, e2, e3, ⟨d, hd, hd'⟩, e4⟩ := listing_back h1
  have ht : trim l = l' := by
    unfold trim
    rw [e1, List.reverse_append, dropWhile_blank (fun x hx => by simpa using (blank_char (e2 x (by simpa using hx))).1) (fun x hx => by
      rw [hd] at hx; cases hx; simpa using (name_char hd').2.1), List.reverse_reverse]
  rw [ht]
  have hs := listing_split e3
  unfold splitColumns
  cases e3 with
  | @one n a b hn ha hb =>
    rw [Sql.split_all (piece_comma hn ha hb)] at hs ⊢
    simp only
    have ha' : a = [] := by
      cases a with
      | nil => rfl
      | cons x a =>
        rw [e1] at hc
        simp only [List.cons_append, List.head?_cons, Option.some.injEq] at hc
        subst hc
        exact absurd (ha.space x (by simp)) (by simp [(name_char hc').1])
    have hb' : b = [] := by
      cases hr : b.reverse with
      | nil => simpa using hr
      | cons x y =>
        rw [List.reverse_append, hr] at hd
        simp only [List.cons_append, List.head?_cons, Option.some.injEq] at hd
        subst hd
        have : x ∈ b := by rw [← List.mem_reverse, hr]; simp
        exact absurd (hb.space x this) (by simp [(name_char hd').1])
    simp [ha', hb']
  | @more n ns a b s hn ha hb hl =>
    have hne := listing_ne hl
    have e : split (ch! ',') (a ++ n ++ b ++ ch! ',' :: s) = (a ++ n ++ b) :: split (ch! ',') s := Sql.split_append (piece_comma hn ha hb) s
    have hsplit := listing_split hl
    rw [e] at hs ⊢
    rcases hp : split (ch! ',') s with _ | ⟨q, qs⟩
    · rw [hp] at hsplit
      exact absurd hsplit.symm hne.2.1
    · rw [hp] at hs
      simp only
      rw [hs]
      have hlast : ∀ x, ((n :: ns).reverse).head? = some x → x.isEmpty = false := by
        intro x hx
        have hm : x ∈ n :: ns := by
          rw [← List.mem_reverse]
          exact List.mem_of_mem_head? hx
        have hx' : isName x = true := by
          rw [List.mem_cons] at hm
          rcases hm with rfl | hm
          · exact hn
          · exact hne.2.2 x hm
        cases x with
        | nil => simp [isName] at hx'
        | cons _ _ => rfl
      have : (n :: ns).reverse.dropWhile (·.isEmpty) = (n :: ns).reverse := by
        rcases hr : (n :: ns).reverse with _ | ⟨x, xs⟩
        · rfl
        · rw [List.dropWhile_cons_of_neg (by simp [hlast x (by rw [hr]; rfl)])]
      rw [this, List.reverse_reverse]

theorem group_listing {ns : List PyStr} {b l post : PyStr} (hb : Blank b) (h : Listing ns l) :
    groupAt (b ++ (ch! '(' :: (l ++ ch! ')' :: post))) = some l := by
  unfold groupAt spaces
  rw [dropWhile_blank hb.space (by intro c hc; cases hc; decide)]
  have hc := listing_chars h
  have t1 : (l ++ ch! ')' :: post).takeWhile (· != ch! ')') = l := by
    rw [List.takeWhile_append_of_pos]
    · simp
    · intro x hx
      have : x ≠ ch! ')' := by rintro rfl; exact hc hx
      simpa using this
  have t2 : (l ++ ch! ')' :: post).dropWhile (· != ch! ')') = ch! ')' :: post := by
    rw [List.dropWhile_append_of_pos]
    · simp
    · intro x hx
      have : x ≠ ch! ')' := by rintro rfl; exact hc hx
      simpa using this
  simp only [t1, t2]
  rw [if_pos ⟨trivial, (listing_ne h).1, by simp⟩]

theorem spaces1_blank {a r : PyStr} (ha : Blank a) (hne : a ≠ []) (hr : ∀ c, r.head? = some c → isSpace c = false) : spaces1 (a ++ r) = some r := by
  cases a with
  | nil => exact absurd rfl hne
  | cons c a =>
    simp only [List.cons_append, spaces1]
    rw [if_pos (ha.space c (by simp))]
    unfold spaces
    rw [dropWhile_blank (fun d hd => ha.space d (by simp [hd])) hr]

theorem keyColumns_clause {ns : List PyStr} {pre clause post : PyStr} (h : KeyClause ns clause) (hp : NotIn (py! "PRIMARY") pre (clause ++ post)) :
    keyColumns (some (pre ++ clause ++ post)) = ns := by
  obtain ⟨w, a, w', b, l, rfl, h1, h2, h3, h4, h5, h6⟩ := h
  simp only [keyColumns, extractColumns]
  rw [List.append_assoc, find_skip (fun x y hxy hy => by simp only [primaryKeyAt, keyAt, literal_none (hp x y hxy hy), Option.bind_none])]
  have hk : primaryKeyAt ((w ++ a ++ w' ++ b ++ ch! '(' :: l ++ [ch! ')']) ++ post) = some l := by
    have e : (w ++ a ++ w' ++ b ++ ch! '(' :: l ++ [ch! ')']) ++ post = w ++ (a ++ (w' ++ (b ++ (ch! '(' :: (l ++ ch! ')' :: post))))) := by simp
    rw [e]
    simp only [primaryKeyAt, keyAt, literal_spelled _ h1, Option.bind_some]
    rw [spaces1_blank h2 h3]
    · simp only [Option.bind_some, literal_spelled _ h4, group_listing h5 h6]
    · intro c hc
      cases w' with
      | nil => simp [Spelled] at h4
      | cons d w' =>
        simp only [List.cons_append, List.head?_cons, Option.some.injEq] at hc
        subst hc
        simp only [Spelled, List.map_cons, List.cons.injEq] at h4
        have := h4.1
        simp only [lower] at this
        simp only [isSpace, Bool.or_eq_false_iff, Bool.and_eq_false_iff, beq_eq_false_iff_ne, decide_eq_false_iff_not]
        split at this <;> simp at this <;> omega
  rw [find_here hk]
  exact splitColumns_listing h6

theorem uniqueColumns_clause {ns : List PyStr} {pre clause post : PyStr} (h : UniqueClause ns clause) (hp : NotIn (py! "UNIQUE") pre (clause ++ post)) :
    uniqueColumns (some (pre ++ clause ++ post)) = ns := by
  obtain ⟨w, b, l, rfl, h1, h5, h6⟩ := h
  simp only [uniqueColumns, extractColumns]
  rw [List.append_assoc, find_skip (fun x y hxy hy => by simp only [uniqueAt, literal_none (hp x y hxy hy), Option.bind_none])]
  have hk : uniqueAt ((w ++ b ++ ch! '(' :: l ++ [ch! ')']) ++ post) = some l := by
    have e : (w ++ b ++ ch! '(' :: l ++ [ch! ')']) ++ post = w ++ (b ++ (ch! '(' :: (l ++ ch! ')' :: post))) := by simp
    rw [e]
    simp only [uniqueAt, literal_spelled _ h1, Option.bind_some, group_listing h5 h6]
  rw [find_here hk]
  exact splitColumns_listing h6

theorem literal_sound : ∀ {w s r : PyStr}, literal w s = some r → ∃ p, s = p ++ r ∧ Spelled w p
  | [], s, r, h => by simp only [literal, Option.some.injEq] at h; exact ⟨[], by simp [h], rfl⟩
  | _ :: _, [], r, h => by simp [literal] at h
  | c :: w, d :: s, r, h => by
    simp only [literal] at h
    split at h
    · rename_i hc
      obtain ⟨p, rfl, hp⟩ := literal_sound h
      refine ⟨d :: p, rfl, ?_⟩
      simp only [Spelled, List.map_cons] at hp ⊢
      rw [hp, hc]
    · simp at h

theorem spaces1_sound {s r : PyStr} (h : spaces1 s = some r) : ∃ b, s = b ++ r ∧ Blank b ∧ b ≠ [] := by
  cases s with
  | nil => simp [spaces1] at h
  | cons c s =>
    simp only [spaces1] at h
    split at h
    · rename_i hc
      simp only [Option.some.injEq, spaces] at h
      refine ⟨c :: s.takeWhile isSpace, ?_, ?_, by simp⟩
      · rw [← h, List.cons_append, List.takeWhile_append_dropWhile]
      · intro d hd
        rw [List.mem_cons] at hd
        rcases hd with rfl | hd
        · exact isSpace_iff.mp hc
        · have := List.all_takeWhile (p := isSpace) (l := s)
          rw [List.all_eq_true] at this
          exact isSpace_iff.mp (this d hd)
    · simp at h

theorem find_isSome {f : PyStr → Option PyStr} : ∀ {s : PyStr}, (find f s).isSome = true ↔ ∃ pre suf, s = pre ++ suf ∧ (f suf).isSome = true
  | [] => by
    simp only [find]
    constructor
    · intro h; exact ⟨[], [], rfl, h⟩
    · rintro ⟨pre, suf, e, h⟩
      have : suf = [] := by have := congrArg List.length e; simp at this; exact List.length_eq_zero_iff.mp (by omega)
      rwa [this] at h
  | c :: s => by
    simp only [find]
    rcases hf : f (c :: s) with _ | g
    · simp only
      rw [find_isSome]
      constructor
      · rintro ⟨pre, suf, rfl, h⟩; exact ⟨c :: pre, suf, rfl, h⟩
      · rintro ⟨pre, suf, e, h⟩
        cases pre with
        | nil => simp only [List.nil_append] at e; rw [← e, hf] at h; simp at h
        | cons d pre => simp only [List.cons_append, List.cons.injEq] at e; exact ⟨pre, suf, e.2, h⟩
    · simp only [Option.isSome_some, true_iff]
      exact ⟨[], c :: s, rfl, by rw [hf]; rfl⟩

theorem find_twoWords {w₁ w₂ s : PyStr} (hw : ∀ c, w₂.head? = some c → ∀ d, lower c = lower d → isSpace d = false) (hne : w₂ ≠ []) :
    (find (fun s => (literal w₁ s).bind fun s => (spaces1 s).bind fun s => literal w₂ s) s).isSome = true ↔ TwoWords w₁ w₂ s := by
  rw [find_isSome]
  constructor
  · rintro ⟨pre, suf, rfl, h⟩
    rw [Option.isSome_iff_exists] at h
    obtain ⟨r, h⟩ := h
    simp only [Option.bind_eq_some_iff] at h
    obtain ⟨r1, h1, r2, h2, h3⟩ := h
    obtain ⟨p, rfl, hp⟩ := literal_sound h1
    obtain ⟨b, rfl, hb, hb'⟩ := spaces1_sound h2
    obtain ⟨q, rfl, hq⟩ := literal_sound h3
    exact ⟨pre, p, b, q, r, by simp, hp, hb, hb', hq⟩
  · rintro ⟨pre, w, b, w', post, rfl, h1, h2, h3, h4⟩
    refine ⟨pre, w ++ (b ++ (w' ++ post)), by simp, ?_⟩
    rw [literal_spelled _ h1, Option.bind_some, spaces1_blank h2 h3, Option.bind_some, literal_spelled _ h4]
    · rfl
    · intro d hd
      cases w' with
      | nil =>
        simp only [Spelled, List.map_nil] at h4
        have := congrArg List.length h4
        simp only [List.length_nil, List.length_map] at this
        exact absurd (List.length_eq_zero_iff.mp this.symm) hne
      | cons e w' =>
        simp only [List.cons_append, List.head?_cons, Option.some.injEq] at hd
        subst hd
        cases w₂ with
        | nil => exact absurd rfl hne
        | cons c w₂ =>
          simp only [Spelled, List.map_cons, List.cons.injEq] at h4
          exact hw c rfl e h4.1.symm

theorem isPrimaryKey_iff {s : PyStr} : isPrimaryKey (some s) = true ↔ TwoWords (py! "PRIMARY") (py! "KEY") s := by
  simp only [isPrimaryKey]
  apply find_twoWords
  · intro c hc d hd
    cases hc
    simp only [lower] at hd
    simp only [isSpace, Bool.or_eq_false_iff, Bool.and_eq_false_iff, beq_eq_false_iff_ne, decide_eq_false_iff_not]
    split at hd <;> split at hd <;> (try simp at hd) <;> omega
  · decide

theorem isNullAllowed_iff {s : PyStr} : isNullAllowed (some s) = false ↔ TwoWords (py! "NOT") (py! "NULL") s := by
  rw [← find_twoWords]
  · simp only [isNullAllowed]
    rw [← Option.not_isSome]
    simp [notNullAt]
    rfl
  · intro c hc d hd
    cases hc
    simp only [lower] at hd
    simp only [isSpace, Bool.or_eq_false_iff, Bool.and_eq_false_iff, beq_eq_false_iff_ne, decide_eq_false_iff_not]
    split at hd <;> split at hd <;> (try simp at hd) <;> omega
  · decide

theorem keyColumns_none {s : PyStr} (h : NotIn (py! "PRIMARY") s []) : keyColumns (some s) = [] := by
  have hf : find primaryKeyAt s = none := by
    rcases hf : find primaryKeyAt s with _ | g
    · rfl
    · obtain ⟨pre, suf, rfl, hs⟩ := find_isSome.mp (by rw [hf]; rfl : (find primaryKeyAt s).isSome = true)
      cases suf with
      | nil => exact absurd hs (by decide)
      | cons c suf =>
        have := literal_none (h pre (c :: suf) rfl (by simp))
        rw [List.append_nil] at this
        simp [primaryKeyAt, keyAt, this] at hs
  simp only [keyColumns, extractColumns, hf]

end Zserio.SqlCheck
