import Verif.Spec.SqlDatabase
import Verif.Props.SqlTable
/- Lemmas about SQL databases. -/
set_option linter.unusedSimpArgs false
namespace Zserio.Sql

variable {E : Engine}

/-! ### Association lists -/

theorem lookup_mem {k v : PyStr} : ∀ {l : List (PyStr × PyStr)}, l.lookup k = some v → (k, v) ∈ l
  | [], h => by simp at h
  | (a, b) :: l, h => by
    by_cases hk : k = a
    · subst hk; simp [List.lookup] at h; simp [h]
    · rw [List.lookup, beq_false_of_ne hk] at h
      exact List.mem_cons_of_mem _ (lookup_mem h)

theorem mem_lookup {k v : PyStr} : ∀ {l : List (PyStr × PyStr)}, (l.map (·.1)).Nodup → (k, v) ∈ l → l.lookup k = some v
  | [], _, h => by simp at h
  | (a, b) :: l, hn, h => by
    rw [List.map_cons, List.nodup_cons] at hn
    rcases List.mem_cons.mp h with h | h
    · simp only [Prod.mk.injEq] at h; simp [h.1, h.2, List.lookup]
    · have : k ≠ a := fun he => hn.1 (List.mem_map.mpr ⟨_, h, he⟩)
      rw [List.lookup, beq_false_of_ne this]
      exact mem_lookup hn.2 h

theorem lookup_none {k : PyStr} {α : Type} : ∀ {l : List (PyStr × α)}, l.lookup k = none → k ∉ l.map (·.1)
  | [], _ => by simp
  | (a, b) :: l, h => by
    by_cases hk : k = a
    · subst hk; simp [List.lookup] at h
    · rw [List.lookup, beq_false_of_ne hk] at h
      simp only [List.map_cons, List.mem_cons, not_or]
      exact ⟨hk, lookup_none h⟩

theorem notMem_lookup {k : PyStr} {α : Type} : ∀ {l : List (PyStr × α)}, k ∉ l.map (·.1) → l.lookup k = none
  | [], _ => rfl
  | (a, b) :: l, h => by
    simp only [List.map_cons, List.mem_cons, not_or] at h
    rw [List.lookup, beq_false_of_ne h.1]
    exact notMem_lookup h.2

theorem lookup_map_snd (g : PyStr → PyStr) (k : PyStr) : ∀ l : List (PyStr × PyStr),
    (l.map fun p => (p.1, g p.2)).lookup k = (l.lookup k).map g
  | [] => rfl
  | (a, b) :: l => by
    by_cases hk : k = a
    · subst hk; simp [List.lookup]
    · simp only [List.map_cons, List.lookup, beq_false_of_ne hk]
      exact lookup_map_snd g k l

theorem lookup_snoc {k a b : PyStr} : ∀ {l : List (PyStr × PyStr)} {v : PyStr}, l.lookup k = some v → (l ++ [(a, b)]).lookup k = some v
  | [], _, h => by simp at h
  | (x, y) :: l, v, h => by
    by_cases hk : k = x
    · subst hk; simpa [List.lookup] using h
    · rw [List.lookup, beq_false_of_ne hk] at h
      rw [List.cons_append, List.lookup, beq_false_of_ne hk]
      exact lookup_snoc h

theorem lookup_snoc_new {k b : PyStr} : ∀ {l : List (PyStr × PyStr)}, l.lookup k = none → (l ++ [(k, b)]).lookup k = some b
  | [], _ => by simp [List.lookup]
  | (x, y) :: l, h => by
    by_cases hk : k = x
    · subst hk; simp [List.lookup] at h
    · rw [List.lookup, beq_false_of_ne hk] at h
      rw [List.cons_append, List.lookup, beq_false_of_ne hk]
      exact lookup_snoc_new h

/-! ### Attaching -/

/-- the name under which a file is attached -/
abbrev attachedName (D : DatabaseDef) (table : PyStr) : PyStr := D.name ++ py! "_" ++ table

theorem attachedName_isName {D : DatabaseDef} (hD : isName D.name = true) {t : PyStr} (ht : isName t = true) :
    isName (attachedName D t) = true := by
  simp only [isName, Bool.and_eq_true, List.all_append, attachedName] at *
  exact ⟨by simp, ⟨hD.2, by decide⟩, ht.2⟩

theorem attachedName_inj {D : DatabaseDef} {t t' : PyStr} (h : attachedName D t = attachedName D t') : t = t' := List.append_cancel_left h

theorem attachedName_main (D : DatabaseDef) (t : PyStr) : attachedName D t ≠ py! "main" := by
  intro h
  have : ch! '_' ∈ py! "main" := by rw [← h]; simp
  revert this
  decide

theorem parse_attachText {file name : PyStr} (hf : ch! '\'' ∉ file) (hn : isName name = true) :
    parse (py! "ATTACH DATABASE '" ++ file ++ py! "' AS " ++ name) = some (.attach file name) := by
  rw [List.append_assoc, List.append_assoc, parse_attach, parseAttach]
  have : upTo [ch! '\''] (file ++ (py! "' AS " ++ name)) = (file, py! "' AS " ++ name) :=
    upTo_append (fun c hc hm => by simp only [List.mem_singleton] at hm; exact hf (hm ▸ hc)) (by simp) _
  rw [this]
  simp only [after_append, Option.bind_eq_bind, Option.bind_some, hn, if_true]

theorem attach_ok {file name : PyStr} (hf : ch! '\'' ∉ file) (hn : isName name = true) {c : Connection} (hopen : c.isOpen = true)
    (hs : c.saved = none) (hnew : c.schemas.lookup name = none) :
    Database.attachDatabase E file name c =
      (.ok (), { c with schemas := c.schemas ++ [(name, file)], disk := c.committed :: c.disk }) := by
  unfold Database.attachDatabase
  rw [exec_eq, execute_eq hopen (parse_attachText hf hn) rfl]
  simp only [run, hs, Option.isSome_none, hnew, Bool.false_eq_true, or_self, if_false]
  simp [Except.map, Connection.committed, hs]

/-- the state of the loop over the relocation map -/
structure Attached (D : DatabaseDef) (filename : PyStr) (done : List PyStr) (fs : List (PyStr × PyStr)) (c : Connection) : Prop where
  isOpen : c.isOpen = true
  saved : c.saved = none
  schemas : c.schemas = (py! "main", filename) :: fs.map fun p => (p.2, p.1)
  names : ∀ p ∈ fs, ∃ t ∈ done, isName t = true ∧ p.2 = attachedName D t
  files : (fs.map (·.1)).Nodup
  distinct : (fs.map (·.2)).Nodup

theorem attachLoop_ok {D : DatabaseDef} (hD : isName D.name = true) {filename : PyStr} :
    ∀ (rest tables fs : List (PyStr × PyStr)) (done : List PyStr) (c : Connection), Attached D filename done fs c → Relocation rest →
      (∀ p ∈ rest, p.1 ∉ done) →
      ∃ fs' c', Database.attachLoop E D rest tables fs c = (.ok (tables ++ rest.map (fun p => (p.1, (fs'.lookup p.2).getD [])), fs'), c') ∧
        Attached D filename (done ++ rest.map (·.1)) fs' c' ∧ c'.files = c.files ∧ (∀ f n, fs.lookup f = some n → fs'.lookup f = some n) ∧
        (∀ p ∈ rest, (fs'.lookup p.2).isSome = true) ∧ ∀ f, f ∈ fs'.map (·.1) ↔ f ∈ fs.map (·.1) ∨ f ∈ rest.map (·.2)
  | [], tables, fs, done, c, hi, _, _ => ⟨fs, c, by simp [Database.attachLoop], by simpa using hi, rfl, fun _ _ h => h, by simp, by simp⟩
  | (t, f) :: rest, tables, fs, done, c, hi, hr, hd => by
    have hr' : Relocation rest := ⟨fun p hp => hr.tables p (by simp [hp]), fun p hp => hr.files p (by simp [hp]),
      (List.nodup_cons.mp hr.distinct).2⟩
    have htd : t ∉ done := hd (t, f) (by simp)
    have hd' : ∀ p ∈ rest, p.1 ∉ done ++ [t] := by
      intro p hp
      simp only [List.mem_append, List.mem_singleton, not_or]
      refine ⟨hd p (by simp [hp]), ?_⟩
      rintro rfl
      exact (List.nodup_cons.mp hr.distinct).1 (List.mem_map.mpr ⟨p, hp, rfl⟩)
    unfold Database.attachLoop
    cases hl : fs.lookup f with
    | some name =>
      simp only
      have hi' : Attached D filename (done ++ [t]) fs c :=
        ⟨hi.isOpen, hi.saved, hi.schemas, fun p hp => by
          obtain ⟨t', h1, h2⟩ := hi.names p hp
          exact ⟨t', by simp [h1], h2⟩, hi.files, hi.distinct⟩
      obtain ⟨fs', c', h1, h2, h3, h4, h5, h6⟩ := attachLoop_ok hD rest (tables ++ [(t, name)]) fs (done ++ [t]) c hi' hr' hd'
      refine ⟨fs', c', ?_, by simpa using h2, h3, h4, ?_, ?_⟩
      · rw [h1]; simp [h4 f name hl]
      · intro p hp
        rcases List.mem_cons.mp hp with rfl | hp
        · simp [h4 f name hl]
        · exact h5 p hp
      · intro g
        rw [h6 g]
        have := lookup_mem hl
        constructor
        · rintro (h | h)
          · exact .inl h
          · exact .inr (by simp [h])
        · rintro (h | h)
          · exact .inl h
          · rcases List.mem_cons.mp (by simpa using h : g ∈ f :: rest.map (·.2)) with rfl | h
            · exact .inl (List.mem_map.mpr ⟨_, this, rfl⟩)
            · exact .inr h
    | none =>
      simp only
      have hname := attachedName_isName hD (hr.tables (t, f) (by simp))
      have hfresh : attachedName D t ∉ fs.map (·.2) := by
        intro hm
        obtain ⟨p, hp, he⟩ := List.mem_map.mp hm
        obtain ⟨t', h1, _, h2⟩ := hi.names p hp
        rw [h2] at he
        exact htd (attachedName_inj he ▸ h1)
      have hnew : c.schemas.lookup (attachedName D t) = none := by
        rw [hi.schemas]
        apply notMem_lookup
        simp only [List.map_cons, List.map_map, List.mem_cons, not_or]
        exact ⟨attachedName_main D t, by simpa [Function.comp_def] using hfresh⟩
      rw [M.bind_ok (attach_ok (hr.files (t, f) (by simp)) hname hi.isOpen hi.saved hnew)]
      have hi' : Attached D filename (done ++ [t]) (fs ++ [(f, attachedName D t)])
          { c with schemas := c.schemas ++ [(attachedName D t, f)], disk := c.committed :: c.disk } := by
        refine ⟨hi.isOpen, hi.saved, by simp [hi.schemas], ?_, ?_, ?_⟩
        · intro p hp
          rcases List.mem_append.mp hp with hp | hp
          · obtain ⟨t', h1, h2⟩ := hi.names p hp
            exact ⟨t', by simp [h1], h2⟩
          · simp only [List.mem_singleton] at hp
            subst hp
            exact ⟨t, by simp, hr.tables (t, f) (by simp), rfl⟩
        · rw [List.map_append, List.nodup_append]
          refine ⟨hi.files, by simp, ?_⟩
          intro a ha b hb
          simp only [List.map_cons, List.map_nil, List.mem_singleton] at hb
          subst hb
          rintro rfl
          exact lookup_none hl ha
        · rw [List.map_append, List.nodup_append]
          refine ⟨hi.distinct, by simp, ?_⟩
          intro a ha b hb
          simp only [List.map_cons, List.map_nil, List.mem_singleton] at hb
          subst hb
          rintro rfl
          exact hfresh ha
      obtain ⟨fs', c', h1, h2, h3, h4, h5, h6⟩ := attachLoop_ok hD rest (tables ++ [(t, attachedName D t)]) _ (done ++ [t]) _ hi' hr' hd'
      have hlf := h4 f _ (lookup_snoc_new hl)
      refine ⟨fs', c', ?_, by simpa using h2, h3, fun g n hg => h4 g n (lookup_snoc hg), ?_, ?_⟩
      · rw [h1]; simp [hlf]
      · intro p hp
        rcases List.mem_cons.mp hp with rfl | hp
        · simp [hlf]
        · exact h5 p hp
      · intro g
        rw [h6 g]
        simp only [List.map_append, List.map_cons, List.map_nil, List.mem_append, List.mem_singleton, List.mem_cons]
        tauto

/-! ### Tables -/

/-- a table is found if it exists in its file -/
theorem table_of_target {c : Connection} {main : PyStr} {rest : List (PyStr × PyStr)} (hs : c.schemas = (py! "main", main) :: rest)
    {T : SqlTable} {file : PyStr} (ht : c.target (refOf T) = some file) {t : Table} (hf : c.files file T.tableName = some t) :
    c.table (refOf T) = some (file, t) := by
  have hf' : c.files file (refOf T).name = some t := hf
  unfold Connection.target at ht
  unfold Connection.table
  cases hd : (refOf T).db with
  | none =>
    rw [hd, Option.getD_none, hs, List.lookup, beq_self_eq_true] at ht
    cases ht
    simp only
    rw [hs, Connection.findTable, hf']
  | some db =>
    rw [hd, Option.getD_some] at ht
    simp only [ht, hf', Option.map_some]

theorem target_schemas {c c' : Connection} (h : c'.schemas = c.schemas) (r : TableRef) : c'.target r = c.target r := by
  simp [Connection.target, h]

theorem createLoop_ok {blacklist : List PyStr} {place : SqlTable → PyStr} : ∀ {Ts : List SqlTable} {c : Connection}, c.isOpen = true →
    Placed E c Ts place → (∀ T ∈ Ts, c.files (place T) T.tableName = none) →
    ∃ c', Database.createLoop E blacklist Ts c = (.ok (), c') ∧ c'.isOpen = true ∧ c'.schemas = c.schemas ∧ c'.saved = c.saved ∧
      (∀ T ∈ Ts, ∃ columns, CreatedWith E T columns ∧
        c'.files (place T) T.tableName = some ⟨columns, [], T.type.withoutRowId && decide (T.tableName ∉ blacklist)⟩) ∧
      ∀ f n, (∀ T ∈ Ts, ¬ (f = place T ∧ n = T.tableName)) → c'.files f n = c.files f n
  | [], c, hopen, _, _ => ⟨c, rfl, hopen, rfl, rfl, by simp, by simp⟩
  | T :: Ts, c, hopen, hp, hnew => by
    have hT : T ∈ T :: Ts := by simp
    have key : ∃ c1, Database.createOne E blacklist T c = (.ok (), c1) ∧ c1.isOpen = true ∧ c1.schemas = c.schemas ∧ c1.saved = c.saved ∧
        (∃ columns, CreatedWith E T columns ∧
          c1.files (place T) T.tableName = some ⟨columns, [], T.type.withoutRowId && decide (T.tableName ∉ blacklist)⟩) ∧
        ∀ f n, ¬ (f = place T ∧ n = T.tableName) → c1.files f n = c.files f n := by
      unfold Database.createOne
      obtain ⟨c1, columns, h1, h2, h3, h4, h5, h6, h7⟩ := C59_create (hp.named T hT) (hp.declared T hT) hopen (hp.target T hT) (hnew T hT)
        (hp.columns T hT)
      cases hw : T.type.withoutRowId with
      | false => exact ⟨c1, by simpa using h1, h5, h6, h7, ⟨columns, h2, by simpa [hw] using h3⟩, h4⟩
      | true =>
        by_cases hb : T.tableName ∈ blacklist
        · have hv : T.type.virtualUsing = none := by
            cases hv : T.type.virtualUsing with
            | none => rfl
            | some m => have := ((hp.declared T hT).virtualTable m hv).2.1; rw [hw] at this; cases this
          obtain ⟨c1, g1, g3, g4, g5, g6, g7⟩ := C59_create_ordinary (E := E) (hp.named T hT) (hp.declared T hT) hv hopen (hp.target T hT)
            (hnew T hT)
          refine ⟨c1, by simpa [hb] using g1, g5, g6, g7, ⟨declaredNames T, by simp [CreatedWith, hv], ?_⟩, g4⟩
          have : declaredNames T = T.type.columns.map (·.name) := by
            rw [declaredNames, List.filter_eq_self.mpr]
            intro x hx
            simp [(((hp.declared T hT).ordinary hv).1 x hx).1]
          simp [g3, hb, this]
        · exact ⟨c1, by simpa [hb] using h1, h5, h6, h7, ⟨columns, h2, by simpa [hw, hb] using h3⟩, h4⟩
    obtain ⟨c1, h1, h2, h3, h4, ⟨columns, h5, h6⟩, h7⟩ := key
    have hnd := hp.distinct
    rw [List.map_cons, List.nodup_cons] at hnd
    have hne : ∀ S ∈ Ts, S.tableName ≠ T.tableName := fun S hS he => hnd.1 (List.mem_map.mpr ⟨S, hS, he⟩)
    have hp1 : Placed E c1 Ts place := ⟨fun S hS => hp.named S (by simp [hS]), fun S hS => hp.declared S (by simp [hS]), hnd.2,
      fun S hS => by rw [target_schemas h3]; exact hp.target S (by simp [hS]), fun S hS => hp.columns S (by simp [hS])⟩
    have hnew1 : ∀ S ∈ Ts, c1.files (place S) S.tableName = none := by
      intro S hS
      rw [h7 _ _ (fun h => hne S hS h.2)]
      exact hnew S (by simp [hS])
    obtain ⟨c2, g1, g2, g3, g4, g5, g6⟩ := createLoop_ok (blacklist := blacklist) h2 hp1 hnew1
    refine ⟨c2, ?_, g2, g3.trans h3, g4.trans h4, ?_, ?_⟩
    · unfold Database.createLoop
      rw [M.bind_ok h1]
      exact g1
    · intro S hS
      rcases List.mem_cons.mp hS with rfl | hS
      · refine ⟨columns, h5, ?_⟩
        rw [g6 _ _ fun S' hS' h => hne S' hS' h.2.symm]
        exact h6
      · exact g5 S hS
    · intro f n h
      rw [g6 f n fun S hS => h S (by simp [hS]), h7 f n (h T hT)]

theorem deleteLoop_ok {place : SqlTable → PyStr} : ∀ {Ts : List SqlTable} {c : Connection}, c.isOpen = true → (∀ T ∈ Ts, Named T) →
    (Ts.map (·.tableName)).Nodup → (∃ main rest, c.schemas = (py! "main", main) :: rest) → (∀ T ∈ Ts, c.target (refOf T) = some (place T)) →
    (∀ T ∈ Ts, c.files (place T) T.tableName ≠ none) →
    ∃ c', Database.deleteLoop E Ts c = (.ok (), c') ∧ c'.isOpen = true ∧ c'.schemas = c.schemas ∧ c'.saved = c.saved ∧
      (∀ T ∈ Ts, c'.files (place T) T.tableName = none) ∧
      ∀ f n, (∀ T ∈ Ts, ¬ (f = place T ∧ n = T.tableName)) → c'.files f n = c.files f n
  | [], c, hopen, _, _, _, _, _ => ⟨c, rfl, hopen, rfl, rfl, by simp, by simp⟩
  | T :: Ts, c, hopen, hn, hnd, ⟨main, rest, hs⟩, ht, hex => by
    have hT : T ∈ T :: Ts := by simp
    rw [List.map_cons, List.nodup_cons] at hnd
    have hne : ∀ S ∈ Ts, S.tableName ≠ T.tableName := fun S hS he => hnd.1 (List.mem_map.mpr ⟨S, hS, he⟩)
    obtain ⟨t, hft⟩ := Option.ne_none_iff_exists'.mp (hex T hT)
    have htab := table_of_target hs (ht T hT) hft
    have hp : parse (py! "DROP TABLE " ++ T.nameInQuery) = some (.drop (refOf T)) := by
      rw [parse_drop, parseTable_name (hn T hT)]; rfl
    have h1 : ∃ c1, T.deleteTable E c = (.ok (), c1) ∧ c1.isOpen = true ∧ c1.schemas = c.schemas ∧ c1.saved = c.saved ∧
        c1.files = Connection.setTable c.files (place T) T.tableName none := by
      unfold SqlTable.deleteTable
      rw [exec_eq, execute_eq hopen hp rfl]
      simp only [run, htab]
      exact ⟨_, rfl, hopen, rfl, rfl, rfl⟩
    obtain ⟨c1, h1, h2, h3, h4, h5⟩ := h1
    have h7 : ∀ f n, ¬ (f = place T ∧ n = T.tableName) → c1.files f n = c.files f n := fun f n h => by rw [h5]; exact if_neg h
    obtain ⟨c2, g1, g2, g3, g4, g5, g6⟩ := deleteLoop_ok (place := place) h2 (fun S hS => hn S (by simp [hS])) hnd.2
      ⟨main, rest, h3.trans hs⟩ (fun S hS => by rw [target_schemas h3]; exact ht S (by simp [hS]))
      (fun S hS => by rw [h7 _ _ (fun h => hne S hS h.2)]; exact hex S (by simp [hS]))
    refine ⟨c2, ?_, g2, g3.trans h3, g4.trans h4, ?_, ?_⟩
    · unfold Database.deleteLoop
      rw [M.bind_ok h1]
      exact g1
    · intro S hS
      rcases List.mem_cons.mp hS with rfl | hS
      · rw [g6 _ _ fun S' hS' h => hne S' hS' h.2.symm, h5]
        simp [Connection.setTable]
      · exact g5 S hS
    · intro f n h
      rw [g6 f n fun S hS => h S (by simp [hS]), h7 f n (h T hT)]

/-! ### Transactions -/

/-- what `write`, `create_schema` and `delete_schema` do around their loops -/
def inTransaction (E : Engine) (body : M Connection Unit) : M Connection Unit := do
  let hasAutocommit ← getAutocommit
  if hasAutocommit then SqlTable.exec E (py! "BEGIN") []
  body
  if hasAutocommit then SqlTable.exec E (py! "COMMIT") []

theorem createSchema_eq {d : Database} (hd : d.connected = true) (blacklist : List PyStr) :
    Database.createSchema E d blacklist = inTransaction E (Database.createLoop E blacklist d.tables) := by
  unfold Database.createSchema inTransaction
  simp [hd]

theorem deleteSchema_eq {d : Database} (hd : d.connected = true) :
    Database.deleteSchema E d = inTransaction E (Database.deleteLoop E d.tables) := by
  unfold Database.deleteSchema inTransaction
  simp [hd]

theorem inTransaction_nested {body : M Connection Unit} {c : Connection} (hopen : c.isOpen = true) (hs : c.saved.isSome = true) :
    inTransaction E body c = body c := by
  unfold inTransaction
  rw [M.bind_ok (s' := c) (a := false) (by simp [getAutocommit, hopen, Option.isNone_eq_false_iff.mpr hs])]
  simp only [Bool.false_eq_true, if_false]
  rw [M.bind_apply]
  rcases body c with ⟨_ | _, _⟩ <;> rfl

theorem inTransaction_auto {body : M Connection Unit} {c : Connection} (hopen : c.isOpen = true) (hs : c.saved = none)
    (hb : Within c.files { c with saved := some c.files, disk := c.files :: c.disk } (body { c with saved := some c.files, disk := c.files :: c.disk }).2) :
    inTransaction E body c = match body { c with saved := some c.files, disk := c.files :: c.disk } with
      | (.error e, c1) => (.error e, c1)
      | (.ok (), c1) => (.ok (), { c1 with saved := none, disk := c1.files :: c1.disk }) := by
  unfold inTransaction
  rw [M.bind_ok (s' := c) (a := true) (by simp [getAutocommit, hopen, hs])]
  simp only [if_true]
  rw [M.bind_ok (begin_eq hopen hs), M.bind_apply]
  rcases hl : body { c with saved := some c.files, disk := c.files :: c.disk } with ⟨e | _, c1⟩
  · rfl
  · rw [hl] at hb
    have hsv := hb.saved
    have ho := hb.isOpen
    simp only at hsv ho
    exact commit_eq (ho.trans hopen) (by rw [hsv]; rfl)

/-- a transaction is atomic -/
theorem inTransaction_atomic {body : M Connection Unit} {c : Connection} (hopen : c.isOpen = true) (hs : c.saved = none)
    (hb : ∀ c1 : Connection, c1.saved = some c.files → Within c.files c1 (body c1).2) :
    ((inTransaction E body c).1 = .ok () → ∃ k, (inTransaction E body c).2.saved = none ∧
        (inTransaction E body c).2.disk = (inTransaction E body c).2.files :: (List.replicate k c.files ++ c.disk)) ∧
      (∀ e, (inTransaction E body c).1 = .error e → ∃ k, (inTransaction E body c).2.saved = some c.files ∧
        (inTransaction E body c).2.disk = List.replicate k c.files ++ c.disk) := by
  have hw := hb { c with saved := some c.files, disk := c.files :: c.disk } rfl
  rw [inTransaction_auto hopen hs hw]
  rcases hl : body { c with saved := some c.files, disk := c.files :: c.disk } with ⟨e | _, c1⟩
  · rw [hl] at hw
    obtain ⟨k, hk⟩ := hw.disk
    refine ⟨fun h => by simp at h, fun e' _ => ⟨k + 1, hw.saved, ?_⟩⟩
    simp only at hk ⊢
    rw [hk, List.replicate_succ']
    simp
  · rw [hl] at hw
    obtain ⟨k, hk⟩ := hw.disk
    refine ⟨fun _ => ⟨k + 1, rfl, ?_⟩, fun e h => by simp at h⟩
    simp only at hk ⊢
    rw [hk, List.replicate_succ']
    simp

theorem createLoop_within {blacklist : List PyStr} {f : Files} : ∀ (Ts : List SqlTable) {c : Connection}, c.saved = some f →
    Within f c (Database.createLoop E blacklist Ts c).2
  | [], c, hs => .refl hs
  | T :: Ts, c, hs => by
    have hc : Within f c (Database.createOne E blacklist T c).2 := by
      unfold Database.createOne
      have h1 : Within f c (T.createTable E c).2 := exec_within (fun st => createText_onTables T _) _ hs
      have h2 : Within f c (T.createOrdinaryRowidTable E c).2 := exec_within (fun st h => createText_onTables T [] (by simpa using h)) _ hs
      split
      · split <;> assumption
      · exact h1
    unfold Database.createLoop
    rw [M.bind_apply]
    rcases hr : Database.createOne E blacklist T c with ⟨e | _, c1⟩
    · rw [hr] at hc; exact hc
    · rw [hr] at hc; exact hc.trans (createLoop_within Ts hc.saved)

theorem deleteLoop_within {f : Files} : ∀ (Ts : List SqlTable) {c : Connection}, c.saved = some f →
    Within f c (Database.deleteLoop E Ts c).2
  | [], c, hs => .refl hs
  | T :: Ts, c, hs => by
    have hc : Within f c (T.deleteTable E c).2 := exec_within (fun st => dropText_onTables _) _ hs
    unfold Database.deleteLoop
    rw [M.bind_apply]
    rcases hr : T.deleteTable E c with ⟨e | _, c1⟩
    · rw [hr] at hc; exact hc
    · rw [hr] at hc; exact hc.trans (deleteLoop_within Ts hc.saved)

end Zserio.Sql
