import Verif.Lemmas.SqlDatabase
/-
C64: the tables of a database and their files. C65: creating and deleting the schema of a database. C66: closing a database.
-/
set_option linter.unusedSimpArgs false
namespace Zserio.Sql

variable {E : Engine}

theorem fromFile_ok {D : DatabaseDef} (hD : isName D.name = true) {relocation : List (PyStr × PyStr)} (hr : Relocation relocation)
    (files : Files) (filename : PyStr) : ∃ fs c, Database.fromFile E D files filename relocation =
      (.ok ⟨Database.initTables D (relocation.map fun p => (p.1, (fs.lookup p.2).getD [])), fs.map (·.2), false, true⟩, c) ∧
      Attached D filename (relocation.map (·.1)) fs c ∧ c.files = files ∧ (∀ p ∈ relocation, (fs.lookup p.2).isSome = true) ∧
      ∀ f, f ∈ fs.map (·.1) ↔ f ∈ relocation.map (·.2) := by
  obtain ⟨fs, c, h1, h2, h3, _, h5, h6⟩ := attachLoop_ok (E := E) hD (filename := filename) relocation [] [] []
    (Database.openFile files filename) ⟨rfl, rfl, rfl, by simp, by simp, by simp⟩ hr (by simp)
  refine ⟨fs, c, ?_, by simpa using h2, h3, h5, fun f => by simpa using h6 f⟩
  unfold Database.fromFile
  rw [h1]
  simp [Database.init]

/-! ### C64 -/

/-- the file of a table of an object which has been opened -/
theorem target_of_attached {D : DatabaseDef} {filename : PyStr} {done : List PyStr} {fs : List (PyStr × PyStr)} {c : Connection}
    (hD : isName D.name = true) (ha : Attached D filename done fs c) {relocation : List (PyStr × PyStr)}
    (hs : ∀ p ∈ relocation, (fs.lookup p.2).isSome = true) (name : PyStr) (type : TableDef) :
    let T : SqlTable := ⟨type, name, (relocation.map fun p => (p.1, (fs.lookup p.2).getD [])).lookup name⟩
    c.target (refOf T) = some (fileOf filename relocation name) ∧ ∀ db, T.attachedDbName = some db → isName db = true := by
  have hl := lookup_map_snd (fun f => (fs.lookup f).getD []) name relocation
  intro T
  have hT : T.attachedDbName = (relocation.lookup name).map fun f => (fs.lookup f).getD [] := hl
  cases hrl : relocation.lookup name with
  | none =>
    rw [hrl] at hT
    refine ⟨?_, by simp [hT]⟩
    have : (refOf T).db = none := by simp [refOf, hT]
    simp [Connection.target, this, fileOf, hrl, ha.schemas, List.lookup]
  | some f =>
    obtain ⟨n, hn⟩ := Option.isSome_iff_exists.mp (hs (name, f) (lookup_mem hrl))
    simp only at hn
    rw [hrl] at hT
    simp only [Option.map_some, hn, Option.getD_some] at hT
    obtain ⟨t, _, ht, hnt⟩ := ha.names _ (lookup_mem hn)
    simp only at hnt
    have hname : isName n = true := by rw [hnt]; exact attachedName_isName hD ht
    refine ⟨?_, by intro db h; rw [hT] at h; cases h; exact hname⟩
    have hne : n ≠ [] := by rintro rfl; simp [isName] at hname
    have : (refOf T).db = some n := by
      simp only [refOf, hT]
    simp only [Connection.target, this, Option.getD_some, fileOf, hrl, ha.schemas]
    rw [List.lookup, beq_false_of_ne (by rw [hnt]; exact attachedName_main D t)]
    apply mem_lookup
    · simpa [Function.comp_def] using ha.distinct
    · exact List.mem_map.mpr ⟨(f, n), lookup_mem hn, rfl⟩

/-- **C64**: `from_file` succeeds for every relocation map. Each table of the database is mapped to the file of the relocation map, or
to the file of the database if it is not there, every file of the map is attached once, and nothing is changed in any file. -/
theorem C64_from_file {D : DatabaseDef} (hD : D.Sound) {relocation : List (PyStr × PyStr)} (hr : Relocation relocation) (files : Files)
    (filename : PyStr) : ∃ d c, Database.fromFile E D files filename relocation = (.ok d, c) ∧ c.isOpen = true ∧ c.saved = none ∧
      c.files = files ∧ d.tables.map (fun T => (T.tableName, T.type)) = D.fields ∧
      (∀ T ∈ d.tables, Named T ∧ c.target (refOf T) = some (fileOf filename relocation T.tableName)) ∧
      ∃ attached, c.schemas.map (·.2) = filename :: attached ∧ attached.Nodup ∧ ∀ f, f ∈ attached ↔ f ∈ relocation.map (·.2) := by
  obtain ⟨fs, c, h1, h2, h3, h4, h5⟩ := fromFile_ok (E := E) hD.name hr files filename
  refine ⟨_, c, h1, h2.isOpen, h2.saved, h3, ?_, ?_, fs.map (·.1), ?_, h2.files, h5⟩
  · simp [Database.initTables, Function.comp_def]
  · intro T hT
    obtain ⟨⟨name, type⟩, hm, rfl⟩ := List.mem_map.mp hT
    obtain ⟨g1, g2⟩ := target_of_attached hD.name h2 h4 name type
    have hn := hD.tables _ hm
    exact ⟨⟨hn.table, fun db h => .inr (g2 db h), hn.columns, hn.nonempty, hn.distinct⟩, g1⟩
  · simp [h2.schemas, Function.comp_def]

/-- **C64** (partial: the table exists in its file): whatever is done with a table of the object afterwards (C59 to C62) is done with the
table in its file. Missing: a table which is not relocated and does not exist in the file of the database, see `C64_shadow`. -/
theorem C64_table_partial {D : DatabaseDef} (hD : D.Sound) {relocation : List (PyStr × PyStr)} (hr : Relocation relocation) {files : Files}
    {filename : PyStr} {d : Database} {c0 c : Connection} (h : Database.fromFile E D files filename relocation = (.ok d, c0))
    (hopen : c.isOpen = true) (hs : c.schemas = c0.schemas) {T : SqlTable} (hT : T ∈ d.tables) {t : Table}
    (ht : c.files (fileOf filename relocation T.tableName) T.tableName = some t) (hcol : ∀ x ∈ T.type.columns, x.name ∈ t.columns)
    (hrow : ∀ row ∈ t.rows, row.length = t.columns.length) : Holds c T (fileOf filename relocation T.tableName) t := by
  obtain ⟨fs, c1, h1, h2, _, h4, _⟩ := fromFile_ok (E := E) hD.name hr files filename
  rw [h1] at h
  cases h
  obtain ⟨⟨name, type⟩, hm, rfl⟩ := List.mem_map.mp hT
  obtain ⟨g1, _⟩ := target_of_attached hD.name h2 h4 name type
  exact ⟨hopen, table_of_target (hs.trans h2.schemas) (by rw [target_schemas hs]; exact g1) ht, hcol, hrow⟩

/-! ### C65 -/

/-- **C65**: `create_schema` creates all tables of the database, each in its file, empty, with its columns, and WITHOUT ROWID exactly if
its type says so and it is not on the black list. Nothing else changes in any file, and all tables can be used. -/
theorem C65_create {d : Database} (hd : d.connected = true) {c : Connection} (hopen : c.isOpen = true) {main : PyStr}
    {others : List (PyStr × PyStr)} (hs : c.schemas = (py! "main", main) :: others) {place : SqlTable → PyStr} (hp : Placed E c d.tables place)
    (hnew : ∀ T ∈ d.tables, c.files (place T) T.tableName = none) (blacklist : List PyStr) :
    ∃ c', Database.createSchema E d blacklist c = (.ok (), c') ∧ c'.isOpen = true ∧ c'.schemas = c.schemas ∧ c'.saved = c.saved ∧
      (∀ T ∈ d.tables, ∃ columns, CreatedWith E T columns ∧
        c'.files (place T) T.tableName = some ⟨columns, [], T.type.withoutRowId && decide (T.tableName ∉ blacklist)⟩ ∧
        ((∀ x ∈ T.type.columns, x.name ∈ columns) →
          Holds c' T (place T) ⟨columns, [], T.type.withoutRowId && decide (T.tableName ∉ blacklist)⟩)) ∧
      ∀ f n, (∀ T ∈ d.tables, ¬ (f = place T ∧ n = T.tableName)) → c'.files f n = c.files f n := by
  have key : ∀ c1 : Connection, c1.isOpen = true → c1.schemas = c.schemas →
      (∀ T ∈ d.tables, ∃ columns, CreatedWith E T columns ∧
        c1.files (place T) T.tableName = some ⟨columns, [], T.type.withoutRowId && decide (T.tableName ∉ blacklist)⟩) →
      ∀ T ∈ d.tables, ∃ columns, CreatedWith E T columns ∧
        c1.files (place T) T.tableName = some ⟨columns, [], T.type.withoutRowId && decide (T.tableName ∉ blacklist)⟩ ∧
        ((∀ x ∈ T.type.columns, x.name ∈ columns) →
          Holds c1 T (place T) ⟨columns, [], T.type.withoutRowId && decide (T.tableName ∉ blacklist)⟩) := by
    intro c1 ho hs1 h T hT
    obtain ⟨columns, h1, h2⟩ := h T hT
    refine ⟨columns, h1, h2, fun hx => C59_usable ho ?_ hx⟩
    exact table_of_target (hs1.trans hs) (by rw [target_schemas hs1]; exact hp.target T hT) h2
  rw [createSchema_eq hd]
  cases hsv : c.saved with
  | some f =>
    rw [inTransaction_nested hopen (by simp [hsv])]
    obtain ⟨c', h1, h2, h3, h4, h5, h6⟩ := createLoop_ok (blacklist := blacklist) hopen hp hnew
    exact ⟨c', h1, h2, h3, by rw [h4, hsv], key c' h2 h3 h5, h6⟩
  | none =>
    rw [inTransaction_auto hopen hsv (createLoop_within _ rfl)]
    have hp' : Placed E { c with saved := some c.files, disk := c.files :: c.disk } d.tables place :=
      ⟨hp.named, hp.declared, hp.distinct, hp.target, hp.columns⟩
    obtain ⟨c', h1, h2, h3, h4, h5, h6⟩ := createLoop_ok (blacklist := blacklist)
      (c := { c with saved := some c.files, disk := c.files :: c.disk }) hopen hp' hnew
    rw [h1]
    exact ⟨{ c' with saved := none, disk := c'.files :: c'.disk }, rfl, h2, h3, rfl,
      key { c' with saved := none, disk := c'.files :: c'.disk } h2 h3 h5, h6⟩

/-- **C65**: `delete_schema` removes all tables of the database from their files and nothing else. -/
theorem C65_delete {d : Database} (hd : d.connected = true) {c : Connection} (hopen : c.isOpen = true) {main : PyStr}
    {others : List (PyStr × PyStr)} (hs : c.schemas = (py! "main", main) :: others) {place : SqlTable → PyStr} (hp : Placed E c d.tables place)
    (hex : ∀ T ∈ d.tables, c.files (place T) T.tableName ≠ none) :
    ∃ c', Database.deleteSchema E d c = (.ok (), c') ∧ c'.isOpen = true ∧ c'.schemas = c.schemas ∧ c'.saved = c.saved ∧
      (∀ T ∈ d.tables, c'.files (place T) T.tableName = none) ∧
      ∀ f n, (∀ T ∈ d.tables, ¬ (f = place T ∧ n = T.tableName)) → c'.files f n = c.files f n := by
  rw [deleteSchema_eq hd]
  cases hsv : c.saved with
  | some f =>
    rw [inTransaction_nested hopen (by simp [hsv])]
    obtain ⟨c', h1, h2, h3, h4, h5⟩ := deleteLoop_ok (E := E) hopen hp.named hp.distinct ⟨main, others, hs⟩ hp.target hex
    exact ⟨c', h1, h2, h3, by rw [h4, hsv], h5⟩
  | none =>
    rw [inTransaction_auto hopen hsv (deleteLoop_within _ rfl)]
    obtain ⟨c', h1, h2, h3, h4, h5⟩ := deleteLoop_ok (E := E) (c := { c with saved := some c.files, disk := c.files :: c.disk }) hopen hp.named
      hp.distinct ⟨main, others, hs⟩ hp.target hex
    rw [h1]
    exact ⟨{ c' with saved := none, disk := c'.files :: c'.disk }, rfl, h2, h3, rfl, h5⟩

/-- **C65**: `delete_schema` after `create_schema` leaves all files as they were. -/
theorem C65_create_delete {d : Database} (hd : d.connected = true) {c : Connection} (hopen : c.isOpen = true) {main : PyStr}
    {others : List (PyStr × PyStr)} (hs : c.schemas = (py! "main", main) :: others) {place : SqlTable → PyStr} (hp : Placed E c d.tables place)
    (hnew : ∀ T ∈ d.tables, c.files (place T) T.tableName = none) (blacklist : List PyStr) :
    ∃ c1 c2, Database.createSchema E d blacklist c = (.ok (), c1) ∧ Database.deleteSchema E d c1 = (.ok (), c2) ∧ c2.files = c.files := by
  obtain ⟨c1, h1, h2, h3, _, h5, h6⟩ := C65_create hd hopen hs hp hnew blacklist
  have hp1 : Placed E c1 d.tables place :=
    ⟨hp.named, hp.declared, hp.distinct, fun T hT => by rw [target_schemas h3]; exact hp.target T hT, hp.columns⟩
  obtain ⟨c2, g1, _, _, _, g5, g6⟩ := C65_delete hd h2 (h3.trans hs) hp1 (by
    intro T hT
    obtain ⟨columns, _, e, _⟩ := h5 T hT
    rw [e]
    simp)
  refine ⟨c1, c2, h1, g1, ?_⟩
  funext f n
  by_cases h : ∀ T ∈ d.tables, ¬ (f = place T ∧ n = T.tableName)
  · rw [g6 f n h, h6 f n h]
  · simp only [not_forall, not_not] at h
    obtain ⟨T, hT, rfl, rfl⟩ := h
    rw [g5 T hT, hnew T hT]

/-- **C65**: outside of a transaction `create_schema` and `delete_schema` are atomic: a crash at any moment before they return leaves the
files as they were before the call. If they raise, they leave a transaction open and the files as they were. -/
theorem C65_atomic (E : Engine) {d : Database} (hd : d.connected = true) (blacklist : List PyStr) {c : Connection} (hopen : c.isOpen = true)
    (hauto : c.saved = none) (f : M Connection Unit) (hf : f = Database.createSchema E d blacklist ∨ f = Database.deleteSchema E d) :
    ((f c).1 = .ok () → ∃ k, (f c).2.saved = none ∧ (f c).2.disk = (f c).2.files :: (List.replicate k c.files ++ c.disk)) ∧
      (∀ e, (f c).1 = .error e → ∃ k, (f c).2.saved = some c.files ∧ (f c).2.disk = List.replicate k c.files ++ c.disk) := by
  rcases hf with rfl | rfl
  · rw [createSchema_eq hd]
    exact inTransaction_atomic hopen hauto fun c1 h => createLoop_within _ h
  · rw [deleteSchema_eq hd]
    exact inTransaction_atomic hopen hauto fun c1 h => deleteLoop_within _ h

/-- **C65**: within a transaction they commit nothing. -/
theorem C65_nested (E : Engine) {d : Database} (hd : d.connected = true) (blacklist : List PyStr) {c : Connection} (hopen : c.isOpen = true)
    {files : Files} (hs : c.saved = some files) (f : M Connection Unit)
    (hf : f = Database.createSchema E d blacklist ∨ f = Database.deleteSchema E d) :
    (f c).2.saved = some files ∧ ∃ k, (f c).2.disk = List.replicate k files ++ c.disk := by
  rcases hf with rfl | rfl
  · rw [createSchema_eq hd, inTransaction_nested hopen (by simp [hs])]
    have := createLoop_within (E := E) (blacklist := blacklist) d.tables hs
    exact ⟨this.saved, this.disk⟩
  · rw [deleteSchema_eq hd, inTransaction_nested hopen (by simp [hs])]
    have := deleteLoop_within (E := E) d.tables hs
    exact ⟨this.saved, this.disk⟩

/-! ### C66 -/

/-- detaching does not change what is in the files -/
theorem detach_keeps (name : PyStr) (c : Connection) : (SqlTable.exec E (py! "DETACH DATABASE " ++ name) [] c).2.files = c.files ∧
    (SqlTable.exec E (py! "DETACH DATABASE " ++ name) [] c).2.saved = c.saved ∧
    ∃ k, (SqlTable.exec E (py! "DETACH DATABASE " ++ name) [] c).2.disk = List.replicate k c.committed ++ c.disk := by
  rw [exec_eq]
  simp only
  unfold execute
  split
  · exact ⟨rfl, rfl, 0, rfl⟩
  · rw [parse_detach]
    cases hn : isName name with
    | true =>
      simp only [if_true, bindAll, run]
      split <;> exact ⟨rfl, rfl, 1, rfl⟩
    | false => exact ⟨rfl, rfl, 0, rfl⟩

theorem detachDatabases_keeps : ∀ (names : List PyStr) (c : Connection), (Database.detachDatabases E names c).2.files = c.files ∧
    (Database.detachDatabases E names c).2.saved = c.saved ∧
    ∃ k, (Database.detachDatabases E names c).2.disk = List.replicate k c.committed ++ c.disk
  | [], c => ⟨rfl, rfl, 0, rfl⟩
  | name :: names, c => by
    obtain ⟨h1, h2, k, h3⟩ := detach_keeps (E := E) name c
    unfold Database.detachDatabases
    rw [M.bind_apply]
    rcases hr : SqlTable.exec E (py! "DETACH DATABASE " ++ name) [] c with ⟨e | _, c1⟩
    · rw [hr] at h1 h2 h3
      exact ⟨h1, h2, k, h3⟩
    · rw [hr] at h1 h2 h3
      simp only at h1 h2 h3
      obtain ⟨g1, g2, k', g3⟩ := detachDatabases_keeps names c1
      refine ⟨g1.trans h1, g2.trans h2, k' + k, ?_⟩
      have : c1.committed = c.committed := by simp [Connection.committed, h1, h2]
      simp only
      rw [g3, h3, this, ← List.append_assoc, List.replicate_append_replicate]

/-- **C66**: `close` of a database which was opened with `from_file` closes the connection in any case, even if it raises an exception.
The files contain what was committed, now and at every moment of the call; a transaction which was still open is lost. -/
theorem C66_close (E : Engine) {d : Database} (hown : d.isExternal = false) (hd : d.connected = true) (c : Connection) :
    (d.close E c).2.2.isOpen = false ∧ (d.close E c).2.2.files = c.committed ∧ (d.close E c).2.2.saved = none ∧
      ∃ k, (d.close E c).2.2.disk = List.replicate k c.committed ++ c.disk := by
  obtain ⟨h1, h2, k, h3⟩ := detachDatabases_keeps (E := E) d.attached c
  unfold Database.close
  simp only [hown, hd, Bool.not_false, Bool.not_true, Bool.false_eq_true, if_true, if_false]
  rcases hr : Database.detachDatabases E d.attached c with ⟨e | _, c1⟩ <;>
  · rw [hr] at h1 h2 h3
    simp only at h1 h2 h3
    have hc : c1.committed = c.committed := by simp [Connection.committed, h1, h2]
    refine ⟨rfl, hc, rfl, k + 1, ?_⟩
    simp only [Sql.close]
    rw [h3, hc, List.replicate_succ]
    rfl

theorem lookup_filter {k n : PyStr} (h : k ≠ n) : ∀ l : List (PyStr × PyStr), (l.filter fun s => s.1 ≠ n).lookup k = l.lookup k
  | [] => rfl
  | (a, b) :: l => by
    by_cases ha : a = n
    · rw [List.filter_cons_of_neg (by simp [ha]), List.lookup, beq_false_of_ne (ha ▸ h)]
      exact lookup_filter h l
    · rw [List.filter_cons_of_pos (by simp [ha])]
      by_cases hk : k = a
      · subst hk; simp [List.lookup]
      · rw [List.lookup, List.lookup, beq_false_of_ne hk]
        exact lookup_filter h l

theorem detachDatabases_ok : ∀ {names : List PyStr} {c : Connection}, c.isOpen = true → c.saved = none → names.Nodup →
    (∀ n ∈ names, isName n = true ∧ n ≠ py! "main" ∧ (c.schemas.lookup n).isSome = true) →
    ∃ c', Database.detachDatabases E names c = (.ok (), c')
  | [], c, _, _, _, _ => ⟨c, rfl⟩
  | name :: names, c, hopen, hs, hnd, h => by
    obtain ⟨h1, h2, h3⟩ := h name (by simp)
    obtain ⟨n1, n2⟩ := List.nodup_cons.mp hnd
    have hstep : SqlTable.exec E (py! "DETACH DATABASE " ++ name) [] c =
        (.ok (), { c with schemas := c.schemas.filter fun s => s.1 ≠ name, disk := c.committed :: c.disk }) := by
      rw [exec_eq, execute_eq hopen (st := .detach name) (by rw [parse_detach, if_pos h1]) rfl]
      simp only [run, hs, Option.isSome_none, Bool.false_eq_true, h2, false_or, Option.isNone_iff_eq_none, if_false]
      rw [if_neg (by intro h; rw [h] at h3; cases h3)]
      simp [Except.map, Connection.committed, hs]
    unfold Database.detachDatabases
    rw [M.bind_ok hstep]
    refine detachDatabases_ok hopen hs n2 ?_
    intro n hm
    obtain ⟨g1, g2, g3⟩ := h n (by simp [hm])
    refine ⟨g1, g2, ?_⟩
    simp only
    rw [lookup_filter (by rintro rfl; exact n1 hm)]
    exact g3

/-- **C66**: outside of a transaction `close` of a database which was opened with `from_file` raises nothing and keeps what is in the
files. -/
theorem C66_close_succeeds {D : DatabaseDef} (hD : D.Sound) {relocation : List (PyStr × PyStr)} (hr : Relocation relocation) {files : Files}
    {filename : PyStr} {d : Database} {c0 c : Connection} (h : Database.fromFile E D files filename relocation = (.ok d, c0))
    (hopen : c.isOpen = true) (hs : c.schemas = c0.schemas) (hauto : c.saved = none) :
    ∃ c', d.close E c = (.ok (), { d with connected := false }, c') ∧ c'.isOpen = false ∧ c'.files = c.files := by
  obtain ⟨fs, c1, h1, h2, _, _, _⟩ := fromFile_ok (E := E) hD.name hr files filename
  rw [h1] at h
  cases h
  obtain ⟨c', hdet⟩ := detachDatabases_ok (E := E) (names := fs.map (·.2)) hopen hauto h2.distinct (by
    intro n hn
    obtain ⟨p, hp, rfl⟩ := List.mem_map.mp hn
    obtain ⟨t, _, ht, he⟩ := h2.names p hp
    refine ⟨by rw [he]; exact attachedName_isName hD.name ht, by rw [he]; exact attachedName_main D t, ?_⟩
    rw [hs, h2.schemas, List.lookup, beq_false_of_ne (by rw [he]; exact attachedName_main D t)]
    rw [mem_lookup (v := p.1) (by simpa [Function.comp_def] using h2.distinct) (List.mem_map.mpr ⟨p, hp, rfl⟩)]
    rfl)
  have hk := detachDatabases_keeps (E := E) (fs.map (·.2)) c
  rw [hdet] at hk
  simp only at hk
  unfold Database.close
  simp only [Bool.not_false, Bool.not_true, Bool.false_eq_true, if_true, if_false, hdet, Sql.close]
  refine ⟨_, rfl, rfl, ?_⟩
  simp [Connection.committed, hk.1, hk.2.1, hauto]

/-- **C66**: `close` of a database with a connection of the user does not touch the connection. -/
theorem C66_external (E : Engine) (D : DatabaseDef) (attachedNames : List (PyStr × PyStr)) (c : Connection) :
    ∃ d', (Database.init D attachedNames).close E c = (.ok (), d', c) := ⟨_, rfl⟩

/-- **C66**: after `close` has returned, the other methods of the object raise and do nothing. -/
theorem C66_closed (E : Engine) {d d' : Database} {c c' : Connection} (h : d.close E c = (.ok (), d', c')) (blacklist : List PyStr)
    (c1 : Connection) : (∃ e, Database.createSchema E d' blacklist c1 = (.error e, c1)) ∧ (∃ e, Database.deleteSchema E d' c1 = (.error e, c1)) ∧
      (d'.isExternal = false → ∃ e, d'.close E c1 = (.error e, d', c1)) := by
  have hd : d'.connected = false := by
    unfold Database.close at h
    split at h
    · split at h
      · cases h
      · split at h
        · cases h
        · split at h
          · cases h
          · cases h; rfl
    · cases h; rfl
  refine ⟨⟨.type, ?_⟩, ⟨.type, ?_⟩, fun hx => ⟨.type, ?_⟩⟩
  · unfold Database.createSchema
    simp only [hd, Bool.not_false, if_true]
    rfl
  · unfold Database.deleteSchema
    simp only [hd, Bool.not_false, if_true]
    rfl
  · simp [Database.close, hx, hd]

/-! ### Examples

```
sql_table Flags { int32 id; bool flag; sql "PRIMARY KEY(id)"; sql_without_rowid; };
sql_database World { Goods goods; Flags flags; Notes notes; };
```
-/
namespace SqlDemo

def flagsType : TableDef where
  columns := [{ name := py! "id", kind := .plain, sqlType := py! "INTEGER" }, { name := py! "flag", kind := .plain, sqlType := py! "INTEGER" }]
  constraint := some (py! "PRIMARY KEY(id)")
  withoutRowId := true

def world : DatabaseDef := ⟨py! "World", [(py! "goods", goodsType), (py! "flags", flagsType), (py! "notes", notes.type)]⟩

theorem sound : world.Sound := by
  refine ⟨by decide +kernel, ?_, by decide +kernel⟩
  intro f hf
  simp only [world, List.mem_cons, List.not_mem_nil, or_false] at hf
  rcases hf with rfl | rfl | rfl <;>
    exact ⟨by decide +kernel, by decide +kernel, by decide +kernel, by decide +kernel, by decide +kernel⟩

/-- two tables in the same file -/
def relocation : List (PyStr × PyStr) := [(py! "flags", py! "b.db"), (py! "goods", py! "b.db")]

theorem relocated : Relocation relocation := ⟨by decide +kernel, by decide +kernel, by decide +kernel⟩

/-- the connection after `from_file` -/
def opened : Connection := (Database.fromFile engine world (fun _ _ => none) (py! "a.db") relocation).2

/-- the object -/
def database : Database :=
  match (Database.fromFile engine world (fun _ _ => none) (py! "a.db") relocation).1 with
  | .ok d => d
  | .error _ => ⟨[], [], true, false⟩

theorem database_eq : Database.fromFile engine world (fun _ _ => none) (py! "a.db") relocation = (.ok database, opened) := by
  obtain ⟨d, c, h, _⟩ := C64_from_file (E := engine) sound relocated (fun _ _ => none) (py! "a.db")
  unfold database opened
  rw [h]

/-- the files of the tables -/
def place (T : SqlTable) : PyStr := fileOf (py! "a.db") relocation T.tableName

theorem tables_eq : database.tables = [⟨goodsType, py! "goods", some (py! "World_flags")⟩, ⟨flagsType, py! "flags", some (py! "World_flags")⟩,
    ⟨notes.type, py! "notes", none⟩] := rfl

theorem placed : Placed engine opened database.tables place := by
  obtain ⟨d, c, h, _, _, _, _, h1, _⟩ := C64_from_file (E := engine) sound relocated (fun _ _ => none) (py! "a.db")
  rw [database_eq] at h
  cases h
  refine ⟨fun T hT => (h1 T hT).1, ?_, by rw [tables_eq]; decide +kernel, fun T hT => (h1 T hT).2, ?_⟩
  · rw [tables_eq]
    intro T hT
    simp only [List.mem_cons, List.not_mem_nil, or_false] at hT
    rcases hT with rfl | rfl | rfl
    · refine ⟨by unfold Clause; decide +kernel, by unfold Clause; decide +kernel, fun _ => ⟨by decide +kernel, ?_⟩, fun m h => by cases h⟩
      intro text h
      cases h
      exact ⟨[py! "CHECK(id > 0)"], by decide +kernel, by decide +kernel⟩
    · refine ⟨by unfold Clause; decide +kernel, by unfold Clause; decide +kernel, fun _ => ⟨by decide +kernel, ?_⟩, fun m h => by cases h⟩
      intro text h
      cases h
      exact ⟨[py! "PRIMARY KEY(id)"], by decide +kernel, by decide +kernel⟩
    · refine ⟨by unfold Clause; decide +kernel, by unfold Clause; decide +kernel, fun _ => ⟨by decide +kernel, ?_⟩, fun m h => by cases h⟩
      intro text h
      cases h
  · rw [tables_eq]
    intro T hT columns hc
    simp only [List.mem_cons, List.not_mem_nil, or_false] at hT
    rcases hT with rfl | rfl | rfl <;>
    · simp only [CreatedWith] at hc
      subst hc
      decide +kernel

/-- a file with a table `notes` of somebody else, and an empty one -/
def foreign : Files := fun f n => if f = py! "b.db" ∧ n = py! "notes" then some ⟨[py! "text"], [[.text (py! "hello")]], false⟩ else none

end SqlDemo

open SqlDemo in
example : opened.schemas = [(py! "main", py! "a.db"), (py! "World_flags", py! "b.db")] := by decide +kernel

open SqlDemo in
example : ∃ c', Database.createSchema engine database [py! "flags"] opened = (.ok (), c') ∧
    (∀ T ∈ database.tables, ∃ columns, c'.files (place T) T.tableName = some ⟨columns, [], T.type.withoutRowId && decide (T.tableName ∉ [py! "flags"])⟩) := by
  obtain ⟨c', h1, _, _, _, h2, _⟩ := C65_create (d := database) rfl rfl (main := py! "a.db") (others := [(py! "World_flags", py! "b.db")])
    (by decide +kernel) placed (fun T hT => rfl) [py! "flags"]
  exact ⟨c', h1, fun T hT => (h2 T hT).imp fun columns h => h.2.1⟩

open SqlDemo in
/-- the table `flags` is WITHOUT ROWID unless it is on the black list -/
example : let c1 := (Database.createSchema engine database [] opened).2
    let c2 := (Database.createSchema engine database [py! "flags"] opened).2
    c1.files (py! "b.db") (py! "flags") = some ⟨[py! "id", py! "flag"], [], true⟩ ∧
      c2.files (py! "b.db") (py! "flags") = some ⟨[py! "id", py! "flag"], [], false⟩ ∧
      c1.files (py! "a.db") (py! "notes") = some ⟨[py! "text"], [], false⟩ ∧ c1.files (py! "a.db") (py! "flags") = none := by
  decide +kernel

open SqlDemo in
example : ∃ c1 c2, Database.createSchema engine database [] opened = (.ok (), c1) ∧ Database.deleteSchema engine database c1 = (.ok (), c2) ∧
    c2.files = opened.files :=
  C65_create_delete (d := database) rfl rfl (main := py! "a.db") (others := [(py! "World_flags", py! "b.db")]) (by decide +kernel) placed
    (fun T hT => rfl) []

open SqlDemo in
/-- `notes` cannot be created twice: the tables before it are not created either, and the transaction stays open -/
example : let c := (SqlTable.createTable engine ⟨notes.type, py! "notes", none⟩ opened).2
    (Database.createSchema engine database [] c).1 = .error .sql ∧
      ∃ k, (Database.createSchema engine database [] c).2.saved = some c.files ∧
        (Database.createSchema engine database [] c).2.disk = List.replicate k c.files ++ c.disk := by
  refine ⟨by decide +kernel, ?_⟩
  exact (C65_atomic engine (d := database) rfl [] (by decide +kernel) (by decide +kernel) _ (.inl rfl)).2 .sql (by decide +kernel)

open SqlDemo in
example : ∃ c', database.close engine opened = (.ok (), { database with connected := false }, c') ∧ c'.isOpen = false ∧ c'.files = opened.files :=
  C66_close_succeeds sound relocated database_eq rfl rfl rfl

open SqlDemo in
/-- `close` within a transaction raises, and the connection is closed -/
example : let c := (SqlTable.exec engine (py! "BEGIN") [] opened).2
    (database.close engine c).1 = .error .sql ∧ (database.close engine c).2.2.isOpen = false :=
  ⟨by decide +kernel, (C66_close engine rfl rfl _).1⟩

open SqlDemo in
/-- **C64 is false for tables which do not exist in their file**: with the file `a.db`, which has no table `notes`, `notes` is read from the
file `b.db`, to which only other tables have been relocated, and it is deleted there. -/
theorem C64_shadow : ∃ d c T, Database.fromFile engine world foreign (py! "a.db") relocation = (.ok d, c) ∧ T ∈ d.tables ∧
    fileOf (py! "a.db") relocation T.tableName = py! "a.db" ∧ (T.read engine limit none none c).1 = .ok [[.str (py! "hello")]] ∧
    (T.deleteTable engine c).1 = .ok () ∧ (T.deleteTable engine c).2.files (py! "b.db") T.tableName = none := by
  obtain ⟨d, c, h, _⟩ := C64_from_file (E := engine) sound relocated foreign (py! "a.db")
  have hc : c = (Database.fromFile engine world foreign (py! "a.db") relocation).2 := by rw [h]
  have hd : d.tables = Database.initTables world [(py! "flags", py! "World_flags"), (py! "goods", py! "World_flags")] := by
    have : (Database.fromFile engine world foreign (py! "a.db") relocation).1 =
      .ok ⟨Database.initTables world [(py! "flags", py! "World_flags"), (py! "goods", py! "World_flags")], [py! "World_flags"], false, true⟩ := rfl
    rw [h] at this
    cases this
    rfl
  refine ⟨d, c, ⟨notes.type, py! "notes", none⟩, h, ?_, by decide +kernel, ?_, ?_, ?_⟩
  · rw [hd]; exact .tail _ (.tail _ (.head _))
  · rw [hc]; decide +kernel
  · rw [hc]; decide +kernel
  · rw [hc]; decide +kernel

open SqlDemo in
/-- **C66 is false for `from_file` itself**: if a file cannot be attached, for example because its name contains a quote, `from_file` raises
and the connection it has opened stays open. -/
theorem C66_leak : ∃ e c, Database.fromFile engine world (fun _ _ => none) (py! "a.db") [(py! "flags", py! "o'b.db")] = (.error e, c) ∧
    c.isOpen = true := by
  refine ⟨.sql, (Database.fromFile engine world (fun _ _ => none) (py! "a.db") [(py! "flags", py! "o'b.db")]).2, ?_, by decide +kernel⟩
  rfl

end Zserio.Sql
