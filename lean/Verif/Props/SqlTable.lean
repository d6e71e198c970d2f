import Verif.Lemmas.SqlEffects
import Verif.Lemmas.CompoundDemo
/-
C59: creating and deleting SQL tables. C60: rows which are written are read back. C61: the choice of columns. C62: updates.
C63: transactions.
-/
set_option linter.unusedSimpArgs false
namespace Zserio.Sql

variable {E : Engine} {provider : Provider}

/-! ### C59 -/

/-- the effect of creating a table -/
theorem create_effect {T : SqlTable} {sql : PyStr} {names : List PyStr} {modArgs : Option (PyStr × PyStr)} {without : Bool} {c : Connection}
    {file : PyStr}
    (hp : parse sql = some (.create (refOf T) names modArgs without)) (hopen : c.isOpen = true) (ht : c.target (refOf T) = some file)
    (hnew : c.files file T.tableName = none) {columns : List PyStr}
    (hcol : columns = match (generalizing := false) modArgs with
      | none => names
      | some (m, arguments) => names ++ E.moduleColumns m arguments)
    (hne : columns ≠ []) (hnd : columns.Nodup) :
    ∃ c', SqlTable.exec E sql [] c = (.ok (), c') ∧ c'.isOpen = true ∧ c'.schemas = c.schemas ∧ c'.saved = c.saved ∧
      c'.files = Connection.setTable c.files file T.tableName (some ⟨columns, [], without⟩) := by
  rw [exec_eq, execute_eq hopen hp rfl]
  have h1 : c.files file (refOf T).name = none := hnew
  have hif : ¬ (columns.isEmpty = true ∨ ¬ columns.Nodup) := by simp [hne, hnd]
  cases modArgs <;> (simp only at hcol; subst hcol; simp only [run, ht, h1, Option.isSome_none, Bool.false_eq_true, if_false]; rw [if_neg hif]) <;>
  exact ⟨_, rfl, hopen, rfl, rfl, rfl⟩

/-- **C59**: `create_table` creates the table in the database it belongs to: empty, with exactly the columns of its type, in their
order (and those which the module of a virtual table adds); nothing else changes. -/
theorem C59_create {T : SqlTable} (hn : Named T) (hd : Declared T) {c : Connection} (hopen : c.isOpen = true) {file : PyStr}
    (ht : c.target (refOf T) = some file) (hnew : c.files file T.tableName = none)
    (hcol : ∀ columns, CreatedWith E T columns → columns ≠ [] ∧ columns.Nodup) :
    ∃ c' columns, T.createTable E c = (.ok (), c') ∧ CreatedWith E T columns ∧
      c'.files file T.tableName = some ⟨columns, [], T.type.withoutRowId⟩ ∧
      (∀ f n, ¬ (f = file ∧ n = T.tableName) → c'.files f n = c.files f n) ∧ c'.isOpen = true ∧ c'.schemas = c.schemas ∧
      c'.saved = c.saved := by
  unfold SqlTable.createTable
  cases hv : T.type.virtualUsing with
  | none =>
    have hc : CreatedWith E T (declaredNames T) := by simp [CreatedWith, hv]
    obtain ⟨h1, h2⟩ := hcol _ hc
    obtain ⟨c', h3, h4, h5, h6, h7⟩ := create_effect (E := E) (parse_createText_ordinary hn hd hv
      (SqlTable.hasNonVirtualColumn T.type && T.type.withoutRowId)) hopen ht hnew rfl h1 h2
    exact ⟨c', _, h3, hc, by simp [h7, Connection.setTable, nonVirtual_of_ordinary hn hd hv], fun f n hne => by rw [h7]; exact if_neg hne, h4, h5, h6⟩
  | some m =>
    obtain ⟨arguments, hp⟩ := parse_createText_virtual hn hd hv
    have hc : CreatedWith E T (declaredNames T ++ E.moduleColumns m arguments) := by
      simp only [CreatedWith, hv]; exact ⟨arguments, rfl⟩
    obtain ⟨h1, h2⟩ := hcol _ hc
    obtain ⟨c', h3, h4, h5, h6, h7⟩ := create_effect (E := E) hp hopen ht hnew rfl h1 h2
    refine ⟨c', _, ?_, hc, by simp [h7, Connection.setTable, (hd.virtualTable m hv).2.1],
      fun f n hne => by rw [h7]; exact if_neg hne, h4, h5, h6⟩
    rw [(hd.virtualTable m hv).2.1]
    simpa using h3

/-- **C59**: the same for `create_ordinary_rowid_table`. -/
theorem C59_create_ordinary {T : SqlTable} (hn : Named T) (hd : Declared T) (hv : T.type.virtualUsing = none) {c : Connection}
    (hopen : c.isOpen = true) {file : PyStr} (ht : c.target (refOf T) = some file) (hnew : c.files file T.tableName = none) :
    ∃ c', T.createOrdinaryRowidTable E c = (.ok (), c') ∧ c'.files file T.tableName = some ⟨T.type.columns.map (·.name), [], false⟩ ∧
      (∀ f n, ¬ (f = file ∧ n = T.tableName) → c'.files f n = c.files f n) ∧ c'.isOpen = true ∧ c'.schemas = c.schemas ∧
      c'.saved = c.saved := by
  have hdecl : declaredNames T = T.type.columns.map (·.name) := by
    rw [declaredNames, List.filter_eq_self.mpr]
    intro x hx
    simp [((hd.ordinary hv).1 x hx).1]
  have hp := parse_createText_ordinary hn hd hv false
  simp only [Bool.false_eq_true, if_false, List.append_nil] at hp
  obtain ⟨c', h3, h4, h5, h6, h7⟩ := create_effect (E := E) hp hopen ht hnew rfl (by rw [hdecl]; simpa using hn.nonempty)
    (by rw [hdecl]; exact hn.distinct)
  refine ⟨c', h3, by simp [h7, Connection.setTable, hdecl], fun f n hne => by rw [h7]; exact if_neg hne, h4, h5, h6⟩

/-- **C59**: after `create_table` the object of the table can be used, if it is the first one with its name. -/
theorem C59_usable {T : SqlTable} {c : Connection} (hopen : c.isOpen = true) {file : PyStr} {columns : List PyStr}
    {without : Bool} (htab : c.table (refOf T) = some (file, ⟨columns, [], without⟩)) (hcol : ∀ x ∈ T.type.columns, x.name ∈ columns) :
    Holds c T file ⟨columns, [], without⟩ := ⟨hopen, htab, hcol, by simp⟩

/-- **C59**: a table which exists already is not created again. -/
theorem C59_exists {T : SqlTable} (hn : Named T) (hd : Declared T) {c : Connection} {file : PyStr}
    (ht : c.target (refOf T) = some file) (hex : c.files file T.tableName ≠ none) :
    ∃ c', T.createTable E c = (.error .sql, c') ∧ c'.files = c.files ∧ c'.saved = c.saved := by
  have hsome : (c.files file (refOf T).name).isSome = true := by
    show (c.files file T.tableName).isSome = true
    cases h : c.files file T.tableName with
    | none => exact absurd h hex
    | some t => rfl
  unfold SqlTable.createTable
  have key : ∀ {sql : PyStr} {names : List PyStr} {modArgs : Option (PyStr × PyStr)} {without : Bool},
      parse sql = some (.create (refOf T) names modArgs without) →
      ∃ c', SqlTable.exec E sql [] c = (.error .sql, c') ∧ c'.files = c.files ∧ c'.saved = c.saved := by
    intro sql names modArgs without hp
    rw [exec_eq]
    cases hopen : c.isOpen with
    | false => exact ⟨c, by simp [execute, hopen, Except.map], rfl, rfl⟩
    | true =>
      rw [execute_eq hopen hp rfl]
      simp only [run, ht, hsome, if_true]
      exact ⟨_, rfl, rfl, rfl⟩
  cases hv : T.type.virtualUsing with
  | none => exact key (parse_createText_ordinary hn hd hv _)
  | some m =>
    obtain ⟨arguments, hp⟩ := parse_createText_virtual hn hd hv
    rw [(hd.virtualTable m hv).2.1]
    simpa using key hp

/-- **C59**: `delete_table` removes the table and nothing else. -/
theorem C59_delete {T : SqlTable} (hn : Named T) {c : Connection} {file : PyStr} {t : Table} (ht : Holds c T file t) :
    ∃ c', T.deleteTable E c = (.ok (), c') ∧ c'.files file T.tableName = none ∧
      (∀ f n, ¬ (f = file ∧ n = T.tableName) → c'.files f n = c.files f n) ∧ c'.isOpen = true ∧ c'.schemas = c.schemas ∧
      c'.saved = c.saved := by
  unfold SqlTable.deleteTable
  have hp : parse (py! "DROP TABLE " ++ T.nameInQuery) = some (.drop (refOf T)) := by
    rw [parse_drop, parseTable_name hn]; rfl
  rw [exec_eq, execute_eq ht.isOpen hp rfl]
  simp only [run, ht.table]
  exact ⟨_, rfl, by simp [Connection.setTable, refOf], fun f n hne => if_neg hne, ht.isOpen, rfl, rfl⟩

/-! ### C60 and C61 -/

/-- **C60, C61**: after rows have been written to some columns (`wcols`), reading some columns (`rcols`) returns, in some order, the rows
which were returned before and the rows written: with the values written, with `None` for columns which were not written, and without the
columns which were not asked for. -/
theorem C61_write_read (hE : E.Lawful) {T : SqlTable} (hn : Named T) {wcols rcols : Option (List PyStr)} (hw : ColumnsOf T wcols)
    (hr : ColumnsOf T rcols) {c c' : Connection} {file : PyStr} {t : Table} (ht : Holds c T file t) {rows ws : List (List Val)}
    (h : T.write E (rows.map (passed T wcols)) wcols c = (.ok (), c'))
    (hrows : List.Forall₂ (ReadsAs E provider T wcols rcols) rows ws) {old : List (List Val)}
    (hold : (T.read E provider rcols none c).1 = .ok old) :
    ∃ all, (T.read E provider rcols none c').1 = .ok all ∧ all.Perm (old ++ ws.map (returned T rcols)) := by
  have hlen : ∀ row ∈ rows, row.length = T.type.columns.length := by
    intro row hm
    obtain ⟨i, hi, rfl⟩ := List.getElem_of_mem hm
    have hi2 : i < ws.length := hrows.length_eq ▸ hi
    exact ((List.forall₂_iff_get.mp hrows).2 i hi hi2).1
  obtain ⟨xss, hx, he⟩ := write_ok hn hw ht hlen h
  have hread := stored_read hn (t := t) ht.columns hx hrows
  rw [read_eq hn hr ht] at hold
  rw [read_eq hn hr (he.holds ht)]
  have h1 : ∀ rows : List Row, rows.filter (fun _ => true) = rows := fun rows => by simp
  exact read_append hE (f := fun _ => true) hold (by rw [h1]; exact hread)

/-- **C60**: after rows have been written, reading returns, in some order, the rows which were returned before and those written. -/
theorem C60_write_read (hE : E.Lawful) {T : SqlTable} (hn : Named T) {c c' : Connection} {file : PyStr} {t : Table}
    (ht : Holds c T file t) {rows ws : List (List Val)} (h : T.write E rows none c = (.ok (), c'))
    (hrows : List.Forall₂ (ReadsAs E provider T none none) rows ws) {old : List (List Val)}
    (hold : (T.read E provider none none c).1 = .ok old) :
    ∃ all, (T.read E provider none none c').1 = .ok all ∧ all.Perm (old ++ ws) := by
  have honly : ∀ (cs : List Column) (row : List Val), row.length = cs.length → only (chosen none) cs row = row := by
    intro cs
    induction cs with
    | nil => intro row hl; cases row with
      | nil => rfl
      | cons => simp at hl
    | cons c cs ih => intro row hl; cases row with
      | nil => simp at hl
      | cons v row => simp [only, chosen, ih row (by simpa using hl)]
  have hwlen : ∀ {raw earlier vs rs ws : List Val} {cs : List Column},
      RowFits E provider raw (chosen none) earlier cs vs rs ws → ws.length = cs.length := by
    intro raw earlier vs rs ws cs hf
    induction hf with
    | nil => rfl
    | chosen _ _ _ ih => simpa using ih
    | other _ _ ih => simpa using ih
  have h1 : rows.map (passed T none) = rows := by
    clear h
    induction hrows with
    | nil => rfl
    | @cons row w _ _ hr _ ih =>
      rw [List.map_cons, ih]
      congr 1
      unfold passed
      split
      · exact honly _ _ hr.1
      · rfl
  have h2 : ws.map (returned T none) = ws := by
    clear h h1
    induction hrows with
    | nil => rfl
    | @cons row w _ _ hr _ ih =>
      rw [List.map_cons, ih]
      congr 1
      unfold returned
      split
      · obtain ⟨_, raw, hf⟩ := hr
        exact honly _ _ (hwlen hf)
      · rfl
  have := C61_write_read hE hn (wcols := none) (rcols := none) trivial trivial ht (by rw [h1]; exact h) hrows hold
  rwa [h2] at this

/-- **C60**: writing rows whose values fit succeeds, if the rows respect the constraints of the table. -/
theorem C60_write_succeeds {T : SqlTable} (hn : Named T) {wcols rcols : Option (List PyStr)} (hw : ColumnsOf T wcols)
    (hsub : ∀ x, chosen wcols x = true → chosen rcols x = true) {c : Connection} {file : PyStr} {t : Table} (ht : Holds c T file t)
    (hv : ∀ t, E.valid T.tableName t = true) {rows ws : List (List Val)}
    (hrows : List.Forall₂ (ReadsAs E provider T wcols rcols) rows ws) :
    ∃ c', T.write E (rows.map (passed T wcols)) wcols c = (.ok (), c') := by
  have hst : ∀ row ∈ rows, ∃ xs, Stored E (chosen wcols) T.type.columns row xs := by
    intro row hm
    obtain ⟨i, hi, rfl⟩ := List.getElem_of_mem hm
    have hi2 : i < ws.length := hrows.length_eq ▸ hi
    obtain ⟨h1, raw, h2⟩ := (List.forall₂_iff_get.mp hrows).2 i hi hi2
    exact rowFits_stored hsub h1 h2
  rw [write_unfold hn hw ht.isOpen]
  cases hs : c.saved with
  | some f =>
    obtain ⟨c', h1, _⟩ := writeLoop_succeeds (rows := rows) hn hw hv ht hst
    exact ⟨c', h1⟩
  | none =>
    have ht1 : Holds { c with saved := some c.files, disk := c.files :: c.disk } T file t := ⟨ht.isOpen, ht.table, ht.columns, ht.rows⟩
    obtain ⟨c1, h1, h2, h3⟩ := writeLoop_succeeds (rows := rows) hn hw hv ht1 hst
    simp only [h1]
    exact ⟨_, commit_eq (h2.trans ht.isOpen) (by rw [h3]; rfl)⟩

/-- **C60**: writing changes nothing but the table it writes to, and it only adds rows. -/
theorem C60_only_adds {T : SqlTable} (hn : Named T) {wcols : Option (List PyStr)} (hw : ColumnsOf T wcols) {c c' : Connection}
    {file : PyStr} {t : Table} (ht : Holds c T file t) {rows : List (List Val)} (hlen : ∀ row ∈ rows, row.length = T.type.columns.length)
    (h : T.write E (rows.map (passed T wcols)) wcols c = (.ok (), c')) :
    (∃ new, Holds c' T file { t with rows := t.rows ++ new } ∧ new.length = rows.length) ∧
      (∀ f n, ¬ (f = file ∧ n = T.tableName) → c'.files f n = c.files f n) ∧ c'.schemas = c.schemas := by
  obtain ⟨xss, hx, he⟩ := write_ok hn hw ht hlen h
  exact ⟨⟨_, he.holds ht, by simp [hx.length_eq]⟩, he.others, he.schemas⟩

/-- **C60**: reading with a condition returns, of the rows which are read without it, those for which the condition holds. -/
theorem C60_condition (hE : E.Lawful) {T : SqlTable} (hn : Named T) {rcols : Option (List PyStr)} (hr : ColumnsOf T rcols) {c : Connection}
    {file : PyStr} {t : Table} (ht : Holds c T file t) {condition : Option PyStr} {f : List (PyStr × SqlValue) → Bool}
    (hf : E.meaning (conditionOf condition) = some f) {all : List (List Val)} (hall : (T.read E provider rcols none c).1 = .ok all) :
    ∃ R found, Pairs t all R ∧ (T.read E provider rcols condition c).1 = .ok found ∧
      found.Perm ((R.filter fun p => f (t.columns.zip p.1)).map (·.2)) := by
  rw [read_eq hn hr ht] at hall
  obtain ⟨o1, h1, p1⟩ := mapM_perm ((hE.arrange _).map _) hall
  have htrue : ∀ rows : List Row, rows.filter (fun _ => true) = rows := fun rows => by simp
  rw [mapM_ok_iff, List.map_map] at h1
  have h1' : List.Forall₂ (fun row w => T.type.readRow provider (T.type.columns.map (chosen rcols))
      (rawRow t (namesOf (chosen rcols) T.type.columns) row) = .ok w) t.rows o1 := by
    rw [htrue] at h1
    rw [List.forall₂_map_left_iff] at h1
    simpa [rawRow, Function.comp_def] using h1
  have hlen := h1'.length_eq
  refine ⟨t.rows.zip o1, ?_⟩
  have hfst : (t.rows.zip o1).map (·.1) = t.rows := List.map_fst_zip (by omega)
  have hsnd : (t.rows.zip o1).map (·.2) = o1 := List.map_snd_zip (by omega)
  have hsel : ((((t.rows.filter fun row => f (t.columns.zip row)).map (rawRow t (namesOf (chosen rcols) T.type.columns))).mapM
      (T.type.readRow provider (T.type.columns.map (chosen rcols)))) =
      .ok (((t.rows.zip o1).filter fun p => f (t.columns.zip p.1)).map (·.2))) := by
    rw [mapM_ok_iff, List.forall₂_map_left_iff]
    clear hall h1 p1 hfst hsnd hlen ht
    generalize t.rows = rows at h1'
    induction h1' with
    | nil => exact .nil
    | @cons row w rows ws h _ ih =>
      simp only [List.zip_cons_cons, List.filter_cons]
      split
      · exact .cons h ih
      · exact ih
  obtain ⟨found, h2, p2⟩ := mapM_perm (xs' := (E.arrange ((t.rows.filter fun row => f (t.columns.zip row)).map fun row =>
    (namesOf (chosen rcols) T.type.columns).map (valueOf t.columns row))).map (·.map SqlValue.toVal)) (by
      refine List.Perm.trans (List.Perm.of_eq ?_) ((hE.arrange _).map _).symm
      simp only [List.map_map]
      exact List.map_congr_left fun r _ => by simp [rawRow, Function.comp_def]) hsel
  refine ⟨found, ⟨hfst, by rw [hsnd]; exact p1.symm⟩, ?_, p2⟩
  rw [read_eq hn hr ht, hf]
  exact h2

/-- **C61**: neither the order nor the repetition of the names of columns matters. -/
theorem C61_order {T : SqlTable} (hn : Named T) {names names' : List PyStr} (h : ColumnsOf T (some names)) (h' : ColumnsOf T (some names'))
    (hsame : ∀ n, n ∈ names ↔ n ∈ names') (condition : Option PyStr) (c : Connection) (rows : List (List Val)) (row : List Val) (text : PyStr) :
    T.read E provider (some names) condition c = T.read E provider (some names') condition c ∧
      T.write E rows (some names) c = T.write E rows (some names') c ∧
      T.update E row (some names) text c = T.update E row (some names') text c := by
  have hm : T.type.columnMap (some names) = T.type.columnMap (some names') := by
    rw [columnMap_ok hn h, columnMap_ok hn h']
    congr 1
    apply List.map_congr_left
    intro x _
    simp [chosen, hsame]
  simp only [SqlTable.read, SqlTable.write, SqlTable.update, hm, and_self]

/-- **C61** (partial: tables with at least two columns): a name which is no name of a column is rejected, and nothing happens. -/
theorem C61_unknown_partial {T : SqlTable} (hcols : 2 ≤ T.type.columns.length) {names : List PyStr} {name : PyStr} (hm : name ∈ names)
    (hname : ∀ x ∈ T.type.columns, x.name ≠ name) (condition : Option PyStr) (c : Connection) (rows : List (List Val)) (row : List Val)
    (text : PyStr) : (∃ e, T.read E provider (some names) condition c = (.error e, c)) ∧ (∃ e, T.write E rows (some names) c = (.error e, c)) ∧
      ∃ e, T.update E row (some names) text c = (.error e, c) := by
  have hidx : T.type.columnIndex name = none := by
    unfold TableDef.columnIndex
    split
    · rename_i x he; rw [he] at hcols; simp at hcols
    · exact findName_missing 0 hname
  have hloop : ∀ (ns : List PyStr) (m : List Bool), name ∈ ns → ∃ e, TableDef.columnMapLoop T.type ns m = .error e := by
    intro ns
    induction ns with
    | nil => intro m h; simp at h
    | cons n ns ih =>
      intro m h
      rw [TableDef.columnMapLoop]
      by_cases hn : name = n
      · rw [← hn, hidx]; exact ⟨_, rfl⟩
      · have h' : name ∈ ns := (List.mem_cons.mp h).resolve_left hn
        cases T.type.columnIndex n with
        | none => exact ⟨_, rfl⟩
        | some i =>
          simp only
          split
          · exact ih _ h'
          · exact ⟨_, rfl⟩
  obtain ⟨e, he⟩ := hloop names (T.type.columns.map fun _ => false) hm
  have hmap : T.type.columnMap (some names) = .error e := he
  refine ⟨⟨e, ?_⟩, ⟨e, ?_⟩, ⟨e, ?_⟩⟩
  · unfold SqlTable.read; rw [M.bind_error (s' := c) (e := e) (by rw [M.lift_apply, hmap])]
  · unfold SqlTable.write; rw [M.bind_error (s' := c) (e := e) (by rw [M.lift_apply, hmap])]
  · unfold SqlTable.update; rw [M.bind_error (s' := c) (e := e) (by rw [M.lift_apply, hmap])]

/-- **C61 is false for tables with a single column**: every prefix of its name is accepted as a name, for `COLUMN_NAMES` is no tuple
but a string there. -/
theorem C61_single_column {T : SqlTable} {x : Column} (hx : T.type.columns = [x]) {pre : PyStr} (hp : ∃ s, x.name = pre ++ s)
    (condition : Option PyStr) (c : Connection) :
    T.read E provider (some [pre]) condition c = T.read E provider (some [x.name]) condition c := by
  have hidx : ∀ n, (∃ s, x.name = n ++ s) → T.type.columnIndex n = some 0 := by
    intro n ⟨s, hs⟩
    simp only [TableDef.columnIndex, hx, hs]
    cases hns : n ++ s with
    | nil =>
      have : n = [] := (List.append_eq_nil_iff.mp hns).1
      simp [TableDef.findText, this]
    | cons a l => simp [TableDef.findText, ← hns, after_append]
  have hm : ∀ n, (∃ s, x.name = n ++ s) → T.type.columnMap (some [n]) = .ok [true] := by
    intro n hs
    simp [TableDef.columnMap, TableDef.columnMapLoop, hidx n hs, hx]
  simp only [SqlTable.read, hm pre hp, hm x.name ⟨[], by simp⟩]

/-! ### C62 -/

/-- **C62**: `update_columns` gives the columns which are named the new values in the rows for which the condition holds; in the other
rows they stay as they are, and so does the number of rows. -/
theorem C62_update (hE : E.Lawful) {T : SqlTable} (hn : Named T) {columns : Option (List PyStr)} (hc : ColumnsOf T columns)
    {c c' : Connection} {file : PyStr} {t : Table} (ht : Holds c T file t) {row w : List Val} {condition : PyStr}
    (h : T.update E (passed T columns row) columns condition c = (.ok (), c'))
    (hrow : ReadsAs E provider T columns columns row w) {old : List (List Val)} (hold : (T.read E provider columns none c).1 = .ok old) :
    ∃ f R new, E.condition condition = some f ∧ Pairs t old R ∧ (T.read E provider columns none c').1 = .ok new ∧
      new.Perm (R.map fun p => if f (t.columns.zip p.1) then returned T columns w else p.2) := by
  obtain ⟨hlen, raw, hfit⟩ := hrow
  obtain ⟨xs, f, hf, hst, hu⟩ := update_ok hn hc ht hlen h
  rw [read_eq hn hc ht] at hold
  obtain ⟨o1, h1, p1⟩ := mapM_perm ((hE.arrange _).map _) hold
  have htrue : ∀ rows : List Row, rows.filter (fun _ => true) = rows := fun rows => by simp
  rw [mapM_ok_iff, htrue, List.map_map, List.forall₂_map_left_iff] at h1
  have hlen1 := h1.length_eq
  have hfst : (t.rows.zip o1).map (·.1) = t.rows := List.map_fst_zip (by omega)
  have hsnd : (t.rows.zip o1).map (·.2) = o1 := List.map_snd_zip (by omega)
  have hnew : (((t.rows.map (updateRow t.columns ((namesOf (chosen columns) T.type.columns).zip xs) f)).map
      (rawRow t (namesOf (chosen columns) T.type.columns))).mapM (T.type.readRow provider (T.type.columns.map (chosen columns)))) =
      .ok ((t.rows.zip o1).map fun p => if f (t.columns.zip p.1) then returned T columns w else p.2) := by
    rw [mapM_ok_iff, List.map_map, List.forall₂_map_left_iff]
    have hrl := ht.rows
    have htc := ht.columns
    clear hold p1 hfst hsnd hlen1 hu ht
    generalize t.rows = rows at h1 hrl
    induction h1 with
    | nil => exact .nil
    | @cons r v rows vs h _ ih =>
      rw [List.zip_cons_cons, List.map_cons]
      refine .cons ?_ (ih fun q hq => hrl q (by simp [hq]))
      simp only [Function.comp, updateRow]
      split
      · rw [assign_raw hn htc (hrl r (by simp)) hst hfit]
        exact rowFits_readRow hfit
      · simpa [rawRow, Function.comp_def] using h
  obtain ⟨new, h2, p2⟩ := mapM_perm (xs' := (E.arrange (((t.rows.map (updateRow t.columns ((namesOf (chosen columns) T.type.columns).zip xs)
    f)).filter fun _ => true).map fun row =>
    (namesOf (chosen columns) T.type.columns).map (valueOf t.columns row))).map (·.map SqlValue.toVal)) (by
      refine List.Perm.trans (List.Perm.of_eq ?_) ((hE.arrange _).map _).symm
      rw [htrue]
      simp only [List.map_map]
      exact List.map_congr_left fun r _ => by simp [rawRow, Function.comp_def]) hnew
  refine ⟨f, t.rows.zip o1, new, hf, ⟨hfst, by rw [hsnd]; exact p1.symm⟩, ?_, p2⟩
  rw [read_eq hn hc (hu.holds ht)]
  exact h2

/-- **C62**: columns which are not named are read as before, and other tables stay as they are. -/
theorem C62_others {T : SqlTable} (hn : Named T) {columns rcols : Option (List PyStr)} (hc : ColumnsOf T columns)
    (hr : ColumnsOf T rcols) (hdis : ∀ x ∈ T.type.columns, chosen columns x = true → chosen rcols x = false) {c c' : Connection}
    {file : PyStr} {t : Table} (ht : Holds c T file t) {row : List Val} (hlen : row.length = T.type.columns.length) {condition : PyStr}
    (h : T.update E (passed T columns row) columns condition c = (.ok (), c')) :
    (T.read E provider rcols none c').1 = (T.read E provider rcols none c).1 ∧
      ∀ f n, ¬ (f = file ∧ n = T.tableName) → c'.files f n = c.files f n := by
  obtain ⟨xs, f, hf, hst, hu⟩ := update_ok hn hc ht hlen h
  refine ⟨?_, hu.others⟩
  rw [read_eq hn hr ht, read_eq hn hr (hu.holds ht)]
  have hraw : ∀ old ∈ t.rows, (namesOf (chosen rcols) T.type.columns).map (valueOf t.columns (updateRow t.columns
      ((namesOf (chosen columns) T.type.columns).zip xs) f old)) = (namesOf (chosen rcols) T.type.columns).map (valueOf t.columns old) := by
    intro old ho
    apply updateRow_raw (ht.rows old ho)
    intro n hm
    simp only [namesOf, List.mem_map, List.mem_filter] at hm
    obtain ⟨x, ⟨hx, hrx⟩, rfl⟩ := hm
    refine ⟨ht.columns x hx, ?_⟩
    intro hm2
    simp only [namesOf, List.mem_map, List.mem_filter] at hm2
    obtain ⟨y, ⟨hy, hcy⟩, he⟩ := hm2
    have : y = x := List.inj_on_of_nodup_map hn.distinct hy hx he
    subst this
    rw [hdis y hx hcy] at hrx
    cases hrx
  have htrue : ∀ rows : List Row, rows.filter (fun _ => true) = rows := fun rows => by simp
  simp only [conditionOf, Engine.meaning, htrue, List.map_map]
  congr 3
  exact List.map_congr_left fun r hr => by simpa [Function.comp_def] using hraw r hr

/-! ### C63 -/

/-- **C63**: a call of `write` outside of a transaction is atomic: at every moment before it returns, a crash leaves the files as they
were before the call, and if it returns they contain the new rows from the last moment on. If it raises, they stay as they were. -/
theorem C63_atomic (E : Engine) (T : SqlTable) (rows : List (List Val)) (columns : Option (List PyStr)) (c : Connection)
    (hopen : c.isOpen = true) (hauto : c.saved = none) :
    ((T.write E rows columns c).1 = .ok () → ∃ k, (T.write E rows columns c).2.saved = none ∧
        (T.write E rows columns c).2.disk = (T.write E rows columns c).2.files :: (List.replicate k c.files ++ c.disk)) ∧
      (∀ e, (T.write E rows columns c).1 = .error e → ∃ k, (T.write E rows columns c).2.committed = c.files ∧
        (T.write E rows columns c).2.disk = List.replicate k c.files ++ c.disk) := by
  unfold SqlTable.write
  cases hm : T.type.columnMap columns with
  | error e =>
    rw [M.bind_error (s' := c) (e := e) (by rw [M.lift_apply])]
    exact ⟨fun h => by simp at h, fun e _ => ⟨0, by simp [Connection.committed, hauto], rfl⟩⟩
  | ok m =>
    rw [M.bind_ok (s' := c) (a := m) (by rw [M.lift_apply]), M.bind_ok (s' := c) (a := true) (by simp [getAutocommit, hopen, hauto])]
    simp only [if_true]
    rw [M.bind_ok (begin_eq hopen hauto), M.bind_apply]
    have hw := writeLoop_within (E := E) (T := T) (m := m) rows
      (c := { c with saved := some c.files, disk := c.files :: c.disk }) (f := c.files) rfl
    rcases hl : SqlTable.writeLoop E T m rows { c with saved := some c.files, disk := c.files :: c.disk } with ⟨e | _, c1⟩
    · rw [hl] at hw
      obtain ⟨k, hk⟩ := hw.disk
      refine ⟨fun h => by simp at h, fun e' _ => ⟨k + 1, ?_, ?_⟩⟩
      · have := hw.saved; simp only at this ⊢; simp [Connection.committed, this]
      · simp only at hk ⊢
        rw [hk, List.replicate_succ']
        simp
    · rw [hl] at hw
      obtain ⟨k, hk⟩ := hw.disk
      have hs := hw.saved
      have ho := hw.isOpen
      simp only at hs hk ho
      simp only
      rw [commit_eq (ho.trans hopen) (by rw [hs]; rfl)]
      refine ⟨fun _ => ⟨k + 1, rfl, ?_⟩, fun e h => by simp at h⟩
      simp only
      rw [hk, List.replicate_succ']
      simp

/-- **C63**: within a transaction no method of a table commits anything: a crash at any moment during any sequence of calls leaves the files
as they were at the beginning of the transaction, whatever the calls return or raise, and the transaction stays open. -/
theorem C63_nested (E : Engine) (f : Files) (calls : List TableCall) (c : Connection) (hs : c.saved = some f) :
    (calls.foldl (TableCall.run E) c).saved = some f ∧ ∃ k, (calls.foldl (TableCall.run E) c).disk = List.replicate k f ++ c.disk := by
  have step : ∀ (call : TableCall) (c : Connection), c.saved = some f → Within f c (call.run E c) := by
    intro call c hs
    cases call with
    | create T => exact exec_within (fun st => createText_onTables T _) _ hs
    | createOrdinaryRowid T => exact exec_within (fun st h => createText_onTables T [] (by simpa using h)) _ hs
    | delete T => exact exec_within (fun st => dropText_onTables _) _ hs
    | write T rows columns =>
      simp only [TableCall.run, SqlTable.write]
      cases hm : T.type.columnMap columns with
      | error e =>
        rw [M.bind_error (s' := c) (e := e) (by rw [M.lift_apply])]
        exact .refl hs
      | ok m =>
        rw [M.bind_ok (s' := c) (a := m) (by rw [M.lift_apply])]
        cases hopen : c.isOpen with
        | false =>
          rw [M.bind_error (s' := c) (e := .sql) (by simp [getAutocommit, hopen])]
          exact .refl hs
        | true =>
          rw [M.bind_ok (s' := c) (a := false) (by simp [getAutocommit, hopen, hs])]
          simp only [Bool.false_eq_true, if_false]
          rw [M.bind_apply]
          have hw := writeLoop_within (E := E) (T := T) (m := m) rows hs
          rcases hl : SqlTable.writeLoop E T m rows c with ⟨e | _, c1⟩ <;> rw [hl] at hw <;> exact hw
    | update T row columns condition =>
      simp only [TableCall.run, SqlTable.update]
      cases hm : T.type.columnMap columns with
      | error e =>
        rw [M.bind_error (s' := c) (e := e) (by rw [M.lift_apply])]
        exact .refl hs
      | ok m =>
        rw [M.bind_ok (s' := c) (a := m) (by rw [M.lift_apply])]
        cases hw : T.type.writeRow m row with
        | error e =>
          rw [M.bind_error (s' := c) (e := e) (by rw [M.lift_apply])]
          exact .refl hs
        | ok us =>
          rw [M.bind_ok (s' := c) (a := us) (by rw [M.lift_apply])]
          exact exec_within (fun st => updateText_onTables T m condition) _ hs
    | read T provider columns condition =>
      simp only [TableCall.run, SqlTable.read]
      cases hm : T.type.columnMap columns with
      | error e =>
        rw [M.bind_error (s' := c) (e := e) (by rw [M.lift_apply])]
        exact .refl hs
      | ok m =>
        rw [M.bind_ok (s' := c) (a := m) (by rw [M.lift_apply]), M.bind_apply]
        have hw := execute_within (E := E) (fun st => selectText_onTables T m condition (st := st)) [] hs
        rcases he : execute E (T.selectText m condition) [] c with ⟨e | _, c1⟩ <;> rw [he] at hw <;> exact hw
  have all : ∀ (calls : List TableCall) (c : Connection), c.saved = some f → Within f c (calls.foldl (TableCall.run E) c) := by
    intro calls
    induction calls with
    | nil => intro c hs; exact .refl hs
    | cons call calls ih =>
      intro c hs
      exact (step call c hs).trans (ih _ (step call c hs).saved)
  exact ⟨(all calls c hs).saved, (all calls c hs).disk⟩

/-- **C63, what goes wrong**: if a row cannot be written, `write` leaves the transaction it has begun open. Whatever is written with the
connection afterwards is not committed, and it is lost when the connection is closed. -/
theorem C63_open_after_failure {T : SqlTable} (hn : Named T) {columns : Option (List PyStr)} (hc : ColumnsOf T columns)
    {rows : List (List Val)} {c : Connection} (hopen : c.isOpen = true) (hauto : c.saved = none) {e : Err}
    (h : (T.write E rows columns c).1 = .error e) (calls : List TableCall) :
    (T.write E rows columns c).2.saved = some c.files ∧
      (calls.foldl (TableCall.run E) (T.write E rows columns c).2).committed = c.files ∧
      (close (calls.foldl (TableCall.run E) (T.write E rows columns c).2)).2.files = c.files := by
  have hs : (T.write E rows columns c).2.saved = some c.files := by
    rw [write_unfold hn hc hopen, hauto] at h ⊢
    simp only at h ⊢
    have hw := writeLoop_within (E := E) (T := T) (m := T.type.columns.map (chosen columns)) rows
      (c := { c with saved := some c.files, disk := c.files :: c.disk }) (f := c.files) rfl
    rcases hl : SqlTable.writeLoop E T (T.type.columns.map (chosen columns)) rows { c with saved := some c.files, disk := c.files :: c.disk }
      with ⟨e' | _, c1⟩
    · rw [hl] at hw; exact hw.saved
    · rw [hl] at h hw
      simp only at h
      have hsv := hw.saved
      have ho := hw.isOpen
      simp only at hsv ho
      rw [commit_eq (ho.trans hopen) (by rw [hsv]; rfl)] at h
      cases h
  have := (C63_nested E c.files calls _ hs).1
  exact ⟨hs, by simp [Connection.committed, this], by simp [close, Connection.committed, this]⟩

/-- a call which succeeds -/
theorem okPair {x : Except Err Unit × Connection} (h : x.1 = .ok ()) : x = (.ok (), x.2) := Prod.ext h rfl

/-! ### Examples

```
sql_table Goods
{
    int32 id sql "PRIMARY KEY NOT NULL"; int32 kind; Color color; Rights rights; Item(kind) item; Item(explicit limit) other;
    sql "CHECK(id > 0)";
};
sql_table Notes { string text; };
sql_table Places using rtree { int32 id; float32 low; float32 high; };
```
-/
namespace SqlDemo

/-- enum uint8 Color { NONE = 0, RED = 2 }; -/
def color : EnumClass := ⟨.bitField 8, [⟨py! "NONE", 0, false, false⟩, ⟨py! "RED", 2, false, false⟩]⟩

/-- bitmask uint8 Rights { READ, WRITE }; -/
def rights : BitmaskDef := ⟨.bitField 8, [(py! "READ", 1), (py! "WRITE", 2)]⟩

/-- the argument `kind` -/
def kindArg (earlier : List Val) : Except Err Int :=
  match earlier[1]? with
  | some v => v.asInt
  | none => .error .type

def goodsType : TableDef where
  columns := [
    { name := py! "id", kind := .plain, sqlType := py! "INTEGER", constraint := some (py! "PRIMARY KEY NOT NULL") },
    { name := py! "kind", kind := .plain, sqlType := py! "INTEGER" },
    { name := py! "color", kind := .enum color, sqlType := py! "INTEGER" },
    { name := py! "rights", kind := .bitmask rights, sqlType := py! "INTEGER" },
    { name := py! "item", kind := .blob (Demo.schema.codec 1 0) [.expr kindArg], sqlType := py! "BLOB" },
    { name := py! "other", kind := .blob (Demo.schema.codec 1 0) [.explicit (py! "limit")], sqlType := py! "BLOB" }]
  constraint := some (py! "CHECK(id > 0)")

/-- the table in the attached database `db` -/
def goods : SqlTable := ⟨goodsType, py! "Goods", some (py! "db")⟩

/-- the table with a single column -/
def notes : SqlTable := ⟨{ columns := [{ name := py! "text", kind := .plain, sqlType := py! "TEXT" }] }, py! "Notes", none⟩

/-- the virtual table -/
def placesType : TableDef where
  columns := [{ name := py! "id", kind := .plain, sqlType := py! "INTEGER" }, { name := py! "low", kind := .plain, sqlType := py! "REAL" },
    { name := py! "high", kind := .plain, sqlType := py! "REAL" }]
  virtualUsing := some (py! "rtree")
  needsTypes := false

def places : SqlTable := ⟨placesType, py! "Places", none⟩

/-- an engine which knows the condition `id=2` and that the ids of `Goods` are different, and returns the newest row first -/
def engine : Engine where
  condition text := if text = py! "id=2" then some fun row => row.lookup (py! "id") == some (.int 2) else none
  valid name t := name != py! "Goods" || decide ((t.rows.map (·.head?)).Nodup)
  arrange := List.reverse
  real := .real
  moduleColumns _ _ := []

theorem lawful : engine.Lawful := ⟨fun _ => List.reverse_perm _⟩

/-- the value of the explicit parameter -/
def limit (_ : PyStr) (_ : List Val) : Except Err Int := .ok 2

/-- two empty files -/
def connection : Connection :=
  ⟨[(py! "main", py! "a.db"), (py! "db", py! "b.db")], fun _ _ => none, none, true, []⟩

/-- the connection after `create_table` -/
def created : Connection := (goods.createTable engine connection).2

def row1 : List Val := [.int 1, .int 5, .int 2, .int 3, Demo.itemObj 5 64 (.int 1), Demo.itemObj 2 9 .none]
def row2 : List Val := [.int 2, .int 1, .int 0, .none, Demo.itemObj 1 7 .none, .none]

theorem named : Named goods := ⟨by decide +kernel, by decide +kernel, by decide +kernel, by decide +kernel, by decide +kernel⟩
theorem notesNamed : Named notes := ⟨by decide +kernel, by decide +kernel, by decide +kernel, by decide +kernel, by decide +kernel⟩
theorem placesNamed : Named places := ⟨by decide +kernel, by decide +kernel, by decide +kernel, by decide +kernel, by decide +kernel⟩

theorem declared : Declared goods := by
  refine ⟨by unfold Clause; decide +kernel, by unfold Clause; decide +kernel, fun _ => ⟨by decide +kernel, ?_⟩, fun m h => by cases h⟩
  intro text h
  cases h
  exact ⟨[py! "CHECK(id > 0)"], by decide +kernel, by decide +kernel⟩

theorem placesDeclared : Declared places := by
  refine ⟨by unfold Clause; decide +kernel, by unfold Clause; decide +kernel, fun h => ?_, fun m h => ?_⟩
  · cases h
  · cases h
    exact ⟨by decide +kernel, rfl, fun text h => by cases h⟩

/-- the content of the table -/
def table : Table := ⟨[py! "id", py! "kind", py! "color", py! "rights", py! "item", py! "other"], [], false⟩

theorem holds : Holds created goods (py! "b.db") table := by
  refine ⟨by decide +kernel, by decide +kernel, by decide +kernel, by decide +kernel⟩

theorem stored (p x : Int) (y : Val) (h : p ≤ 3 → y = .none) : Demo.schema.StoredAs 1 0 (Demo.itemObj p x y) (Demo.itemObj p x y) :=
  (demo_item_canonical p x y h).isStored

theorem reads1 : ReadsAs engine limit goods none none row1 row1 :=
  ⟨rfl, _, .chosen rfl (.int (by decide) (by decide)) <| .chosen rfl (.int (by decide) (by decide)) <|
    .chosen rfl (.enum (e := color) (i := ⟨py! "RED", 2, false, false⟩) (by decide +kernel) (by decide) (by decide)) <|
    .chosen rfl (.bitmask (d := rights) (by decide) (by decide) (by decide) (by decide)) <|
    .chosen rfl (.object (closed := Demo.closed) demo_layout (succeeds (by decide +kernel)) (.inl rfl) (stored 5 64 _ (by decide))
      (.cons rfl .nil)) <|
    .chosen rfl (.object (closed := Demo.closed) demo_layout (succeeds (by decide +kernel)) (.inl rfl) (stored 2 9 _ (fun _ => rfl))
      (.cons rfl .nil)) .nil⟩

theorem reads2 : ReadsAs engine limit goods none none row2 row2 :=
  ⟨rfl, _, .chosen rfl (.int (by decide) (by decide)) <| .chosen rfl (.int (by decide) (by decide)) <|
    .chosen rfl (.enum (e := color) (i := ⟨py! "NONE", 0, false, false⟩) (by decide +kernel) (by decide) (by decide)) <|
    .chosen rfl (.null _) <|
    .chosen rfl (.object (closed := Demo.closed) demo_layout (succeeds (by decide +kernel)) (.inl rfl) (stored 1 7 _ (fun _ => rfl))
      (.cons rfl .nil)) <|
    .chosen rfl (.null _) .nil⟩

/-- only the columns `kind` and `item` -/
theorem reads3 : ReadsAs engine limit goods (some [py! "item", py! "kind"]) (some [py! "item", py! "kind"])
    [.unset, .int 5, .unset, .unset, Demo.itemObj 5 64 (.int 1), .unset] [.none, .int 5, .none, .none, Demo.itemObj 5 64 (.int 1), .none] :=
  ⟨rfl, _, .other rfl <| .chosen rfl (.int (by decide) (by decide)) <| .other rfl <| .other rfl <|
    .chosen rfl (.object (closed := Demo.closed) demo_layout (succeeds (by decide +kernel)) (.inl rfl) (stored 5 64 _ (by decide))
      (.cons rfl .nil)) <| .other rfl .nil⟩

/-- the connection after the rows have been written -/
def written : Connection := (goods.write engine [row1, row2] none created).2

end SqlDemo

open SqlDemo in
example : ∃ c' columns, goods.createTable engine connection = (.ok (), c') ∧ CreatedWith engine goods columns ∧
    c'.files (py! "b.db") (py! "Goods") = some ⟨columns, [], false⟩ := by
  obtain ⟨c', columns, h1, h2, h3, _⟩ := C59_create (E := engine) named declared (c := connection) rfl (file := py! "b.db")
    (by decide +kernel) rfl (by intro columns h; simp only [CreatedWith] at h; subst h; decide +kernel)
  exact ⟨c', columns, h1, h2, h3⟩

open SqlDemo in
example : ∃ c', places.createTable engine connection = (.ok (), c') ∧
    c'.files (py! "a.db") (py! "Places") = some ⟨[py! "id", py! "low", py! "high"], [], false⟩ := by
  obtain ⟨c', columns, h1, ⟨arguments, h2⟩, h3, _⟩ := C59_create (E := engine) placesNamed placesDeclared (c := connection) rfl
    (file := py! "a.db") (by decide +kernel) rfl (by rintro columns ⟨arguments, rfl⟩; simp only [engine, List.append_nil]; decide +kernel)
  exact ⟨c', h1, by subst h2; exact h3⟩

open SqlDemo in
example : ∃ c', goods.createOrdinaryRowidTable engine connection = (.ok (), c') ∧ c'.files (py! "b.db") (py! "Goods") = some table := by
  obtain ⟨c', h1, h2, _⟩ := C59_create_ordinary (E := engine) named declared rfl (c := connection) rfl (file := py! "b.db")
    (by decide +kernel) rfl
  exact ⟨c', h1, h2⟩

open SqlDemo in
example : ∃ c', goods.createTable engine created = (.error .sql, c') ∧ c'.files = created.files ∧ c'.saved = created.saved :=
  C59_exists named declared (file := py! "b.db") (by decide +kernel) (by decide +kernel)

open SqlDemo in
example : ∃ c', goods.deleteTable engine written = (.ok (), c') ∧ c'.files (py! "b.db") (py! "Goods") = none := by
  have h : Holds written goods (py! "b.db") ((written.files (py! "b.db") (py! "Goods")).getD table) := by
    refine ⟨by decide +kernel, by decide +kernel, by decide +kernel, by decide +kernel⟩
  obtain ⟨c', h1, h2, _⟩ := C59_delete (E := engine) named h
  exact ⟨c', h1, h2⟩

open SqlDemo in
example : ∃ all, (goods.read engine limit none none written).1 = .ok all ∧ all.Perm ([] ++ [row1, row2]) :=
  C60_write_read lawful named holds (c' := written) (okPair (by decide +kernel)) (.cons reads1 (.cons reads2 .nil)) (by decide +kernel)

open SqlDemo in
example : (goods.read engine limit none none written).1 = .ok [row2, row1] ∧
    (goods.read engine limit none (some (py! "id=2")) written).1 = .ok [row2] ∧
    (goods.read engine limit (some [py! "id", py! "rights"]) none written).1 =
      .ok [[.int 2, .none, .none, .none, .none, .none], [.int 1, .none, .none, .int 3, .none, .none]] ∧
    (goods.write engine [row1] none written).1 = .error .sql := by
  decide +kernel

open SqlDemo in
example : ∃ R found, Pairs ((written.files (py! "b.db") (py! "Goods")).getD table) [row2, row1] R ∧
    (goods.read engine limit none (some (py! "id=2")) written).1 = .ok found ∧
      found.Perm ((R.filter fun p => (table.columns.zip p.1).lookup (py! "id") == some (SqlValue.int 2)).map (·.2)) := by
  have h : Holds written goods (py! "b.db") ((written.files (py! "b.db") (py! "Goods")).getD table) := by
    refine ⟨by decide +kernel, by decide +kernel, by decide +kernel, by decide +kernel⟩
  have hc : ((written.files (py! "b.db") (py! "Goods")).getD table).columns = table.columns := by decide +kernel
  obtain ⟨R, found, h1, h2, h3⟩ := C60_condition lawful named (rcols := none) trivial h (provider := limit) (condition := some (py! "id=2")) rfl
    (all := [row2, row1]) (by decide +kernel)
  exact ⟨R, found, h1, h2, by rw [hc] at h3; exact h3⟩

open SqlDemo in
/-- the rows of an engine without constraints can be written -/
example : ∃ c', goods.write { engine with valid := fun _ _ => true } ([row1, row2].map (passed goods none)) none created = (.ok (), c') :=
  C60_write_succeeds named (wcols := none) (rcols := none) (provider := limit) (ws := [row1, row2]) trivial (fun _ h => h) holds (fun _ => rfl)
    (by
      have fit : ∀ {raw earlier : List Val} {kind : ColumnKind} {v r w : Val}, Fits engine limit raw earlier kind v r w →
          Fits { engine with valid := fun _ _ => true } limit raw earlier kind v r w := by
        intro raw earlier kind v r w h
        cases h with
        | null => exact .null _
        | int a b => exact .int a b
        | bool b => exact .bool b
        | float x => exact .float x
        | str s => exact .str s
        | bytes b => exact .bytes b
        | enum a b c => exact .enum a b c
        | bitmask a b c d => exact .bitmask a b c d
        | object a b c d e => exact .object a b c d e
      have conv : ∀ {raw earlier vs rs ws : List Val} {cs : List Column}, RowFits engine limit raw (chosen none) earlier cs vs rs ws →
          RowFits { engine with valid := fun _ _ => true } limit raw (chosen none) earlier cs vs rs ws := by
        intro raw earlier vs rs ws cs h
        induction h with
        | nil => exact .nil
        | chosen h1 h2 _ ih => exact .chosen h1 (fit h2) ih
        | other h1 _ ih => exact .other h1 ih
      have conv' : ∀ {row ws : List Val}, ReadsAs engine limit goods none none row ws →
          ReadsAs { engine with valid := fun _ _ => true } limit goods none none row ws :=
        fun ⟨h1, raw, h2⟩ => ⟨h1, raw, conv h2⟩
      exact .cons (conv' reads1) (.cons (conv' reads2) .nil))

open SqlDemo in
/-- only some columns: the others are NULL in the new row -/
example : let cols := some [py! "item", py! "kind"]
    ∃ all, (goods.read engine limit cols none (goods.write engine
        [[.unset, .int 5, .unset, .unset, Demo.itemObj 5 64 (.int 1), .unset]] cols written).2).1 = .ok all ∧
      all.Perm ([[.none, .int 1, .none, .none, Demo.itemObj 1 7 .none, .none], [.none, .int 5, .none, .none, Demo.itemObj 5 64 (.int 1), .none]] ++
        [[.none, .int 5, .none, .none, Demo.itemObj 5 64 (.int 1), .none]]) := by
  have h : Holds written goods (py! "b.db") ((written.files (py! "b.db") (py! "Goods")).getD table) := by
    refine ⟨by decide +kernel, by decide +kernel, by decide +kernel, by decide +kernel⟩
  exact C61_write_read lawful named (wcols := some [py! "item", py! "kind"]) (rcols := some [py! "item", py! "kind"])
    ⟨by decide, by decide +kernel⟩ ⟨by decide, by decide +kernel⟩ h
    (rows := [[.unset, .int 5, .unset, .unset, Demo.itemObj 5 64 (.int 1), .unset]])
    (okPair (by decide +kernel)) (.cons reads3 .nil) (by decide +kernel)

open SqlDemo in
/-- a name which is unknown, for a table with several columns and for a table with one -/
example : (∃ e, goods.read engine limit (some [py! "kin"]) none written = (.error e, written)) ∧
    (notes.read engine limit (some [py! "te"]) none (notes.createTable engine written).2).1 = .ok [] ∧
    (notes.read engine limit (some [py! "ext"]) none (notes.createTable engine written).2).1 = .error .index :=
  ⟨(C61_unknown_partial (by decide +kernel) (List.mem_singleton.mpr rfl) (by decide +kernel) none written [] [] []).1,
    by decide +kernel, by decide +kernel⟩

open SqlDemo in
example (c : Connection) : notes.read engine limit (some [py! "te"]) none c = notes.read engine limit (some [py! "text"]) none c :=
  C61_single_column (T := notes) (pre := py! "te") rfl ⟨py! "xt", rfl⟩ none c

open SqlDemo in
example (c : Connection) (rows : List (List Val)) (row : List Val) (text : PyStr) (condition : Option PyStr) :=
  C61_order (E := engine) (provider := limit) named (names := [py! "item", py! "id", py! "item"]) (names' := [py! "id", py! "item"])
    ⟨by decide, by decide +kernel⟩ ⟨by decide, by decide +kernel⟩ (by intro n; simp; tauto) condition c rows row text

open SqlDemo in
/-- an update of one of the two rows -/
example : let cols := some [py! "item", py! "kind"]
    ∃ f R new, engine.condition (py! "id=2") = some f ∧ Pairs ((written.files (py! "b.db") (py! "Goods")).getD table)
      [[.none, .int 1, .none, .none, Demo.itemObj 1 7 .none, .none], [.none, .int 5, .none, .none, Demo.itemObj 5 64 (.int 1), .none]] R ∧
      (goods.read engine limit cols none (goods.update engine [.unset, .int 5, .unset, .unset, Demo.itemObj 5 64 (.int 1), .unset] cols
        (py! "id=2") written).2).1 = .ok new ∧
      new.Perm (R.map fun p => if f (((written.files (py! "b.db") (py! "Goods")).getD table).columns.zip p.1) then
        [.none, .int 5, .none, .none, Demo.itemObj 5 64 (.int 1), .none] else p.2) := by
  have h : Holds written goods (py! "b.db") ((written.files (py! "b.db") (py! "Goods")).getD table) := by
    refine ⟨by decide +kernel, by decide +kernel, by decide +kernel, by decide +kernel⟩
  exact C62_update lawful named (columns := some [py! "item", py! "kind"]) ⟨by decide, by decide +kernel⟩ h
    (row := [.unset, .int 5, .unset, .unset, Demo.itemObj 5 64 (.int 1), .unset])
    (okPair (by decide +kernel)) reads3 (by decide +kernel)

open SqlDemo in
example : (goods.read engine limit (some [py! "id", py! "other"]) none (goods.update engine
      [.unset, .int 5, .unset, .unset, Demo.itemObj 5 64 (.int 1), .unset] (some [py! "item", py! "kind"]) (py! "id=2") written).2).1 =
    (goods.read engine limit (some [py! "id", py! "other"]) none written).1 := by
  have h : Holds written goods (py! "b.db") ((written.files (py! "b.db") (py! "Goods")).getD table) := by
    refine ⟨by decide +kernel, by decide +kernel, by decide +kernel, by decide +kernel⟩
  exact (C62_others named (columns := some [py! "item", py! "kind"]) (rcols := some [py! "id", py! "other"]) ⟨by decide, by decide +kernel⟩
    ⟨by decide, by decide +kernel⟩ (by decide +kernel) h
    (row := [.unset, .int 5, .unset, .unset, Demo.itemObj 5 64 (.int 1), .unset]) rfl (condition := py! "id=2")
    (okPair (by decide +kernel))).1

open SqlDemo in
/-- a row with an id which exists: the first row of the call is lost with everything which is written afterwards -/
example : ∃ e, (goods.write engine [[.int 3, .none, .none, .none, .none, .none], row1] none written).1 = .error e ∧
    (goods.write engine [[.int 4, .none, .none, .none, .none, .none]] none
      (goods.write engine [[.int 3, .none, .none, .none, .none, .none], row1] none written).2).1 = .ok () ∧
    (close ([TableCall.write goods [[.int 4, .none, .none, .none, .none, .none]] none].foldl (TableCall.run engine)
      (goods.write engine [[.int 3, .none, .none, .none, .none, .none], row1] none written).2)).2.files = written.files :=
  ⟨.sql, by decide +kernel, by decide +kernel, (C63_open_after_failure (E := engine) named (columns := none) trivial (by decide +kernel)
    (by decide +kernel) (e := .sql) (by decide +kernel) _).2.2⟩

/-- a number of more than 63 bits cannot be written: `OverflowError` -/
example : (SqlDemo.goods.write SqlDemo.engine [[.int (2 ^ 63), .none, .none, .none, .none, .none]] none SqlDemo.created).1 = .error .overflow := by
  decide +kernel

end Zserio.Sql
