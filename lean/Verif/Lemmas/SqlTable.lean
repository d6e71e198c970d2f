import Verif.Lemmas.SqlRows
import Mathlib.Data.List.Nodup
import Mathlib.Data.List.Forall2
/- Lemmas about the methods of SQL tables. -/
set_option linter.unusedSimpArgs false
set_option linter.unusedVariables false
namespace Zserio.Sql

variable {E : Engine} {provider : Provider}

/-! ### Column names -/

theorem findName_found {name : PyStr} : ∀ {cs : List Column} (k : Nat), (∃ c ∈ cs, c.name = name) →
    ∃ j, TableDef.findName name cs k = some (k + j) ∧ ∃ h : j < cs.length, cs[j].name = name
  | [], _, h => by simp at h
  | c :: cs, k, h => by
    by_cases hn : c.name = name
    · exact ⟨0, by simp [TableDef.findName, hn], by simp, hn⟩
    · have : ∃ d ∈ cs, d.name = name := by
        obtain ⟨d, hd, e⟩ := h
        rcases List.mem_cons.mp hd with rfl | hd
        · exact absurd e hn
        · exact ⟨d, hd, e⟩
      obtain ⟨j, h1, h2, h3⟩ := findName_found (k + 1) this
      refine ⟨j + 1, ?_, by simpa using h2, by simpa using h3⟩
      simp only [TableDef.findName, if_neg hn, h1]
      congr 1; omega

theorem findName_missing {name : PyStr} : ∀ {cs : List Column} (k : Nat), (∀ c ∈ cs, c.name ≠ name) → TableDef.findName name cs k = none
  | [], _, _ => rfl
  | c :: cs, k, h => by
    rw [TableDef.findName, if_neg (h c (by simp))]
    exact findName_missing (k + 1) fun d hd => h d (by simp [hd])

theorem after_self (s : PyStr) : after s s = some [] := by simpa using after_append s []

theorem findText_self (s : PyStr) : TableDef.findText s s 0 = some 0 := by
  cases s with
  | nil => rfl
  | cons c s => simp [TableDef.findText, after_self]

theorem columnIndex_found {T : TableDef} {name : PyStr} (h : ∃ c ∈ T.columns, c.name = name) :
    ∃ j, T.columnIndex name = some j ∧ ∃ h : j < T.columns.length, T.columns[j].name = name := by
  unfold TableDef.columnIndex
  split
  · rename_i c he
    rw [he] at h
    simp only [List.mem_singleton, exists_eq_left] at h
    subst h
    exact ⟨0, findText_self _, by simp [he], by simp [he]⟩
  · obtain ⟨j, h1, h2⟩ := findName_found 0 h
    exact ⟨j, by simpa using h1, h2⟩

theorem columnMapLoop_ok {T : TableDef} (hd : (T.columns.map (·.name)).Nodup) : ∀ (names : List PyStr) (p : Column → Bool),
    (∀ n ∈ names, ∃ c ∈ T.columns, c.name = n) →
    TableDef.columnMapLoop T names (T.columns.map p) = .ok (T.columns.map fun c => p c || decide (c.name ∈ names))
  | [], p, _ => by simp [TableDef.columnMapLoop]
  | n :: names, p, h => by
    obtain ⟨j, h1, h2, h3⟩ := columnIndex_found (h n (by simp))
    have hset : (T.columns.map p).set j true = T.columns.map fun c => p c || decide (c.name = n) := by
      apply List.ext_getElem
      · simp
      · intro i hi1 hi2
        simp only [List.length_set, List.length_map] at hi1
        rw [List.getElem_set]
        by_cases hij : j = i
        · subst hij
          simp [h3]
        · have : T.columns[i].name ≠ n := by
            intro e
            have : (T.columns.map (·.name))[j]'(by simpa using h2) = (T.columns.map (·.name))[i]'(by simpa using hi1) := by simp [h3, e]
            exact hij ((List.Nodup.getElem_inj_iff hd).mp this)
          simp [hij, this]
    simp only [TableDef.columnMapLoop, h1]
    rw [if_pos (by simpa using h2), hset, columnMapLoop_ok hd names _ fun m hm => h m (by simp [hm])]
    congr 1
    apply List.map_congr_left
    intro c _
    by_cases e : c.name = n <;> simp [e]

theorem columnMap_ok {T : SqlTable} (h : Named T) {columns : Option (List PyStr)} (hc : ColumnsOf T columns) :
    T.type.columnMap columns = .ok (T.type.columns.map (chosen columns)) := by
  cases columns with
  | none => rfl
  | some names =>
    show TableDef.columnMapLoop T.type names _ = _
    rw [columnMapLoop_ok h.distinct names (fun _ => false) hc.2]
    simp [chosen]

theorem chosen_nonempty {T : SqlTable} (h : Named T) {columns : Option (List PyStr)} (hc : ColumnsOf T columns) :
    selectedNames T.type.columns (T.type.columns.map (chosen columns)) ≠ [] := by
  rw [selectedNames_map]
  cases columns with
  | none =>
    simpa [namesOf, chosen] using List.exists_mem_of_ne_nil _ h.nonempty
  | some names =>
    obtain ⟨hne, hall⟩ := hc
    obtain ⟨n, hn⟩ := List.exists_mem_of_ne_nil _ hne
    obtain ⟨c, hc, e⟩ := hall n hn
    intro hnil
    have : c.name ∈ namesOf (chosen (some names)) T.type.columns := by
      simp only [namesOf, List.mem_map, List.mem_filter]
      exact ⟨c, ⟨hc, by simp [chosen, e, hn]⟩, rfl⟩
    rw [hnil] at this
    simp at this

/-! ### Connections -/

theorem findTable_set {files : Files} {name : PyStr} {file : PyStr} {t t' : Table} : ∀ {ss : List (PyStr × PyStr)},
    Connection.findTable files name ss = some (file, t) →
    files file name = some t ∧ Connection.findTable (Connection.setTable files file name (some t')) name ss = some (file, t')
  | [], h => by simp [Connection.findTable] at h
  | (d, f) :: ss, h => by
    rw [Connection.findTable] at h
    cases hf : files f name with
    | some u =>
      rw [hf] at h
      cases h
      exact ⟨hf, by simp [Connection.findTable, Connection.setTable]⟩
    | none =>
      rw [hf] at h
      obtain ⟨h1, h2⟩ := findTable_set (t' := t') h
      refine ⟨h1, ?_⟩
      have hne : f ≠ file := by intro e; rw [e, h1] at hf; cases hf
      rw [Connection.findTable]
      rw [show Connection.setTable files file name (some t') f name = none by simp [Connection.setTable, hne, hf]]
      exact h2

theorem table_set {c c' : Connection} {r : TableRef} {file : PyStr} {t t' : Table} (h : c.table r = some (file, t))
    (hs : c'.schemas = c.schemas) (hf : c'.files = Connection.setTable c.files file r.name (some t')) :
    c.files file r.name = some t ∧ c'.table r = some (file, t') := by
  unfold Connection.table at h ⊢
  rw [hs, hf]
  cases hr : r.db with
  | none =>
    rw [hr] at h
    exact findTable_set h
  | some db =>
    rw [hr] at h
    simp only at h ⊢
    cases hl : c.schemas.lookup db with
    | none => rw [hl] at h; cases h
    | some f =>
      rw [hl] at h
      simp only at h ⊢
      cases hx : c.files f r.name with
      | none => rw [hx] at h; cases h
      | some u =>
        rw [hx] at h
        cases h
        exact ⟨hx, by simp [Connection.setTable]⟩

theorem execute_eq {sql : PyStr} {st : Statement} {bindings : List Val} {values : Row} {c : Connection} (hopen : c.isOpen = true)
    (hp : parse sql = some st) (hb : bindAll E bindings = .ok values) :
    execute E sql bindings c = ((run E values st c).1.map (·.map (·.map SqlValue.toVal)),
      { (run E values st c).2 with disk := (run E values st c).2.committed :: (run E values st c).2.disk }) := by
  simp [execute, hopen, hp, hb]

theorem exec_eq {sql : PyStr} {bindings : List Val} {c : Connection} : SqlTable.exec E sql bindings c =
    ((execute E sql bindings c).1.map fun _ => (), (execute E sql bindings c).2) := by
  unfold SqlTable.exec
  rw [M.bind_apply]
  rcases execute E sql bindings c with ⟨r | r, s⟩ <;> rfl

/-! ### Writing -/

/-- the row of the table which is added for stored values -/
abbrev fullRow (t : Table) (names : List PyStr) (xs : Row) : Row := t.columns.map (valueOf names xs)

/-- a connection whose table has further rows and which differs from another one in nothing but this -/
structure Extends (c c' : Connection) (T : SqlTable) (file : PyStr) (t : Table) (rows : List Row) : Prop where
  isOpen : c'.isOpen = c.isOpen
  schemas : c'.schemas = c.schemas
  saved : c'.saved = c.saved
  table : c'.table (refOf T) = some (file, { t with rows := t.rows ++ rows })
  others : ∀ f n, ¬ (f = file ∧ n = T.tableName) → c'.files f n = c.files f n

theorem Extends.holds {c c' : Connection} {T : SqlTable} {file : PyStr} {t : Table} {names : List PyStr} {xss : List Row}
    (h : Extends c c' T file t (xss.map (fullRow t names))) (ht : Holds c T file t) :
    Holds c' T file { t with rows := t.rows ++ xss.map (fullRow t names) } := by
  refine ⟨h.isOpen.trans ht.isOpen, h.table, ht.columns, ?_⟩
  intro row hr
  simp only [List.mem_append, List.mem_map] at hr
  rcases hr with hr | ⟨xs, _, rfl⟩
  · exact ht.rows row hr
  · simp

theorem insert_ok {T : SqlTable} (hn : Named T) {columns : Option (List PyStr)} (hc : ColumnsOf T columns) {c c' : Connection}
    {file : PyStr} {t : Table} (ht : Holds c T file t) {us : List Val}
    (h : SqlTable.exec E (T.insertText (T.type.columns.map (chosen columns))) us c = (.ok (), c')) :
    ∃ xs, bindAll E us = .ok xs ∧ Extends c c' T file t ([xs].map (fullRow t (namesOf (chosen columns) T.type.columns))) := by
  have hp := parse_insertText hn (chosen_nonempty hn hc)
  rw [selectedNames_map] at hp
  rw [exec_eq] at h
  cases hb : bindAll E us with
  | error e => simp [execute, ht.isOpen, hp, hb, Except.map] at h
  | ok xs =>
    rw [execute_eq ht.isOpen hp hb] at h
    simp only [run, ht.table] at h
    split at h
    · simp [Except.map] at h
    · split at h
      · simp only [Except.map, Prod.mk.injEq, true_and] at h
        subst h
        refine ⟨xs, rfl, rfl, rfl, rfl, ?_, fun f n hne => if_neg hne⟩
        refine (table_set ht.table ?_ ?_).2 <;> rfl
      · simp [Except.map] at h

theorem Extends.trans {c c1 c2 : Connection} {T : SqlTable} {file : PyStr} {t : Table} {r1 r2 : List Row} (h1 : Extends c c1 T file t r1)
    (h2 : Extends c1 c2 T file { t with rows := t.rows ++ r1 } r2) : Extends c c2 T file t (r1 ++ r2) := by
  refine ⟨h2.isOpen.trans h1.isOpen, h2.schemas.trans h1.schemas, h2.saved.trans h1.saved, ?_, ?_⟩
  · rw [h2.table]; simp
  · intro f n hne; rw [h2.others f n hne, h1.others f n hne]

theorem writeLoop_ok {T : SqlTable} (hn : Named T) {columns : Option (List PyStr)} (hc : ColumnsOf T columns) {file : PyStr} :
    ∀ (rows : List (List Val)) {c c' : Connection} {t : Table}, Holds c T file t → (∀ row ∈ rows, row.length = T.type.columns.length) →
      SqlTable.writeLoop E T (T.type.columns.map (chosen columns)) (rows.map (passed T columns)) c = (.ok (), c') →
      ∃ xss, List.Forall₂ (Stored E (chosen columns) T.type.columns) rows xss ∧
        Extends c c' T file t (xss.map (fullRow t (namesOf (chosen columns) T.type.columns)))
  | [], c, c', t, ht, _, h => by
    cases h
    exact ⟨[], .nil, rfl, rfl, rfl, by simpa using ht.table, fun _ _ _ => rfl⟩
  | row :: rows, c, c', t, ht, hlen, h => by
    rw [List.map_cons, SqlTable.writeLoop] at h
    obtain ⟨us, s1, h1, h'⟩ := M.bind_inv h
    obtain ⟨_, s2, h2, h3⟩ := M.bind_inv h'
    simp only [M.lift_apply, Prod.mk.injEq] at h1
    obtain ⟨h1, rfl⟩ := h1
    obtain ⟨xs, hb, hext⟩ := insert_ok hn hc ht h2
    have hst := writeRow_stored (hlen row (by simp)) h1 hb
    have ht2 : Holds s2 T file { t with rows := t.rows ++ [xs].map (fullRow t (namesOf (chosen columns) T.type.columns)) } :=
      hext.holds ht
    obtain ⟨xss, hx, he⟩ := writeLoop_ok hn hc rows ht2 (fun r hr => hlen r (by simp [hr])) h3
    exact ⟨xs :: xss, .cons hst hx, hext.trans he⟩

theorem begin_eq {c : Connection} (hopen : c.isOpen = true) (hs : c.saved = none) :
    SqlTable.exec E (py! "BEGIN") [] c = (.ok (), { c with saved := some c.files, disk := c.files :: c.disk }) := by
  rw [exec_eq, execute_eq hopen parse_begin rfl]
  simp [run, hs, Except.map, Connection.committed]

theorem commit_eq {c : Connection} (hopen : c.isOpen = true) (hs : c.saved.isSome = true) :
    SqlTable.exec E (py! "COMMIT") [] c = (.ok (), { c with saved := none, disk := c.files :: c.disk }) := by
  rw [exec_eq, execute_eq hopen parse_commit rfl]
  have : c.saved.isNone = false := by cases h : c.saved <;> simp_all
  simp [run, this, Except.map, Connection.committed]

theorem write_unfold {T : SqlTable} (hn : Named T) {columns : Option (List PyStr)} (hc : ColumnsOf T columns) {rows : List (List Val)}
    {c : Connection} (hopen : c.isOpen = true) : SqlTable.write E T rows columns c =
      match c.saved with
      | some _ => SqlTable.writeLoop E T (T.type.columns.map (chosen columns)) rows c
      | none =>
        match SqlTable.writeLoop E T (T.type.columns.map (chosen columns)) rows { c with saved := some c.files, disk := c.files :: c.disk } with
        | (.ok (), c1) => SqlTable.exec E (py! "COMMIT") [] c1
        | (.error e, c1) => (.error e, c1) := by
  unfold SqlTable.write
  rw [M.bind_ok (s' := c) (a := T.type.columns.map (chosen columns)) (by rw [M.lift_apply, columnMap_ok hn hc])]
  cases hs : c.saved with
  | some f =>
    rw [M.bind_ok (s' := c) (a := false) (by simp [getAutocommit, hopen, hs])]
    simp only [Bool.false_eq_true, if_false]
    rw [M.bind_apply]
    rcases SqlTable.writeLoop E T (T.type.columns.map (chosen columns)) rows c with ⟨_ | _, _⟩ <;> rfl
  | none =>
    rw [M.bind_ok (s' := c) (a := true) (by simp [getAutocommit, hopen, hs])]
    simp only [if_true]
    rw [M.bind_ok (begin_eq hopen hs), M.bind_apply]
    rcases SqlTable.writeLoop E T (T.type.columns.map (chosen columns)) rows _ with ⟨_ | _, _⟩ <;> rfl

theorem write_ok {T : SqlTable} (hn : Named T) {columns : Option (List PyStr)} (hc : ColumnsOf T columns) {file : PyStr}
    {rows : List (List Val)} {c c' : Connection} {t : Table} (ht : Holds c T file t)
    (hlen : ∀ row ∈ rows, row.length = T.type.columns.length)
    (h : SqlTable.write E T (rows.map (passed T columns)) columns c = (.ok (), c')) :
    ∃ xss, List.Forall₂ (Stored E (chosen columns) T.type.columns) rows xss ∧
      Extends c c' T file t (xss.map (fullRow t (namesOf (chosen columns) T.type.columns))) := by
  rw [write_unfold hn hc ht.isOpen] at h
  cases hs : c.saved with
  | some f =>
    rw [hs] at h
    exact writeLoop_ok hn hc rows ht hlen h
  | none =>
    rw [hs] at h
    simp only at h
    rcases hl : SqlTable.writeLoop E T (T.type.columns.map (chosen columns)) (rows.map (passed T columns))
      { c with saved := some c.files, disk := c.files :: c.disk } with ⟨e | _, c1⟩
    · rw [hl] at h; simp at h
    · rw [hl] at h
      simp only at h
      have ht1 : Holds { c with saved := some c.files, disk := c.files :: c.disk } T file t := ⟨ht.isOpen, ht.table, ht.columns, ht.rows⟩
      obtain ⟨xss, hx, he⟩ := writeLoop_ok hn hc rows ht1 hlen hl
      have hsaved : c1.saved = some c.files := he.saved
      rw [commit_eq (he.isOpen.trans ht.isOpen) (by rw [hsaved]; rfl)] at h
      simp only [Prod.mk.injEq, true_and] at h
      subst h
      exact ⟨xss, hx, he.isOpen, he.schemas, hs.symm, he.table, he.others⟩

/-! ### Reading -/

/-- the values which SQLite hands out for a row of the table -/
abbrev rawRow (t : Table) (names : List PyStr) (row : Row) : List Val := names.map fun n => (valueOf t.columns row n).toVal

theorem read_eq {T : SqlTable} (hn : Named T) {columns : Option (List PyStr)} (hc : ColumnsOf T columns) {condition : Option PyStr}
    {file : PyStr} {c : Connection} {t : Table} (ht : Holds c T file t) : (SqlTable.read E T provider columns condition c).1 =
      match E.meaning (conditionOf condition) with
      | none => .error .sql
      | some f => ((E.arrange ((t.rows.filter fun row => f (t.columns.zip row)).map fun row =>
          (namesOf (chosen columns) T.type.columns).map (valueOf t.columns row))).map (·.map SqlValue.toVal)).mapM
            (T.type.readRow provider (T.type.columns.map (chosen columns))) := by
  unfold SqlTable.read
  rw [M.bind_ok (s' := c) (a := T.type.columns.map (chosen columns)) (by rw [M.lift_apply, columnMap_ok hn hc]), M.bind_apply,
    execute_eq ht.isOpen (parse_selectText hn (chosen_nonempty hn hc) condition) rfl, selectedNames_map]
  have hany : ((namesOf (chosen columns) T.type.columns).any fun x => decide (x ∉ t.columns)) = false := by
    rw [List.any_eq_false]
    intro n hm
    obtain ⟨x, hx, rfl⟩ := List.mem_map.mp (namesOf_sub hm)
    simp [ht.columns x hx]
  simp only [run, ht.table]
  cases E.meaning (conditionOf condition) with
  | none => rfl
  | some f =>
    simp only [List.length_nil, ne_eq, not_true, false_or, hany, Bool.false_eq_true, if_false, Except.map, M.lift_apply]

theorem mapM_ok_iff {α β : Type} {f : α → Except Err β} : ∀ {xs : List α} {ys : List β}, xs.mapM f = .ok ys ↔ List.Forall₂ (fun x y => f x = .ok y) xs ys
  | [], ys => by
    simp only [List.mapM_nil]
    constructor
    · intro h; cases h; exact .nil
    · intro h; cases h; rfl
  | x :: xs, ys => by
    rw [List.mapM_cons]
    constructor
    · intro h
      obtain ⟨y, hy, h⟩ := except_bind_ok h
      obtain ⟨zs, hz, h⟩ := except_bind_ok h
      cases h
      exact .cons hy (mapM_ok_iff.mp hz)
    · intro h
      cases h with
      | cons hy hz => rw [hy, ok_bind, mapM_ok_iff.mpr hz, ok_bind]; rfl

/-- rows in another order give the results in another order -/
theorem mapM_perm {α β : Type} {f : α → Except Err β} {xs xs' : List α} (hp : xs.Perm xs') {ys : List β} (h : xs.mapM f = .ok ys) :
    ∃ ys', xs'.mapM f = .ok ys' ∧ ys'.Perm ys := by
  induction hp generalizing ys with
  | nil => exact ⟨ys, h, .refl _⟩
  | cons x _ ih =>
    rw [mapM_ok_iff] at h
    cases h with
    | cons hy hz =>
      obtain ⟨ys', h1, h2⟩ := ih (mapM_ok_iff.mpr hz)
      exact ⟨_ :: ys', mapM_ok_iff.mpr (.cons hy (mapM_ok_iff.mp h1)), h2.cons _⟩
  | swap x y l =>
    rw [mapM_ok_iff] at h
    cases h with
    | cons hy hz =>
      cases hz with
      | cons hy2 hz => exact ⟨_, mapM_ok_iff.mpr (.cons hy2 (.cons hy hz)), .swap _ _ _⟩
  | trans _ _ ih1 ih2 =>
    obtain ⟨y1, h1, p1⟩ := ih1 h
    obtain ⟨y2, h2, p2⟩ := ih2 h1
    exact ⟨y2, h2, p2.trans p1⟩

theorem mapM_append {α β : Type} {f : α → Except Err β} {xs xs' : List α} {ys ys' : List β} (h : xs.mapM f = .ok ys) (h' : xs'.mapM f = .ok ys') :
    (xs ++ xs').mapM f = .ok (ys ++ ys') := by
  rw [mapM_ok_iff] at h h' ⊢
  exact List.rel_append h h'

/-- rows which are added to a table are read in addition to those before -/
theorem read_append (hE : E.Lawful) {T : SqlTable} {t : Table} {m : List Bool} {names : List PyStr} {rows : List Row} {old new : List (List Val)}
    {f : Row → Bool}
    (h : ((E.arrange ((t.rows.filter f).map fun row => names.map (valueOf t.columns row))).map (·.map SqlValue.toVal)).mapM
      (T.type.readRow provider m) = .ok old)
    (hnew : ((rows.filter f).map (rawRow t names)).mapM (T.type.readRow provider m) = .ok new) :
    ∃ all, ((E.arrange (((t.rows ++ rows).filter f).map fun row => names.map (valueOf t.columns row))).map (·.map SqlValue.toVal)).mapM
      (T.type.readRow provider m) = .ok all ∧ all.Perm (old ++ new) := by
  obtain ⟨o1, h1, p1⟩ := mapM_perm ((hE.arrange _).map _) h
  have h2 := mapM_append h1 hnew
  obtain ⟨all, h3, p3⟩ := mapM_perm (xs' := (E.arrange (((t.rows ++ rows).filter f).map fun row => names.map (valueOf t.columns row))).map
    (·.map SqlValue.toVal)) (by
      refine List.Perm.trans ?_ ((hE.arrange _).map _).symm
      simp [List.filter_append, List.map_append, rawRow, Function.comp_def]) h2
  exact ⟨all, h3, p3.trans (p1.append_right _)⟩

/-- the rows which have been stored are read as they are to be -/
theorem stored_read {T : SqlTable} (hn : Named T) {wcols rcols : Option (List PyStr)} {t : Table}
    (hcol : ∀ x ∈ T.type.columns, x.name ∈ t.columns) {rows : List (List Val)} {xss : List Row}
    (hx : List.Forall₂ (Stored E (chosen wcols) T.type.columns) rows xss) {ws : List (List Val)}
    (hw : List.Forall₂ (ReadsAs E provider T wcols rcols) rows ws) :
    ((xss.map (fullRow t (namesOf (chosen wcols) T.type.columns))).map (rawRow t (namesOf (chosen rcols) T.type.columns))).mapM
      (T.type.readRow provider (T.type.columns.map (chosen rcols))) = .ok (ws.map (returned T rcols)) := by
  rw [mapM_ok_iff]
  induction hx generalizing ws with
  | nil => cases hw; exact .nil
  | @cons row xs rows xss h _ ih =>
    cases hw with
    | @cons _ w _ ws hr hw =>
      refine .cons ?_ (ih hw)
      obtain ⟨_, raw, hf⟩ := hr
      have h1 := stored_raw hn.distinct h hf
      have h2 : rawRow t (namesOf (chosen rcols) T.type.columns) (fullRow t (namesOf (chosen wcols) T.type.columns) xs) = raw := by
        rw [← h1]
        apply List.map_congr_left
        intro n hm
        obtain ⟨x, hx, rfl⟩ := List.mem_map.mp (namesOf_sub hm)
        rw [valueOf_map _ (hcol x hx)]
      rw [h2]
      exact rowFits_readRow hf

end Zserio.Sql
