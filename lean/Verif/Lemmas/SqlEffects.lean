import Verif.Lemmas.SqlCreate
/- Lemmas about the effects of the methods of SQL tables: success, updates, transactions. -/
set_option linter.unusedSimpArgs false
set_option linter.unusedVariables false
namespace Zserio.Sql

variable {E : Engine} {provider : Provider}

/-! ### Success of writing -/

theorem rowFits_stored {raw : List Val} {selw selr : Column → Bool} (hsub : ∀ c, selw c = true → selr c = true) :
    ∀ {cs : List Column} {vs earlier rs ws : List Val}, vs.length = cs.length → RowFits E provider raw selr earlier cs (mask selw cs vs) rs ws →
      ∃ xs, Stored E selw cs vs xs
  | [], [], _, _, _, _, _ => ⟨[], .nil⟩
  | c :: cs, v :: vs, earlier, rs, ws, hlen, h => by
    have hlen' : vs.length = cs.length := by simpa using hlen
    cases hw : selw c with
    | true =>
      simp only [mask, hw, if_true] at h
      cases h with
      | chosen hr hf h =>
        obtain ⟨xs, hx⟩ := rowFits_stored hsub hlen' h
        obtain ⟨u, x, h1, h2, _⟩ := fits_write hf
        exact ⟨x :: xs, .take hw h1 h2 hx⟩
      | other hr h => simp [hsub c hw] at hr
    | false =>
      simp only [mask, hw, Bool.false_eq_true, if_false] at h
      cases h with
      | chosen hr hf h =>
        obtain ⟨xs, hx⟩ := rowFits_stored hsub hlen' h
        exact ⟨xs, .skip hw hx⟩
      | other hr h =>
        obtain ⟨xs, hx⟩ := rowFits_stored hsub hlen' h
        exact ⟨xs, .skip hw hx⟩

theorem namesOf_any {T : SqlTable} {c : Connection} {file : PyStr} {t : Table} (ht : Holds c T file t) (columns : Option (List PyStr)) :
    ((namesOf (chosen columns) T.type.columns).any fun x => decide (x ∉ t.columns)) = false := by
  rw [List.any_eq_false]
  intro n hm
  obtain ⟨x, hx, rfl⟩ := List.mem_map.mp (namesOf_sub hm)
  simp [ht.columns x hx]

theorem insert_succeeds {T : SqlTable} (hn : Named T) {columns : Option (List PyStr)} (hc : ColumnsOf T columns) {c : Connection}
    {file : PyStr} {t : Table} (ht : Holds c T file t) (hv : ∀ t, E.valid T.tableName t = true) {us : List Val} {xs : Row}
    (hb : bindAll E us = .ok xs) (hlen : xs.length = (namesOf (chosen columns) T.type.columns).length) :
    ∃ c', SqlTable.exec E (T.insertText (T.type.columns.map (chosen columns))) us c = (.ok (), c') := by
  have hp := parse_insertText hn (chosen_nonempty hn hc)
  rw [selectedNames_map] at hp
  rw [exec_eq, execute_eq ht.isOpen hp hb]
  simp only [run, ht.table]
  rw [if_neg (by rw [namesOf_any ht]; simp [hlen]), if_pos (show E.valid (refOf T).name _ = true from hv _)]
  exact ⟨_, rfl⟩

theorem writeLoop_succeeds {T : SqlTable} (hn : Named T) {columns : Option (List PyStr)} (hc : ColumnsOf T columns) {file : PyStr}
    (hv : ∀ t, E.valid T.tableName t = true) : ∀ {rows : List (List Val)} {c : Connection} {t : Table}, Holds c T file t →
      (∀ row ∈ rows, ∃ xs, Stored E (chosen columns) T.type.columns row xs) →
      ∃ c', SqlTable.writeLoop E T (T.type.columns.map (chosen columns)) (rows.map (passed T columns)) c = (.ok (), c') ∧
        c'.isOpen = c.isOpen ∧ c'.saved = c.saved
  | [], c, t, ht, _ => ⟨c, rfl, rfl, rfl⟩
  | row :: rows, c, t, ht, h => by
    obtain ⟨xs, hx⟩ := h row (by simp)
    obtain ⟨us, h1, h2⟩ := stored_writeRow hx
    obtain ⟨c1, h3⟩ := insert_succeeds hn hc ht hv h2 (stored_length hx)
    obtain ⟨ys, hy, hext⟩ := insert_ok hn hc ht h3
    obtain ⟨c2, h4, h5, h6⟩ := writeLoop_succeeds (rows := rows) hn hc hv (hext.holds ht) fun r hr => h r (by simp [hr])
    refine ⟨c2, ?_, h5.trans hext.isOpen, h6.trans hext.saved⟩
    rw [List.map_cons, SqlTable.writeLoop, M.bind_ok (s' := c) (a := us) (by rw [M.lift_apply, h1]), M.bind_ok h3, h4]

/-! ### Updates -/

theorem lookup_zip_cons {n : PyStr} {ns : List PyStr} {x : SqlValue} {xs : Row} {m : PyStr} :
    ((n :: ns).zip (x :: xs)).lookup m = if m = n then some x else (ns.zip xs).lookup m := by
  by_cases h : m = n
  · simp [h]
  · rw [if_neg h, List.zip_cons_cons, List.lookup, beq_false_of_ne h]

theorem lookup_zip_mem {m : PyStr} : ∀ {ns : List PyStr} {xs : Row}, xs.length = ns.length → m ∈ ns → ∃ x, (ns.zip xs).lookup m = some x
  | n :: ns, x :: xs, hlen, hm => by
    rw [lookup_zip_cons]
    by_cases h : m = n
    · exact ⟨x, by rw [if_pos h]⟩
    · rw [if_neg h]
      exact lookup_zip_mem (by simpa using hlen) ((List.mem_cons.mp hm).resolve_left h)

theorem lookup_zip_notMem {m : PyStr} {ns : List PyStr} {xs : Row} (h : m ∉ ns) : (ns.zip xs).lookup m = none := by
  induction ns generalizing xs with
  | nil => simp
  | cons n ns ih =>
    simp only [List.mem_cons, not_or] at h
    cases xs with
    | nil => simp
    | cons x xs => rw [lookup_zip_cons, if_neg h.1, ih h.2]

theorem valueOf_assign {vals : List (PyStr × SqlValue)} {m : PyStr} : ∀ {ns : List PyStr} {row : Row}, row.length = ns.length → m ∈ ns →
    valueOf ns (assign ns vals row) m = (vals.lookup m).getD (valueOf ns row m)
  | n :: ns, x :: row, hlen, hm => by
    have e : assign (n :: ns) vals (x :: row) = (vals.lookup n).getD x :: assign ns vals row := rfl
    rw [e, valueOf_cons, valueOf_cons]
    by_cases h : m = n
    · rw [if_pos h, if_pos h, h]
    · rw [if_neg h, if_neg h]
      exact valueOf_assign (by simpa using hlen) ((List.mem_cons.mp hm).resolve_left h)

theorem assign_length {ns : List PyStr} {vals : List (PyStr × SqlValue)} {row : Row} (h : row.length = ns.length) :
    (assign ns vals row).length = ns.length := by
  simp [assign, h]

/-- a connection after an update of the table -/
structure Updates (E : Engine) (c c' : Connection) (T : SqlTable) (file : PyStr) (t : Table) (names : List PyStr) (xs : Row)
    (f : List (PyStr × SqlValue) → Bool) : Prop where
  isOpen : c'.isOpen = c.isOpen
  schemas : c'.schemas = c.schemas
  saved : c'.saved = c.saved
  table : c'.table (refOf T) = some (file, { t with rows := t.rows.map (updateRow t.columns (names.zip xs) f) })
  others : ∀ f n, ¬ (f = file ∧ n = T.tableName) → c'.files f n = c.files f n

theorem Updates.holds {c c' : Connection} {T : SqlTable} {file : PyStr} {t : Table} {names : List PyStr} {xs : Row}
    {f : List (PyStr × SqlValue) → Bool} (h : Updates E c c' T file t names xs f) (ht : Holds c T file t) :
    Holds c' T file { t with rows := t.rows.map (updateRow t.columns (names.zip xs) f) } := by
  refine ⟨h.isOpen.trans ht.isOpen, h.table, ht.columns, ?_⟩
  intro row hr
  simp only [List.mem_map] at hr
  obtain ⟨r, hr, rfl⟩ := hr
  unfold updateRow
  split
  · exact assign_length (ht.rows r hr)
  · exact ht.rows r hr

theorem update_ok {T : SqlTable} (hn : Named T) {columns : Option (List PyStr)} (hc : ColumnsOf T columns) {file : PyStr}
    {row : List Val} {cond : PyStr} {c c' : Connection} {t : Table} (ht : Holds c T file t)
    (hlen : row.length = T.type.columns.length)
    (h : SqlTable.update E T (passed T columns row) columns cond c = (.ok (), c')) :
    ∃ xs f, E.condition cond = some f ∧ Stored E (chosen columns) T.type.columns row xs ∧
      Updates E c c' T file t (namesOf (chosen columns) T.type.columns) xs f := by
  have hp := parse_updateText hn (chosen_nonempty hn hc) cond
  rw [selectedNames_map] at hp
  unfold SqlTable.update at h
  rw [M.bind_ok (s' := c) (a := T.type.columns.map (chosen columns)) (by rw [M.lift_apply, columnMap_ok hn hc])] at h
  obtain ⟨us, s1, h1, h⟩ := M.bind_inv h
  simp only [M.lift_apply, Prod.mk.injEq] at h1
  obtain ⟨h1, rfl⟩ := h1
  rw [exec_eq] at h
  cases hb : bindAll E us with
  | error e => simp [execute, ht.isOpen, hp, hb, Except.map] at h
  | ok xs =>
    have hst := writeRow_stored hlen h1 hb
    rw [execute_eq ht.isOpen hp hb] at h
    simp only [run, ht.table] at h
    cases hf : E.condition cond with
    | none => rw [hf] at h; simp [Except.map] at h
    | some f =>
      rw [hf] at h
      simp only at h
      split at h
      · simp [Except.map] at h
      · split at h
        · simp only [Except.map, Prod.mk.injEq, true_and] at h
          subst h
          refine ⟨xs, f, rfl, hst, rfl, rfl, rfl, ?_, fun f n hne => if_neg hne⟩
          refine (table_set ht.table ?_ ?_).2 <;> rfl
        · simp [Except.map] at h

/-- the columns which are meant have the new values in a row which is updated -/
theorem assign_raw {T : SqlTable} (hn : Named T) {columns : Option (List PyStr)} {t : Table}
    (hcol : ∀ x ∈ T.type.columns, x.name ∈ t.columns) {row : List Val} {xs old : Row} (hold : old.length = t.columns.length)
    (hst : Stored E (chosen columns) T.type.columns row xs) {raw ws : List Val}
    (hf : RowFits E provider raw (chosen columns) [] T.type.columns (mask (chosen columns) T.type.columns row) raw ws) :
    rawRow t (namesOf (chosen columns) T.type.columns)
      (assign t.columns ((namesOf (chosen columns) T.type.columns).zip xs) old) = raw := by
  have h1 := stored_raw hn.distinct hst hf
  rw [← h1]
  apply List.map_congr_left
  intro n hm
  obtain ⟨x, hx, rfl⟩ := List.mem_map.mp (namesOf_sub hm)
  rw [valueOf_assign hold (hcol x hx)]
  obtain ⟨y, hy⟩ := lookup_zip_mem (stored_length hst) hm
  rw [hy, show valueOf (namesOf (chosen columns) T.type.columns) xs x.name = y by rw [valueOf, hy]; rfl]
  rfl

/-- the other columns keep their values -/
theorem updateRow_raw {t : Table} {names rnames : List PyStr} {xs old : Row} {f : List (PyStr × SqlValue) → Bool}
    (hold : old.length = t.columns.length) (hr : ∀ n ∈ rnames, n ∈ t.columns ∧ n ∉ names) :
    rnames.map (valueOf t.columns (updateRow t.columns (names.zip xs) f old)) = rnames.map (valueOf t.columns old) := by
  apply List.map_congr_left
  intro n hm
  unfold updateRow
  split
  · rw [valueOf_assign hold (hr n hm).1, lookup_zip_notMem (hr n hm).2]
    rfl
  · rfl

/-! ### Transactions -/

/-- statements which do not begin or end a transaction and do not change the list of databases -/
def Statement.onTables : Statement → Bool
  | .insert .. => true
  | .select .. => true
  | .update .. => true
  | .create .. => true
  | .drop .. => true
  | _ => false

theorem parseInsert_onTables {s : PyStr} {st : Statement} (h : parseInsert s = some st) : st.onTables = true := by
  simp only [parseInsert, Option.bind_eq_bind, Option.bind_eq_some_iff] at h
  obtain ⟨a, _, b, _, h⟩ := h
  split at h
  · simp only [Option.bind_eq_some_iff] at h
    obtain ⟨_, _, _, _, _, _, h⟩ := h
    cases h
    rfl
  · cases h

theorem parseSelect_onTables {s : PyStr} {st : Statement} (h : parseSelect s = some st) : st.onTables = true := by
  simp only [parseSelect, Option.bind_eq_bind, Option.bind_eq_some_iff] at h
  obtain ⟨a, _, h⟩ := h
  split at h
  · simp only [Option.bind_eq_some_iff] at h
    obtain ⟨_, _, _, _, h⟩ := h
    cases h
    rfl
  · simp only [Option.bind_eq_some_iff] at h
    obtain ⟨_, _, _, _, _, _, h⟩ := h
    cases h
    rfl

theorem parseUpdate_onTables {s : PyStr} {st : Statement} (h : parseUpdate s = some st) : st.onTables = true := by
  simp only [parseUpdate, Option.bind_eq_bind, Option.bind_eq_some_iff] at h
  obtain ⟨_, _, _, _, _, _, _, _, h⟩ := h
  cases h
  rfl

theorem parseCreate_onTables {s : PyStr} {st : Statement} (h : parseCreate s = some st) : st.onTables = true := by
  simp only [parseCreate] at h
  split at h <;>
  · simp only [Option.bind_eq_bind, Option.bind_eq_some_iff] at h
    obtain ⟨_, _, _, _, h⟩ := h
    cases h
    rfl

theorem parseCreateVirtual_onTables {s : PyStr} {st : Statement} (h : parseCreateVirtual s = some st) : st.onTables = true := by
  simp only [parseCreateVirtual, Option.bind_eq_bind, Option.bind_eq_some_iff] at h
  obtain ⟨_, _, h⟩ := h
  split at h
  · cases h
  · split at h
    · simp only [Option.bind_eq_some_iff] at h
      obtain ⟨_, _, h⟩ := h
      cases h
      rfl
    · simp only [Option.bind_eq_some_iff] at h
      obtain ⟨_, _, _, _, _, _, h⟩ := h
      cases h
      rfl

theorem insertText_onTables (T : SqlTable) (m : List Bool) {st : Statement} (h : parse (T.insertText m) = some st) : st.onTables = true := by
  unfold SqlTable.insertText at h
  simp only [List.append_assoc] at h
  rw [parse_insert] at h
  exact parseInsert_onTables h

theorem selectText_onTables (T : SqlTable) (m : List Bool) (cond : Option PyStr) {st : Statement} (h : parse (T.selectText m cond) = some st) :
    st.onTables = true := by
  unfold SqlTable.selectText at h
  simp only [List.append_assoc] at h
  rw [parse_select] at h
  exact parseSelect_onTables h

theorem updateText_onTables (T : SqlTable) (m : List Bool) (cond : PyStr) {st : Statement} (h : parse (T.updateText m cond) = some st) :
    st.onTables = true := by
  unfold SqlTable.updateText at h
  simp only [List.append_assoc] at h
  rw [parse_update] at h
  exact parseUpdate_onTables h

theorem createText_onTables (T : SqlTable) (s : PyStr) {st : Statement} (h : parse (T.createText ++ s) = some st) : st.onTables = true := by
  rw [createText_eq] at h
  simp only [List.append_assoc] at h
  split at h
  · rw [parse_createVirtual] at h
    exact parseCreateVirtual_onTables h
  · rw [parse_create] at h
    exact parseCreate_onTables h

theorem dropText_onTables (s : PyStr) {st : Statement} (h : parse (py! "DROP TABLE " ++ s) = some st) : st.onTables = true := by
  rw [parse_drop] at h
  cases hp : parseTable s with
  | none => rw [hp] at h; cases h
  | some r => rw [hp] at h; cases h; rfl

/-- a connection in the same transaction, with crash states which are those of the transaction -/
structure Within (f : Files) (c c' : Connection) : Prop where
  isOpen : c'.isOpen = c.isOpen
  schemas : c'.schemas = c.schemas
  saved : c'.saved = some f
  disk : ∃ k, c'.disk = List.replicate k f ++ c.disk

theorem Within.refl {f : Files} {c : Connection} (h : c.saved = some f) : Within f c c := ⟨rfl, rfl, h, 0, rfl⟩

theorem Within.trans {f : Files} {c c1 c2 : Connection} (h1 : Within f c c1) (h2 : Within f c1 c2) : Within f c c2 := by
  refine ⟨h2.isOpen.trans h1.isOpen, h2.schemas.trans h1.schemas, h2.saved, ?_⟩
  obtain ⟨k1, e1⟩ := h1.disk
  obtain ⟨k2, e2⟩ := h2.disk
  exact ⟨k2 + k1, by rw [e2, e1, ← List.append_assoc, List.replicate_append_replicate]⟩

theorem run_within {f : Files} {c : Connection} (hs : c.saved = some f) (values : Row) {st : Statement} (h : st.onTables = true) :
    (run E values st c).2.isOpen = c.isOpen ∧ (run E values st c).2.schemas = c.schemas ∧ (run E values st c).2.saved = some f ∧
      (run E values st c).2.disk = c.disk := by
  cases st with
  | insert table columns n =>
    simp only [run]
    split
    · exact ⟨rfl, rfl, hs, rfl⟩
    · split
      · exact ⟨rfl, rfl, hs, rfl⟩
      · split <;> exact ⟨rfl, rfl, hs, rfl⟩
  | select columns table cond =>
    simp only [run]
    split
    · exact ⟨rfl, rfl, hs, rfl⟩
    · split
      · exact ⟨rfl, rfl, hs, rfl⟩
      · split <;> exact ⟨rfl, rfl, hs, rfl⟩
  | update table columns cond =>
    simp only [run]
    split
    · exact ⟨rfl, rfl, hs, rfl⟩
    · split
      · exact ⟨rfl, rfl, hs, rfl⟩
      · split
        · exact ⟨rfl, rfl, hs, rfl⟩
        · split <;> exact ⟨rfl, rfl, hs, rfl⟩
  | create table columns m =>
    simp only [run]
    split
    · exact ⟨rfl, rfl, hs, rfl⟩
    · split
      · exact ⟨rfl, rfl, hs, rfl⟩
      · cases m <;> simp only <;> split <;> exact ⟨rfl, rfl, hs, rfl⟩
  | drop table =>
    simp only [run]
    split <;> exact ⟨rfl, rfl, hs, rfl⟩
  | begin => cases h
  | commit => cases h
  | attach => cases h
  | detach => cases h

theorem execute_within {f : Files} {sql : PyStr} (h : ∀ st, parse sql = some st → st.onTables = true) (bindings : List Val) {c : Connection}
    (hs : c.saved = some f) : Within f c (execute E sql bindings c).2 := by
  unfold execute
  split
  · exact .refl hs
  · cases hp : parse sql with
    | none => exact .refl hs
    | some st =>
      simp only
      cases hb : bindAll E bindings with
      | error e => exact .refl hs
      | ok values =>
        obtain ⟨h1, h2, h3, h4⟩ := run_within (E := E) hs values (h st hp)
        refine ⟨h1, h2, h3, 1, ?_⟩
        simp only [Connection.committed, h3, h4]
        rfl

theorem exec_within {f : Files} {sql : PyStr} (h : ∀ st, parse sql = some st → st.onTables = true) (bindings : List Val) {c : Connection}
    (hs : c.saved = some f) : Within f c (SqlTable.exec E sql bindings c).2 := by
  rw [exec_eq]
  exact execute_within h bindings hs

theorem writeLoop_within {T : SqlTable} {m : List Bool} {f : Files} : ∀ (rows : List (List Val)) {c : Connection}, c.saved = some f →
    Within f c (SqlTable.writeLoop E T m rows c).2
  | [], c, hs => .refl hs
  | row :: rows, c, hs => by
    unfold SqlTable.writeLoop
    rw [M.bind_apply]
    cases hw : T.type.writeRow m row with
    | error e => exact .refl hs
    | ok us =>
      simp only [M.lift_apply]
      rw [M.bind_apply]
      have h1 := exec_within (E := E) (fun st => insertText_onTables T m (st := st)) us hs
      rcases he : SqlTable.exec E (T.insertText m) us c with ⟨e | _, c1⟩
      · rw [he] at h1; exact h1
      · rw [he] at h1
        exact h1.trans (writeLoop_within rows h1.saved)

end Zserio.Sql
