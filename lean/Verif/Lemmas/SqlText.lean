import Verif.Spec.Sql
import Verif.Lemmas.CompoundSafe
/- Lemmas about the texts of SQL statements: what they are parsed as. -/
set_option linter.unusedSimpArgs false
set_option linter.unusedVariables false
namespace Zserio.Sql

theorem after_append (p s : PyStr) : after p (p ++ s) = some s := by
  induction p with
  | nil => simp [after]
  | cons c p ih => simp [after, ih]

theorem upTo_append {stop : List Nat} {w : PyStr} (hw : ∀ c ∈ w, c ∉ stop) {d : Nat} (hd : d ∈ stop) (s : PyStr) :
    upTo stop (w ++ d :: s) = (w, d :: s) := by
  induction w with
  | nil => simp [upTo, hd]
  | cons c w ih =>
    have h1 : c ∉ stop := hw c (by simp)
    simp [upTo, h1, ih (fun x hx => hw x (by simp [hx]))]

theorem upTo_all {stop : List Nat} {w : PyStr} (hw : ∀ c ∈ w, c ∉ stop) : upTo stop w = (w, []) := by
  induction w with
  | nil => simp [upTo]
  | cons c w ih =>
    have h1 : c ∉ stop := hw c (by simp)
    simp [upTo, h1, ih (fun x hx => hw x (by simp [hx]))]

theorem split_all {sep : Nat} {w : PyStr} (hw : sep ∉ w) : split sep w = [w] := by
  induction w with
  | nil => simp [split]
  | cons c w ih =>
    simp only [List.mem_cons, not_or] at hw
    simp [split, ih hw.2, Ne.symm hw.1]

theorem split_append {sep : Nat} {w : PyStr} (hw : sep ∉ w) (s : PyStr) : split sep (w ++ sep :: s) = w :: split sep s := by
  induction w with
  | nil => simp [split]
  | cons c w ih =>
    simp only [List.mem_cons, not_or] at hw
    simp [split, ih hw.2, Ne.symm hw.1]

theorem split_join : ∀ {ws : List PyStr}, ws ≠ [] → (∀ w ∈ ws, ch! ',' ∉ w) → split (ch! ',') (joinComma ws) = ws
  | [], h, _ => absurd rfl h
  | [w], _, hw => by simpa [joinComma] using split_all (hw w (by simp))
  | w :: w2 :: ws, _, hw => by
    rw [joinComma]
    · rw [split_append (hw w (by simp)), split_join (by simp) (fun x hx => hw x (by simp [hx]))]
    · simp

theorem isName_chars {s : PyStr} (h : isName s = true) : ∀ c ∈ s, isNameChar c = true := by
  simp [isName] at h
  exact h.2

theorem isName_notMem {s : PyStr} (h : isName s = true) {d : Nat} (hd : isNameChar d = false) : d ∉ s := by
  intro hm
  have := isName_chars h d hm
  simp [hd] at this

theorem isName_stop {s : PyStr} (h : isName s = true) {stop : List Nat} (hs : ∀ d ∈ stop, isNameChar d = false) : ∀ c ∈ s, c ∉ stop := by
  intro c hc hm
  have := isName_chars h c hc
  simp [hs c hm] at this

theorem mem_join {c : Nat} : ∀ {ws : List PyStr}, c ∈ joinComma ws → c = ch! ',' ∨ ∃ w ∈ ws, c ∈ w
  | [], h => by simp [joinComma] at h
  | [w], h => .inr ⟨w, by simp, by simpa [joinComma] using h⟩
  | w :: w2 :: ws, h => by
    rw [show joinComma (w :: w2 :: ws) = w ++ ch! ',' :: joinComma (w2 :: ws) from rfl] at h
    simp only [List.mem_append, List.mem_cons] at h
    rcases h with h | h | h
    · exact .inr ⟨w, by simp, h⟩
    · exact .inl h
    · rcases mem_join h with h | ⟨x, hx, hc⟩
      · exact .inl h
      · exact .inr ⟨x, List.mem_cons_of_mem _ hx, hc⟩

theorem parseTable_name {T : SqlTable} (h : Named T) : parseTable T.nameInQuery = some (refOf T) := by
  have ht := h.table
  have hdot : isNameChar (ch! '.') = false := by decide
  unfold SqlTable.nameInQuery refOf
  match hdb : T.attachedDbName with
  | none => simp [parseTable, split_all (isName_notMem ht hdot), ht]
  | some [] => simp [parseTable, split_all (isName_notMem ht hdot), ht]
  | some (c :: d) =>
    have hd : isName (c :: d) = true := by simpa using h.db _ hdb
    simp only []
    rw [List.append_assoc]
    rw [show py! "." ++ T.tableName = ch! '.' :: T.tableName from rfl, parseTable, split_append (isName_notMem hd hdot),
      split_all (isName_notMem ht hdot)]
    simp [hd, ht]

theorem nameInQuery_chars {T : SqlTable} (h : Named T) : ∀ c ∈ T.nameInQuery, isNameChar c = true ∨ c = ch! '.' := by
  intro c hc
  unfold SqlTable.nameInQuery at hc
  match hdb : T.attachedDbName with
  | none => simp [hdb] at hc; exact .inl (isName_chars h.table c hc)
  | some [] => simp [hdb] at hc; exact .inl (isName_chars h.table c hc)
  | some (a :: d) =>
    have hd : isName (a :: d) = true := by simpa using h.db _ hdb
    simp only [hdb, List.mem_append] at hc
    rcases hc with (hc | hc) | hc
    · exact .inl (isName_chars hd c hc)
    · exact .inr (by simpa using hc)
    · exact .inl (isName_chars h.table c hc)

/-- the names of the columns which are selected -/
def selectedNames : List Column → List Bool → List PyStr
  | c :: cs, selected :: ms => if selected then c.name :: selectedNames cs ms else selectedNames cs ms
  | _, _ => []

theorem columnTexts_name : ∀ (cs : List Column) (m : List Bool), columnTexts .name cs m = selectedNames cs m
  | [], m => by cases m <;> rfl
  | _ :: _, [] => rfl
  | c :: cs, b :: m => by simp [columnTexts, selectedNames, ColumnFormat.text, columnTexts_name cs m]

theorem columnTexts_update : ∀ (cs : List Column) (m : List Bool),
    columnTexts .sqlUpdate cs m = (selectedNames cs m).map (· ++ py! "=?")
  | [], m => by cases m <;> rfl
  | _ :: _, [] => rfl
  | c :: cs, b :: m => by cases b <;> simp [columnTexts, selectedNames, ColumnFormat.text, columnTexts_update cs m]

theorem columnTexts_parameter : ∀ (cs : List Column) (m : List Bool),
    columnTexts .sqlParameter cs m = (selectedNames cs m).map fun _ => py! "?"
  | [], m => by cases m <;> rfl
  | _ :: _, [] => rfl
  | c :: cs, b :: m => by cases b <;> simp [columnTexts, selectedNames, ColumnFormat.text, columnTexts_parameter cs m]

theorem selectedNames_mem : ∀ {cs : List Column} {m : List Bool} {n : PyStr}, n ∈ selectedNames cs m → ∃ c ∈ cs, c.name = n
  | [], m, n, h => by cases m <;> simp [selectedNames] at h
  | _ :: _, [], n, h => by simp [selectedNames] at h
  | c :: cs, b :: m, n, h => by
    cases b
    · simp [selectedNames] at h
      obtain ⟨x, hx, e⟩ := selectedNames_mem h
      exact ⟨x, by simp [hx], e⟩
    · simp [selectedNames] at h
      rcases h with h | h
      · exact ⟨c, by simp, h.symm⟩
      · obtain ⟨x, hx, e⟩ := selectedNames_mem h
        exact ⟨x, by simp [hx], e⟩

theorem selectedNames_isName {T : SqlTable} (h : Named T) {m : List Bool} : ∀ n ∈ selectedNames T.type.columns m, isName n = true := by
  intro n hn
  obtain ⟨c, hc, e⟩ := selectedNames_mem hn
  exact e ▸ h.columns c hc

theorem parseNames_join {ws : List PyStr} (hne : ws ≠ []) (hw : ∀ w ∈ ws, isName w = true) : parseNames (joinComma ws) = some ws := by
  have h1 : split (ch! ',') (joinComma ws) = ws := split_join hne (fun w hm => isName_notMem (hw w hm) (by decide))
  simp only [parseNames, h1]
  rw [if_pos (by simpa using hw)]

theorem join_stop {ws : List PyStr} {stop : List Nat} (hw : ∀ w ∈ ws, ∀ c ∈ w, c ∉ stop) (hc : ch! ',' ∉ stop) :
    ∀ c ∈ joinComma ws, c ∉ stop := by
  intro c hm
  rcases mem_join hm with h | ⟨w, hx, hcw⟩
  · exact h ▸ hc
  · exact hw w hx c hcw

theorem parseMarks_join {α} {ws : List α} (hne : ws ≠ []) : parseMarks (joinComma (ws.map fun _ => py! "?")) = some ws.length := by
  have h1 : split (ch! ',') (joinComma (ws.map fun _ => py! "?")) = ws.map fun _ => py! "?" :=
    split_join (by simpa using hne) (by intro w hm; simp at hm; rw [← hm.2]; decide)
  simp only [parseMarks, h1]
  rw [if_pos (by simp)]
  simp

theorem parseAssignment_name {n : PyStr} (h : isName n = true) : parseAssignment (n ++ py! "=?") = some n := by
  have h1 : upTo [ch! '='] (n ++ py! "=?") = (n, py! "=?") :=
    upTo_append (isName_stop h (by decide)) (by simp) _
  simp [parseAssignment, h1, h]

theorem mapM_some {α β} (f : α → Option β) (g : α → β) : ∀ {xs : List α}, (∀ x ∈ xs, f x = some (g x)) → xs.mapM f = some (xs.map g)
  | [], _ => by simp
  | x :: xs, h => by simp [h x (by simp), mapM_some f g (xs := xs) (fun y hy => h y (by simp [hy]))]

theorem parseAssignments_join {ws : List PyStr} (hne : ws ≠ []) (hw : ∀ w ∈ ws, isName w = true) :
    parseAssignments (joinComma (ws.map (· ++ py! "=?"))) = some ws := by
  have h1 : split (ch! ',') (joinComma (ws.map (· ++ py! "=?"))) = ws.map (· ++ py! "=?") := by
    apply split_join (by simpa using hne)
    intro w hm
    simp only [List.mem_map] at hm
    obtain ⟨x, hx, rfl⟩ := hm
    have := isName_notMem (hw x hx) (d := ch! ',') (by decide)
    simp [this]
  rw [parseAssignments, h1]
  have : (ws.map (· ++ py! "=?")).mapM parseAssignment = ws.mapM fun w => parseAssignment (w ++ py! "=?") := by
    induction ws with
    | nil => rfl
    | cons a l ih => simp [List.mapM_cons, Function.comp_def, List.mapM_map]
  rw [this, mapM_some (fun w => parseAssignment (w ++ py! "=?")) id (fun x hx => parseAssignment_name (hw x hx))]
  simp

theorem parse_insert (s : PyStr) : parse (py! "INSERT INTO " ++ s) = parseInsert s := by simp [parse, after]
theorem parse_select (s : PyStr) : parse (py! "SELECT " ++ s) = parseSelect s := by simp [parse, after]
theorem parse_update (s : PyStr) : parse (py! "UPDATE " ++ s) = parseUpdate s := by simp [parse, after]
theorem parse_create (s : PyStr) : parse (py! "CREATE TABLE " ++ s) = parseCreate s := by simp [parse, after]
theorem parse_createVirtual (s : PyStr) : parse (py! "CREATE VIRTUAL TABLE " ++ s) = parseCreateVirtual s := by simp [parse, after]
theorem parse_drop (s : PyStr) : parse (py! "DROP TABLE " ++ s) = (parseTable s).map .drop := by simp [parse, after]
theorem parse_attach (s : PyStr) : parse (py! "ATTACH DATABASE '" ++ s) = parseAttach s := by simp [parse, after]
theorem parse_detach (s : PyStr) : parse (py! "DETACH DATABASE " ++ s) = if isName s then some (.detach s) else none := by
  simp [parse, after]
theorem parse_begin : parse (py! "BEGIN") = some .begin := by simp [parse]
theorem parse_commit : parse (py! "COMMIT") = some .commit := by simp [parse]

theorem nameInQuery_stop {T : SqlTable} (h : Named T) {stop : List Nat} (hs : ∀ d ∈ stop, isNameChar d = false ∧ d ≠ ch! '.') :
    ∀ c ∈ T.nameInQuery, c ∉ stop := by
  intro c hc hm
  rcases nameInQuery_chars h c hc with h1 | h1
  · simp [(hs c hm).1] at h1
  · exact (hs c hm).2 h1

theorem parse_selectText {T : SqlTable} (h : Named T) {m : List Bool} (hne : selectedNames T.type.columns m ≠ []) (cond : Option PyStr) :
    parse (T.selectText m cond) = some (.select (selectedNames T.type.columns m) (refOf T) (conditionOf cond)) := by
  have h1 := parseNames_join hne (selectedNames_isName h)
  have h2 := parseTable_name h
  have h3 : ∀ s, upTo [ch! ' '] (joinComma (selectedNames T.type.columns m) ++ ch! ' ' :: s) = (joinComma (selectedNames T.type.columns m), ch! ' ' :: s) :=
    fun s => upTo_append (join_stop (fun w hw => isName_stop (selectedNames_isName h w hw) (by decide)) (by decide)) (by simp) s
  unfold SqlTable.selectText SqlTable.columnsInQuery
  rw [columnTexts_name]
  simp only [List.append_assoc]
  rw [parse_select, parseSelect]
  rw [show ∀ s, py! " FROM " ++ s = ch! ' ' :: (py! "FROM " ++ s) from fun _ => rfl, h3]
  simp only []
  rw [show ∀ s, ch! ' ' :: (py! "FROM " ++ s) = py! " FROM " ++ s from fun _ => rfl, after_append]
  match cond with
  | none =>
    simp [conditionOf, upTo_all (nameInQuery_stop h (stop := [ch! ' ']) (by decide)), h1, h2]
  | some [] =>
    simp [conditionOf, upTo_all (nameInQuery_stop h (stop := [ch! ' ']) (by decide)), h1, h2]
  | some (a :: l) =>
    have h4 := upTo_append (nameInQuery_stop h (stop := [ch! ' ']) (by decide)) (d := ch! ' ') (by simp) (py! "WHERE " ++ a :: l)
    simp only []
    rw [show py! " WHERE " ++ a :: l = ch! ' ' :: (py! "WHERE " ++ a :: l) from rfl]
    simp only [Option.bind_eq_bind, Option.bind_some, h4]
    rw [show ch! ' ' :: (py! "WHERE " ++ a :: l) = py! " WHERE " ++ a :: l from rfl, after_append]
    simp [conditionOf, h1, h2]

theorem parse_insertText {T : SqlTable} (h : Named T) {m : List Bool} (hne : selectedNames T.type.columns m ≠ []) :
    parse (T.insertText m) =
      some (.insert (refOf T) (selectedNames T.type.columns m) (selectedNames T.type.columns m).length) := by
  have h1 := parseNames_join hne (selectedNames_isName h)
  have h2 := parseTable_name h
  have h5 := parseMarks_join hne
  have h3 : ∀ s, upTo [ch! ')'] (joinComma (selectedNames T.type.columns m) ++ ch! ')' :: s) = (joinComma (selectedNames T.type.columns m), ch! ')' :: s) :=
    fun s => upTo_append (join_stop (fun w hw => isName_stop (selectedNames_isName h w hw) (by decide)) (by decide)) (by simp) s
  have h4 : ∀ s, upTo [ch! '('] (T.nameInQuery ++ ch! '(' :: s) = (T.nameInQuery, ch! '(' :: s) :=
    fun s => upTo_append (nameInQuery_stop h (by decide)) (by simp) s
  have h6 : upTo [ch! ')'] (joinComma ((selectedNames T.type.columns m).map fun _ => py! "?") ++ ch! ')' :: []) =
      (joinComma ((selectedNames T.type.columns m).map fun _ => py! "?"), ch! ')' :: []) :=
    upTo_append (join_stop (by intro w hw; simp at hw; rw [← hw.2]; decide) (by decide)) (by simp) _
  unfold SqlTable.insertText SqlTable.columnsInQuery
  rw [columnTexts_name, columnTexts_parameter]
  simp only [List.append_assoc]
  rw [parse_insert, parseInsert]
  rw [show ∀ s, py! "(" ++ s = ch! '(' :: s from fun _ => rfl, h4]
  simp only []
  rw [show ∀ s, after (py! "(") (ch! '(' :: s) = some s from fun s => by simp [after]]
  rw [show ∀ s, py! ") VALUES (" ++ s = ch! ')' :: (py! " VALUES (" ++ s) from fun _ => rfl]
  simp only [Option.bind_eq_bind, Option.bind_some]
  rw [h3]
  simp only []
  rw [show ∀ s, ch! ')' :: (py! " VALUES (" ++ s) = py! ") VALUES (" ++ s from fun _ => rfl, after_append]
  simp only [Option.bind_some]
  rw [show (py! ")" : PyStr) = ch! ')' :: [] from rfl, h6]
  simp [h1, h2, h5]

theorem parse_updateText {T : SqlTable} (h : Named T) {m : List Bool} (hne : selectedNames T.type.columns m ≠ []) (cond : PyStr) :
    parse (T.updateText m cond) = some (.update (refOf T) (selectedNames T.type.columns m) cond) := by
  have h1 := parseAssignments_join hne (selectedNames_isName h)
  have h2 := parseTable_name h
  have h3 : ∀ s, upTo [ch! ' '] (joinComma ((selectedNames T.type.columns m).map (· ++ py! "=?")) ++ ch! ' ' :: s) =
      (joinComma ((selectedNames T.type.columns m).map (· ++ py! "=?")), ch! ' ' :: s) := by
    intro s
    apply upTo_append (join_stop _ (by decide)) (by simp)
    intro w hw
    simp only [List.mem_map] at hw
    obtain ⟨x, hx, rfl⟩ := hw
    intro c hc
    simp only [List.mem_append] at hc
    rcases hc with hc | hc
    · exact isName_stop (selectedNames_isName h x hx) (by decide) c hc
    · revert c; decide
  have h4 : ∀ s, upTo [ch! ' '] (T.nameInQuery ++ ch! ' ' :: s) = (T.nameInQuery, ch! ' ' :: s) :=
    fun s => upTo_append (nameInQuery_stop h (by decide)) (by simp) s
  unfold SqlTable.updateText SqlTable.columnsInQuery
  rw [columnTexts_update]
  simp only [List.append_assoc]
  rw [parse_update, parseUpdate]
  rw [show ∀ s, py! " SET " ++ s = ch! ' ' :: (py! "SET " ++ s) from fun _ => rfl, h4]
  simp only []
  rw [show ∀ s, ch! ' ' :: (py! "SET " ++ s) = py! " SET " ++ s from fun _ => rfl, after_append]
  rw [show ∀ s, py! " WHERE " ++ s = ch! ' ' :: (py! "WHERE " ++ s) from fun _ => rfl]
  simp only [Option.bind_eq_bind, Option.bind_some, h3]
  rw [show ∀ s, ch! ' ' :: (py! "WHERE " ++ s) = py! " WHERE " ++ s from fun _ => rfl, after_append]
  simp [h1, h2]

end Zserio.Sql
