import Verif.Lemmas.SqlTable
/- Lemmas about the texts of CREATE TABLE. -/
set_option linter.unusedSimpArgs false
set_option linter.unusedVariables false
namespace Zserio.Sql

theorem items_ne_nil : ∀ (d : Nat) (s : PyStr), items d s ≠ some []
  | d, [] => by unfold items; split <;> simp
  | d, c :: s => by
    unfold items
    split
    · cases items 0 s <;> simp
    · split
      · simp
      · rename_i d' _
        cases h : items d' s with
        | none => simp
        | some l => cases l <;> simp

/-- a text before the first item -/
def prefixHead (a : PyStr) : List PyStr → List PyStr
  | [] => [a]
  | w :: ws => (a ++ w) :: ws

theorem items_append (s : PyStr) : ∀ (a : PyStr) (d : Nat), items d a = some [a] → items d (a ++ s) = (items 0 s).map (prefixHead a)
  | [], d, h => by
    have hd : d = 0 := by
      unfold items at h
      split at h
      · assumption
      · cases h
    subst hd
    simp only [List.nil_append]
    cases hs : items 0 s with
    | none => rfl
    | some l =>
      cases l with
      | nil => exact absurd hs (items_ne_nil _ _)
      | cons w ws => simp [prefixHead]
  | c :: a, d, h => by
    rw [items] at h
    rw [List.cons_append, items]
    by_cases hc : c = ch! ',' ∧ d = 0
    · rw [if_pos hc] at h
      cases hi : items 0 a with
      | none => rw [hi] at h; cases h
      | some l => rw [hi] at h; simp at h
    · rw [if_neg hc] at h ⊢
      cases hd : (if c = ch! '(' then some (d + 1) else if c = ch! ')' then if d = 0 then none else some (d - 1) else some d : Option Nat) with
      | none => rw [hd] at h; cases h
      | some d' =>
        rw [hd] at h
        simp only at h ⊢
        cases hi : items d' a with
        | none => rw [hi] at h; cases h
        | some l =>
          rw [hi] at h
          cases l with
          | nil => exact absurd hi (items_ne_nil _ _)
          | cons w ws =>
            simp only [Option.some.injEq, List.cons.injEq, true_and] at h
            obtain ⟨rfl, rfl⟩ := h
            rw [items_append s w d' hi]
            cases items 0 s with
            | none => rfl
            | some l => cases l <;> simp [prefixHead]

theorem clause_nil : Clause [] := by simp [Clause, items]

theorem clause_append {a b : PyStr} (ha : Clause a) (hb : Clause b) : Clause (a ++ b) := by
  unfold Clause at *
  rw [items_append b a 0 ha, hb]
  rfl

theorem clause_blank {a : PyStr} (ha : Clause a) : Clause (py! " " ++ a) := clause_append (by simp [Clause, items]) ha

theorem clause_name {n : PyStr} (h : isName n = true) : Clause n := by
  have hc := isName_chars h
  clear h
  unfold Clause
  induction n with
  | nil => simp [items]
  | cons c n ih =>
    have h1 := hc c (by simp)
    have e1 : c ≠ ch! ',' := by rintro rfl; revert h1; decide
    have e2 : c ≠ ch! '(' := by rintro rfl; revert h1; decide
    have e3 : c ≠ ch! ')' := by rintro rfl; revert h1; decide
    rw [items, if_neg (by simp [e1]), if_neg e2, if_neg e3]
    simp [ih fun d hd => hc d (by simp [hd])]

/-- the text after the name of a column -/
def columnRest (T : TableDef) (c : Column) : PyStr :=
  (if T.needsTypes then py! " " ++ c.sqlType else []) ++
    match c.constraint with
    | some text => py! " " ++ text
    | none => []

theorem columnDefinition_eq (T : TableDef) (c : Column) (b : Bool) :
    SqlTable.columnDefinition T c b = c.name ++ columnRest T c ++ if b then py! "," else [] := by
  unfold SqlTable.columnDefinition columnRest
  cases c.constraint <;> simp

theorem columnRest_clause {T : SqlTable} (hd : Declared T) {c : Column} (hc : c ∈ T.type.columns) : Clause (columnRest T.type c) := by
  unfold columnRest
  apply clause_append
  · split
    · exact clause_blank (hd.types c hc)
    · exact clause_nil
  · cases he : c.constraint with
    | none => exact clause_nil
    | some text => exact clause_blank (hd.constraints c hc text he)

theorem columnRest_head (T : TableDef) (c : Column) : columnRest T c = [] ∨ ∃ s, columnRest T c = ch! ' ' :: s := by
  unfold columnRest
  split
  · exact .inr ⟨_, rfl⟩
  · cases c.constraint with
    | none => exact .inl rfl
    | some text => exact .inr ⟨_, rfl⟩

/-- the definition of a column -/
abbrev columnText (T : TableDef) (c : Column) : PyStr := c.name ++ columnRest T c

theorem trim_name {n s : PyStr} (h : isName n = true) : trim (n ++ s) = n ++ s := by
  cases n with
  | nil => simp [isName] at h
  | cons c n =>
    have := isName_chars h c (by simp)
    have e : (c == ch! ' ') = false := by
      rw [beq_eq_false_iff_ne]; rintro rfl; revert this; decide
    simp [trim, List.dropWhile, e]

theorem upTo_columnText {stop : List Nat} (hs : ∀ d ∈ stop, isNameChar d = false) (hb : ch! ' ' ∈ stop) (T : TableDef) {c : Column}
    (hn : isName c.name = true) : upTo stop (columnText T c) = (c.name, columnRest T c) := by
  rcases columnRest_head T c with h | ⟨s, h⟩
  · rw [columnText, h, List.append_nil]; exact upTo_all (isName_stop hn hs)
  · rw [columnText, h]; exact upTo_append (isName_stop hn hs) hb _

theorem parseItem_columnText (T : TableDef) {c : Column} (hn : isName c.name = true) (hk : c.name.map lower ∉ constraintWords) :
    parseItem (columnText T c) = some (some c.name) := by
  simp only [parseItem, trim_name hn]
  rw [upTo_columnText (by decide) (by decide) T hn]
  simp [hn, hk]

theorem parseArgument_columnText (T : TableDef) {c : Column} (hn : isName c.name = true) :
    parseArgument (columnText T c) = some (some c.name) := by
  have hne : c.name ≠ [] := by rintro h; rw [h] at hn; simp [isName] at hn
  simp only [parseArgument, trim_name hn]
  rw [upTo_columnText (by decide) (by decide) T hn]
  have : (columnRest T c).head? ≠ some (ch! '=') := by
    rcases columnRest_head T c with h | ⟨s, h⟩ <;> simp [h]
  simp [hn, this, hne, columnText]

/-- the items of the definitions of the columns, followed by `w` -/
def defItems (T : TableDef) : List Column → PyStr → List PyStr
  | [], w => [w]
  | c :: cs, w => if c.isVirtual then defItems T cs w else if cs.isEmpty then [columnText T c ++ w] else columnText T c :: defItems T cs w

theorem columnText_clause {T : SqlTable} (hn : Named T) (hd : Declared T) {c : Column} (hc : c ∈ T.type.columns) :
    Clause (columnText T.type c) := clause_append (clause_name (hn.columns c hc)) (columnRest_clause hd hc)

theorem items_definitions {T : SqlTable} (hn : Named T) (hd : Declared T) {s w : PyStr} {ws : List PyStr} (hs : items 0 s = some (w :: ws)) :
    ∀ cs : List Column, (∀ c ∈ cs, c ∈ T.type.columns) →
      items 0 (SqlTable.columnDefinitions T.type cs ++ s) = some (defItems T.type cs w ++ ws)
  | [], _ => by simp [SqlTable.columnDefinitions, defItems, hs]
  | c :: cs, hsub => by
    have ih := items_definitions hn hd hs cs fun d hd => hsub d (by simp [hd])
    have hcl := columnText_clause hn hd (hsub c (by simp))
    cases hv : c.isVirtual with
    | true => simpa [SqlTable.columnDefinitions, defItems, hv] using ih
    | false =>
      cases cs with
      | nil =>
        simp only [SqlTable.columnDefinitions, defItems, hv, columnDefinition_eq, Bool.false_eq_true, if_false, List.isEmpty_nil, Bool.not_true,
          List.append_nil, if_true]
        rw [items_append s _ 0 hcl, hs]
        rfl
      | cons c2 cs =>
        rw [SqlTable.columnDefinitions, hv, columnDefinition_eq]
        simp only [Bool.false_eq_true, if_false, List.isEmpty_cons, Bool.not_false, if_true, List.append_assoc]
        rw [← List.append_assoc c.name, items_append _ _ 0 hcl]
        rw [show ∀ x, items 0 (py! "," ++ x) = (items 0 x).map ([] :: ·) from fun x => by simp [items], ih]
        simp [prefixHead, defItems, hv]

theorem isEmpty_filterMap_id {α} : ∀ l : List α, (l.map some).filterMap id = l
  | [] => rfl
  | a :: l => by simp [isEmpty_filterMap_id l]

/-- what the items of the definitions of the columns are parsed as -/
theorem mapM_defItems {f : PyStr → Option (Option PyStr)} {T : TableDef} : ∀ {cs : List Column},
    (∀ c ∈ cs, f (columnText T c) = some (some c.name)) → (f [] = some none ∨ (cs ≠ [] ∧ ∀ c ∈ cs, c.isVirtual = false)) →
    ∃ rs, (defItems T cs []).mapM f = some rs ∧ rs.filterMap id = (cs.filter (!·.isVirtual)).map (·.name)
  | [], _, h => by
    have : f [] = some none := by simpa using h
    exact ⟨[none], by simp [defItems, this], by simp⟩
  | c :: cs, hf, h => by
    have hf' : ∀ d ∈ cs, f (columnText T d) = some (some d.name) := fun d hd => hf d (by simp [hd])
    cases hv : c.isVirtual with
    | true =>
      have h' : f [] = some none := by
        rcases h with h | h
        · exact h
        · simp [h.2 c (by simp)] at hv
      obtain ⟨rs, h1, h2⟩ := mapM_defItems hf' (.inl h')
      exact ⟨rs, by simpa [defItems, hv] using h1, by simpa [hv] using h2⟩
    | false =>
      cases cs with
      | nil => exact ⟨[some c.name], by simp [defItems, hv, hf c (by simp)], by simp [hv]⟩
      | cons c2 cs =>
        have h' : f [] = some none ∨ (c2 :: cs ≠ [] ∧ ∀ d ∈ c2 :: cs, d.isVirtual = false) := by
          rcases h with h | h
          · exact .inl h
          · exact .inr ⟨by simp, fun d hd => h.2 d (List.mem_cons_of_mem _ hd)⟩
        obtain ⟨rs, h1, h2⟩ := mapM_defItems hf' h'
        refine ⟨some c.name :: rs, ?_, ?_⟩
        · rw [defItems, hv]
          simp only [Bool.false_eq_true, if_false, List.isEmpty_cons, List.mapM_cons, hf c (by simp), h1]
          rfl
        · rw [List.filter_cons_of_pos (by simp [hv]), List.map_cons, ← h2]; rfl

/-- the text between the parentheses -/
def createBody (T : TableDef) : PyStr :=
  SqlTable.columnDefinitions T T.columns ++
    ((if SqlTable.hasNonVirtualColumn T && T.constraint.isSome then py! ", " else []) ++ T.constraint.getD [])

theorem mapM_none {f : PyStr → Option (Option PyStr)} : ∀ {ps : List PyStr}, (∀ p ∈ ps, f p = some none) →
    ∃ rs : List (Option PyStr), ps.mapM f = some rs ∧ rs.filterMap id = []
  | [], _ => ⟨[], by simp, rfl⟩
  | p :: ps, h => by
    obtain ⟨rs, h1, h2⟩ := mapM_none fun q hq => h q (List.mem_cons_of_mem _ hq)
    exact ⟨none :: rs, by simp [h p (by simp), h1], by simpa using h2⟩

theorem trim_blank (s : PyStr) : trim (ch! ' ' :: s) = trim s := by simp [trim]

theorem blankItem (s : PyStr) : parseItem (ch! ' ' :: s) = parseItem s := by simp [parseItem, trim_blank]
theorem blankArgument (s : PyStr) : parseArgument (ch! ' ' :: s) = parseArgument s := by simp [parseArgument, trim_blank]

theorem noDefinitions (T : TableDef) : ∀ cs : List Column, (∀ c ∈ cs, c.isVirtual = true) → SqlTable.columnDefinitions T cs = []
  | [], _ => rfl
  | c :: cs, h => by
    simp [SqlTable.columnDefinitions, h c (by simp), noDefinitions T cs fun d hd => h d (by simp [hd])]

/-- the items of the text between the parentheses, and what they are parsed as -/
theorem body_columns {T : SqlTable} (hn : Named T) (hd : Declared T) {f : PyStr → Option (Option PyStr)}
    (hcol : ∀ c ∈ T.type.columns, f (columnText T.type c) = some (some c.name)) (hblank : ∀ s, f (ch! ' ' :: s) = f s)
    (hempty : f [] = some none ∨ (∀ c ∈ T.type.columns, c.isVirtual = false))
    (hcon : ∀ text, T.type.constraint = some text → ∃ parts, items 0 text = some parts ∧ ∀ p ∈ parts, f p = some none) :
    ∃ is rs, items 0 (createBody T.type) = some is ∧ is.mapM f = some rs ∧ rs.filterMap id = declaredNames T := by
  have hempty' : f [] = some none ∨ (T.type.columns ≠ [] ∧ ∀ c ∈ T.type.columns, c.isVirtual = false) :=
    hempty.imp id fun h => ⟨hn.nonempty, h⟩
  obtain ⟨rs, h1, h2⟩ := mapM_defItems hcol hempty'
  cases hk : T.type.constraint with
  | none =>
    refine ⟨defItems T.type T.type.columns [], rs, ?_, h1, h2⟩
    have := items_definitions hn hd (s := []) (w := []) (ws := []) (by simp [items]) T.type.columns fun _ h => h
    simpa [createBody, hk] using this
  | some text =>
    obtain ⟨parts, hp, hnone⟩ := hcon text hk
    cases hnv : SqlTable.hasNonVirtualColumn T.type with
    | true =>
      cases parts with
      | nil => exact absurd hp (items_ne_nil _ _)
      | cons p ps =>
        have hs : items 0 (py! ", " ++ text) = some ([] :: (ch! ' ' :: p) :: ps) := by
          rw [show py! ", " ++ text = ch! ',' :: (py! " " ++ text) from rfl, items, if_pos ⟨rfl, rfl⟩,
            items_append text (py! " ") 0 (by decide), hp]
          rfl
        obtain ⟨qs, g1, g2⟩ := mapM_none (f := f) (ps := (ch! ' ' :: p) :: ps) (by
          intro q hq
          rcases List.mem_cons.mp hq with rfl | hq
          · rw [hblank]; exact hnone p (by simp)
          · exact hnone q (by simp [hq]))
        refine ⟨defItems T.type T.type.columns [] ++ ((ch! ' ' :: p) :: ps), rs ++ qs, ?_, ?_, ?_⟩
        · have := items_definitions hn hd hs T.type.columns fun _ h => h
          simpa [createBody, hk, hnv] using this
        · rw [List.mapM_append, h1, g1]; rfl
        · rw [List.filterMap_append, g2, h2, List.append_nil]; rfl
    | false =>
      have hvirt : ∀ c ∈ T.type.columns, c.isVirtual = true := by
        intro c hc
        simp only [SqlTable.hasNonVirtualColumn, List.any_eq_false] at hnv
        simpa using hnv c hc
      obtain ⟨qs, g1, g2⟩ := mapM_none hnone
      refine ⟨parts, qs, ?_, g1, ?_⟩
      · simpa [createBody, hk, hnv, noDefinitions T.type _ hvirt] using hp
      · rw [g2, declaredNames]
        symm
        rw [List.map_eq_nil_iff, List.filter_eq_nil_iff]
        intro c hc
        simp [hvirt c hc]

theorem body_parens (s : PyStr) : body (py! "(" ++ s ++ py! ")") = some s := by
  unfold body
  rw [show py! "(" ++ s ++ py! ")" = py! "(" ++ (s ++ py! ")") from by simp, after_append]
  simp [after]

theorem createText_eq (T : SqlTable) : T.createText = (if T.type.virtualUsing.isSome then py! "CREATE VIRTUAL TABLE " else py! "CREATE TABLE ") ++
    T.nameInQuery ++ (match T.type.virtualUsing with
      | some m => py! " USING " ++ m
      | none => []) ++
    if SqlTable.hasNonVirtualColumn T.type || T.type.constraint.isSome then py! "(" ++ createBody T.type ++ py! ")" else [] := by
  unfold SqlTable.createText createBody
  cases hv : T.type.virtualUsing with
  | none =>
    simp only [Option.isSome_none, Bool.false_eq_true, if_false]
    split <;> simp
  | some m =>
    simp only [Option.isSome_some, if_true]
    split <;> simp

theorem nonVirtual_of_ordinary {T : SqlTable} (hn : Named T) (hd : Declared T) (hv : T.type.virtualUsing = none) :
    SqlTable.hasNonVirtualColumn T.type = true := by
  obtain ⟨c, hc⟩ := List.exists_mem_of_ne_nil _ hn.nonempty
  simp only [SqlTable.hasNonVirtualColumn, List.any_eq_true]
  exact ⟨c, hc, by simp [((hd.ordinary hv).1 c hc).1]⟩

theorem parse_createText_ordinary {T : SqlTable} (hn : Named T) (hd : Declared T) (hv : T.type.virtualUsing = none) (without : Bool) :
    parse (T.createText ++ if without then py! " WITHOUT ROWID" else []) = some (.create (refOf T) (declaredNames T) none without) := by
  obtain ⟨is, rs, h1, h2, h3⟩ := body_columns hn hd (f := parseItem)
    (fun c hc => parseItem_columnText T.type (hn.columns c hc) ((hd.ordinary hv).1 c hc).2) blankItem
    (.inr fun c hc => ((hd.ordinary hv).1 c hc).1) (hd.ordinary hv).2
  have hcols : parseColumns (py! "(" ++ createBody T.type ++ py! ")") = some (declaredNames T) := by
    rw [parseColumns, body_parens]
    simpa [h1, h2] using h3
  have hup : ∀ s, upTo [ch! '('] (T.nameInQuery ++ (py! "(" ++ s)) = (T.nameInQuery, py! "(" ++ s) := fun s =>
    upTo_append (nameInQuery_stop hn (by decide)) (by simp) s
  rw [createText_eq, hv, nonVirtual_of_ordinary hn hd hv]
  simp only [Option.isSome_none, Bool.false_eq_true, if_false, Bool.true_or, if_true, List.append_nil, List.append_assoc]
  rw [parse_create, parseCreate, hup]
  simp only
  cases without with
  | true =>
    have : after (py! " WITHOUT ROWID").reverse (py! "(" ++ (createBody T.type ++ (py! ")" ++ py! " WITHOUT ROWID"))).reverse =
        some (py! "(" ++ createBody T.type ++ py! ")").reverse := by
      rw [show py! "(" ++ (createBody T.type ++ (py! ")" ++ py! " WITHOUT ROWID")) = (py! "(" ++ createBody T.type ++ py! ")") ++ py! " WITHOUT ROWID"
        by simp, List.reverse_append, after_append]
    simp only [if_true]
    rw [this]
    simp only [List.reverse_reverse]
    rw [hcols]
    simp [parseTable_name hn]
  | false =>
    have : after (py! " WITHOUT ROWID").reverse (py! "(" ++ (createBody T.type ++ py! ")")).reverse = none := by
      simp [after]
    simp only [Bool.false_eq_true, if_false, List.append_nil]
    rw [this]
    simp only
    rw [← List.append_assoc, hcols]
    simp [parseTable_name hn]

theorem parse_createText_virtual {T : SqlTable} (hn : Named T) (hd : Declared T) {m : PyStr} (hv : T.type.virtualUsing = some m) :
    ∃ arguments, parse T.createText = some (.create (refOf T) (declaredNames T) (some (m, arguments)) false) := by
  obtain ⟨hm, hw, hcon⟩ := hd.virtualTable m hv
  obtain ⟨is, rs, h1, h2, h3⟩ := body_columns hn hd (f := parseArgument)
    (fun c hc => parseArgument_columnText T.type (hn.columns c hc)) blankArgument (.inl (by decide)) hcon
  have hup : ∀ s, upTo [ch! ' '] (T.nameInQuery ++ (py! " USING " ++ s)) = (T.nameInQuery, py! " USING " ++ s) := fun s =>
    upTo_append (nameInQuery_stop hn (by decide)) (by simp) _
  rw [createText_eq, hv]
  simp only [Option.isSome_some, if_true, List.append_assoc]
  rw [parse_createVirtual, parseCreateVirtual, hup]
  simp only [after_append]
  by_cases hb : (SqlTable.hasNonVirtualColumn T.type || T.type.constraint.isSome) = true
  · refine ⟨createBody T.type, ?_⟩
    have hup2 : ∀ s, upTo [ch! '('] (m ++ (py! "(" ++ s)) = (m, py! "(" ++ s) := fun s =>
      upTo_append (isName_stop hm (by decide)) (by simp) _
    rw [if_pos hb]
    simp only [Option.bind_eq_bind, Option.bind_some]
    rw [hup2]
    simp only [hm, Bool.not_true, Bool.false_eq_true, if_false]
    rw [if_neg (by simp), ← List.append_assoc, body_parens]
    simpa [parseTable_name hn, parseArguments, h1, h2] using h3
  · refine ⟨[], ?_⟩
    rw [if_neg hb]
    simp only [List.append_nil, Option.bind_eq_bind, Option.bind_some]
    rw [upTo_all (isName_stop hm (by decide))]
    have : declaredNames T = [] := by
      rw [declaredNames, List.map_eq_nil_iff, List.filter_eq_nil_iff]
      intro c hc
      have := hb
      simp only [Bool.or_eq_true, not_or, Bool.not_eq_true, SqlTable.hasNonVirtualColumn, List.any_eq_false] at this
      simpa using this.1 c hc
    simp [hm, parseTable_name hn, this]

end Zserio.Sql
