import Verif.Lemmas.SqlText
import Verif.Props.Compound
/- Lemmas about the values and the rows of SQL tables. -/
set_option linter.unusedSimpArgs false
set_option linter.unusedVariables false
namespace Zserio.Sql

variable {E : Engine} {provider : Provider} {raw : List Val}

/-! ### Values -/

theorem evalArgs_means {raw earlier : List Val} : ∀ {args : List ColumnArg} {ps : List Int},
    List.Forall₂ (ColumnArg.Means provider raw earlier) args ps → ColumnKind.evalArgs provider raw earlier args = .ok ps
  | _, _, .nil => rfl
  | _, _, .cons (a := a) h hs => by
    have ih := evalArgs_means hs
    cases a with
    | explicit name =>
      simp only [ColumnArg.Means] at h
      simp [ColumnKind.evalArgs, h, ih, ok_bind]
    | expr f =>
      simp only [ColumnArg.Means] at h
      simp [ColumnKind.evalArgs, h, ih, ok_bind]

theorem call_item {e : EnumClass} {i : EnumItem} (hi : i ∈ e.items) : ∃ r, EnumClass.call e i.value = .ok r ∧ EnumClass.value r.1 = i.value := by
  unfold EnumClass.call
  cases hf : (List.finRange e.items.length).find? fun m => decide (EnumClass.value (e := e) m = i.value) with
  | none =>
    rw [List.find?_eq_none] at hf
    obtain ⟨k, hk, he⟩ := List.getElem_of_mem hi
    exact absurd (by simp [EnumClass.value, he]) (hf ⟨k, hk⟩ (by simp))
  | some m =>
    have := List.find?_some hf
    simp only [decide_eq_true_eq] at this
    exact ⟨_, rfl, this⟩

theorem object_read {defs : Schema} {closed : Nat → Bool} {n id : Nat} {params : List Int} {x x' : Val} {w : Writer}
    (hl : defs.Layout closed) (hw : (defs.codec n id).writeTo x Writer.init = (.ok (), w)) (hc : closed id = true ∨ w.pos % 8 = 0)
    (hp : x.params = .ok params) (hx : defs.StoredAs n id x x') :
    ∃ r, Reader.make w.bytes = .ok r ∧ ((defs.codec n id).fromReader params r).1 = .ok x' := by
  rw [Writer.init_eq] at hw
  obtain ⟨bs, rfl, -, h3⟩ := (defs.lawful closed hl n id).plain hw
  have htail : closed id = true ∨ zeros (padLen ([] ++ bs).length) = [] := by
    rcases hc with hc | hc
    · exact .inl hc
    · refine .inr ?_
      have : padLen ([] ++ bs).length = 0 := by
        simp only [List.nil_append, Writer.ofBits] at hc ⊢
        simp only [padLen]; omega
      rw [this]; rfl
  have hpar := h3 params x' hx hp _ htail
  simp only [List.nil_append, List.length_nil] at hpar ⊢
  have hlen := congrArg List.length (bytesBits_packBits bs)
  rw [bytesBits_length] at hlen
  refine ⟨⟨packBits bs, (packBits bs).length * 8, 0⟩, rfl, ?_⟩
  refine Reader.Parses.run hpar ?_ ?_ rfl
  · simp only [← bytesBits_packBits]
    simp
  · simp only
    rw [← hlen]; push_cast; omega

theorem fits_write {earlier : List Val} {kind : ColumnKind} {v r w : Val} (h : Fits E provider raw earlier kind v r w) :
    ∃ u x, kind.writeValue v = .ok u ∧ bind E u = .ok x ∧ x.toVal = r := by
  cases h with
  | null => exact ⟨.none, .null, by cases kind <;> rfl, rfl, rfl⟩
  | int h1 h2 => exact ⟨_, _, rfl, by simp only [bind]; rw [if_pos ⟨h1, h2⟩], rfl⟩
  | bool b => exact ⟨_, _, rfl, rfl, by cases b <;> rfl⟩
  | float x => exact ⟨_, _, rfl, rfl, rfl⟩
  | str s => exact ⟨_, _, rfl, rfl, rfl⟩
  | bytes b => exact ⟨_, _, rfl, rfl, rfl⟩
  | enum hi h1 h2 => exact ⟨_, _, rfl, by simp only [bind]; rw [if_pos ⟨h1, h2⟩], rfl⟩
  | bitmask _ _ h1 h2 => exact ⟨_, _, rfl, by simp only [bind]; rw [if_pos ⟨h1, h2⟩], rfl⟩
  | object hl hw _ _ _ => exact ⟨_, _, by simp [ColumnKind.writeValue, bytesOf, hw]; rfl, rfl, rfl⟩

theorem fits_read {earlier : List Val} {kind : ColumnKind} {v r w : Val} (h : Fits E provider raw earlier kind v r w) :
    kind.readValue provider raw earlier r = .ok w := by
  cases h with
  | null => cases kind <;> rfl
  | int h1 h2 => rfl
  | bool b => rfl
  | float x => rfl
  | str s => rfl
  | bytes b => rfl
  | enum hi h1 h2 =>
    obtain ⟨q, hq, he⟩ := call_item hi
    simp [ColumnKind.readValue, hq, Except.map, he]
  | bitmask h1 h2 _ _ =>
    simp only [ColumnKind.readValue, Bitmask.fromValue]
    rw [if_neg (by omega)]
    rfl
  | object hl hw hc hx ha =>
    obtain ⟨q, h1, h2⟩ := object_read hl hw hc rfl hx
    simp [ColumnKind.readValue, h1, ok_bind, evalArgs_means ha, h2]

theorem fits_plain {earlier : List Val} {v r w : Val} (h : Fits E provider raw earlier .plain v r w) : w = r := by
  cases h <;> rfl

theorem fits_none {earlier : List Val} {kind : ColumnKind} {r w : Val} (h : Fits E provider raw earlier kind .none r w) : r = .none := by
  cases h; rfl

/-! ### Rows -/

/-- the names of the columns which satisfy `sel` -/
abbrev namesOf (sel : Column → Bool) (cs : List Column) : List PyStr := (cs.filter sel).map (·.name)

theorem selectedNames_map (sel : Column → Bool) : ∀ cs : List Column, selectedNames cs (cs.map sel) = namesOf sel cs
  | [] => rfl
  | c :: cs => by
    cases h : sel c <;> simp [selectedNames, h, selectedNames_map sel cs, namesOf]

/-- what is stored for the columns which satisfy `sel` -/
inductive Stored (E : Engine) (sel : Column → Bool) : List Column → List Val → Row → Prop where
  | nil : Stored E sel [] [] []
  | take {c cs v vs u x xs} : sel c = true → c.kind.writeValue v = .ok u → bind E u = .ok x → Stored E sel cs vs xs →
    Stored E sel (c :: cs) (v :: vs) (x :: xs)
  | skip {c cs v vs xs} : sel c = false → Stored E sel cs vs xs → Stored E sel (c :: cs) (v :: vs) xs

theorem stored_length {sel : Column → Bool} {cs : List Column} {vs : List Val} {xs : Row} (h : Stored E sel cs vs xs) :
    xs.length = (namesOf sel cs).length := by
  induction h with
  | nil => rfl
  | take h1 _ _ _ ih => simpa [namesOf, h1] using ih
  | skip h1 _ ih => simpa [namesOf, h1] using ih

theorem bindAll_cons {v : Val} {vs : List Val} {ys : Row} (h : bindAll E (v :: vs) = .ok ys) :
    ∃ x xs, bind E v = .ok x ∧ bindAll E vs = .ok xs ∧ ys = x :: xs := by
  rw [bindAll] at h
  obtain ⟨x, hx, h⟩ := except_bind_ok h
  obtain ⟨xs, hxs, h⟩ := except_bind_ok h
  cases h
  exact ⟨x, xs, hx, hxs, rfl⟩

theorem writeRowLoop_stored {sel : Column → Bool} : ∀ (cs : List Column) (pre vs : List Val), vs.length = cs.length →
    ∀ {us : List Val} {xs : Row}, TableDef.writeRowLoop (pre ++ vs) cs (cs.map sel) pre.length = .ok us → bindAll E us = .ok xs →
      Stored E sel cs vs xs
  | [], pre, [], _, us, xs, h, hb => by
    simp only [TableDef.writeRowLoop, Except.ok.injEq] at h
    subst h
    cases hb
    exact .nil
  | c :: cs, pre, v :: vs, hlen, us, xs, h, hb => by
    have hlen' : vs.length = cs.length := by simpa using hlen
    have hget : (pre ++ v :: vs)[pre.length]? = some v := by simp
    have e1 : pre ++ v :: vs = (pre ++ [v]) ++ vs := by simp
    have e2 : (pre ++ [v]).length = pre.length + 1 := by simp
    cases hs : sel c with
    | true =>
      simp only [List.map_cons, hs, TableDef.writeRowLoop, if_true, hget] at h
      obtain ⟨u, hu, h⟩ := except_bind_ok h
      obtain ⟨us', hus, h⟩ := except_bind_ok h
      cases h
      obtain ⟨x, xs', hx, hxs, rfl⟩ := bindAll_cons hb
      rw [e1, ← e2] at hus
      exact .take hs hu hx (writeRowLoop_stored cs _ vs hlen' hus hxs)
    | false =>
      simp only [List.map_cons, hs, TableDef.writeRowLoop, Bool.false_eq_true, if_false] at h
      rw [e1, ← e2] at h
      exact .skip hs (writeRowLoop_stored cs _ vs hlen' h hb)

theorem stored_writeRowLoop {sel : Column → Bool} {cs : List Column} {vs : List Val} {xs : Row} (h : Stored E sel cs vs xs) :
    ∀ pre : List Val, ∃ us, TableDef.writeRowLoop (pre ++ vs) cs (cs.map sel) pre.length = .ok us ∧ bindAll E us = .ok xs := by
  induction h with
  | nil => exact fun pre => ⟨[], by simp [TableDef.writeRowLoop], rfl⟩
  | @take c cs v vs u x xs hs hu hx h ih =>
    intro pre
    obtain ⟨us, h1, h2⟩ := ih (pre ++ [v])
    have hget : (pre ++ v :: vs)[pre.length]? = some v := by simp
    refine ⟨u :: us, ?_, by simp [bindAll, hx, h2, ok_bind]⟩
    simp only [List.map_cons, hs, TableDef.writeRowLoop, if_true, hget, hu, ok_bind]
    rw [show pre ++ v :: vs = (pre ++ [v]) ++ vs by simp, show pre.length + 1 = (pre ++ [v]).length by simp, h1]
    rfl
  | @skip c cs v vs xs hs h ih =>
    intro pre
    obtain ⟨us, h1, h2⟩ := ih (pre ++ [v])
    refine ⟨us, ?_, h2⟩
    simp only [List.map_cons, hs, TableDef.writeRowLoop, Bool.false_eq_true, if_false]
    rw [show pre ++ v :: vs = (pre ++ [v]) ++ vs by simp, show pre.length + 1 = (pre ++ [v]).length by simp, h1]

theorem only_stored {sel : Column → Bool} : ∀ (cs : List Column) (vs : List Val), (∀ c ∈ cs, c.kind = .plain) → vs.length = cs.length →
    ∀ {xs : Row}, bindAll E (only sel cs vs) = .ok xs → Stored E sel cs vs xs
  | [], [], _, _, xs, h => by cases h; exact .nil
  | c :: cs, v :: vs, hk, hlen, xs, h => by
    have hlen' : vs.length = cs.length := by simpa using hlen
    cases hs : sel c with
    | true =>
      simp only [only, hs, if_true] at h
      obtain ⟨x, xs', hx, hxs, rfl⟩ := bindAll_cons h
      refine .take (u := v) hs ?_ hx (only_stored cs vs (fun d hd => hk d (by simp [hd])) hlen' hxs)
      rw [hk c (by simp)]
      rfl
    | false =>
      simp only [only, hs, Bool.false_eq_true, if_false] at h
      exact .skip hs (only_stored cs vs (fun d hd => hk d (by simp [hd])) hlen' h)

theorem stored_only {sel : Column → Bool} {cs : List Column} {vs : List Val} {xs : Row} (h : Stored E sel cs vs xs)
    (hk : ∀ c ∈ cs, c.kind = .plain) : bindAll E (only sel cs vs) = .ok xs := by
  induction h with
  | nil => rfl
  | @take c cs v vs u x xs hs hu hx h ih =>
    have : u = v := by
      rw [hk c (by simp)] at hu
      simp only [ColumnKind.writeValue, Except.ok.injEq] at hu
      exact hu.symm
    subst this
    simp [only, hs, bindAll, hx, ih (fun d hd => hk d (by simp [hd])), ok_bind]
  | @skip c cs v vs xs hs h ih => simp [only, hs, ih (fun d hd => hk d (by simp [hd]))]

theorem isPlain_iff {T : SqlTable} : isPlain T = true ↔ ∀ c ∈ T.type.columns, c.kind = .plain := by
  simp only [isPlain, List.all_eq_true]
  refine forall_congr' fun c => forall_congr' fun _ => ?_
  cases c.kind <;> simp

theorem needsRowConversion_eq (T : SqlTable) : T.type.needsRowConversion = !isPlain T := by
  simp only [TableDef.needsRowConversion, isPlain]
  induction T.type.columns with
  | nil => rfl
  | cons c cs ih =>
    rw [List.any_cons, List.all_cons, ih]
    cases hk : c.kind <;> simp [ColumnKind.converts]

/-- what a row which is passed is stored as -/
theorem writeRow_stored {T : SqlTable} {columns : Option (List PyStr)} {row us : List Val} {xs : Row}
    (hlen : row.length = T.type.columns.length)
    (h : T.type.writeRow (T.type.columns.map (chosen columns)) (passed T columns row) = .ok us) (hb : bindAll E us = .ok xs) :
    Stored E (chosen columns) T.type.columns row xs := by
  unfold TableDef.writeRow at h
  rw [needsRowConversion_eq] at h
  unfold passed at h
  cases hp : isPlain T with
  | true =>
    simp [hp] at h
    subst h
    exact only_stored _ _ (isPlain_iff.mp hp) hlen hb
  | false =>
    simp [hp] at h
    exact writeRowLoop_stored _ [] row hlen h hb

theorem stored_writeRow {T : SqlTable} {columns : Option (List PyStr)} {row : List Val} {xs : Row}
    (h : Stored E (chosen columns) T.type.columns row xs) :
    ∃ us, T.type.writeRow (T.type.columns.map (chosen columns)) (passed T columns row) = .ok us ∧ bindAll E us = .ok xs := by
  unfold TableDef.writeRow passed
  rw [needsRowConversion_eq]
  cases hp : isPlain T with
  | true => exact ⟨_, by simp, stored_only h (isPlain_iff.mp hp)⟩
  | false =>
    obtain ⟨us, h1, h2⟩ := stored_writeRowLoop h []
    exact ⟨us, by simpa using h1, h2⟩

/-! ### Reading -/

theorem valueOf_cons (n : PyStr) (ns : List PyStr) (x : SqlValue) (xs : Row) (m : PyStr) :
    valueOf (n :: ns) (x :: xs) m = if m = n then x else valueOf ns xs m := by
  unfold valueOf
  by_cases h : m = n
  · simp [h, List.lookup]
  · simp [h, List.lookup, List.zip_cons_cons, beq_false_of_ne h]

theorem valueOf_map {ns : List PyStr} (f : PyStr → SqlValue) {m : PyStr} (h : m ∈ ns) : valueOf ns (ns.map f) m = f m := by
  induction ns with
  | nil => simp at h
  | cons n ns ih =>
    rw [List.map_cons, valueOf_cons]
    split
    · rename_i e; rw [e]
    · rename_i e
      rcases List.mem_cons.mp h with h | h
      · exact absurd h e
      · exact ih h

theorem valueOf_notMem {ns : List PyStr} {xs : Row} {m : PyStr} (h : m ∉ ns) : valueOf ns xs m = .null := by
  induction ns generalizing xs with
  | nil => simp [valueOf]
  | cons n ns ih =>
    simp only [List.mem_cons, not_or] at h
    cases xs with
    | nil => simp [valueOf]
    | cons x xs => rw [valueOf_cons, if_neg h.1, ih h.2]

theorem namesOf_sub {sel : Column → Bool} {cs : List Column} {m : PyStr} (h : m ∈ namesOf sel cs) : m ∈ cs.map (·.name) := by
  simp only [namesOf, List.mem_map, List.mem_filter] at h ⊢
  obtain ⟨c, ⟨hc, _⟩, e⟩ := h
  exact ⟨c, hc, e⟩

/-- what SQLite hands out for a row which has been stored -/
theorem stored_raw {selw selr : Column → Bool} {cs : List Column} (hd : (cs.map (·.name)).Nodup) {vs : List Val} {xs : Row}
    (hs : Stored E selw cs vs xs) : ∀ {earlier rs ws : List Val}, RowFits E provider raw selr earlier cs (mask selw cs vs) rs ws →
      (namesOf selr cs).map (fun n => (valueOf (namesOf selw cs) xs n).toVal) = rs := by
  induction hs with
  | nil =>
    intro earlier rs ws h
    cases h
    rfl
  | @take c cs v vs u x xs hw hu hx hs ih =>
    intro earlier rs ws h
    simp only [List.map_cons, List.nodup_cons] at hd
    have htail : ∀ n ∈ namesOf selr cs, (valueOf (namesOf selw (c :: cs)) (x :: xs) n).toVal = (valueOf (namesOf selw cs) xs n).toVal := by
      intro n hn
      have : n ≠ c.name := fun e => hd.1 (e ▸ namesOf_sub hn)
      rw [show namesOf selw (c :: cs) = c.name :: namesOf selw cs by simp [namesOf, hw], valueOf_cons, if_neg this]
    simp only [mask, hw, if_true] at h
    cases h with
    | chosen hr hf h =>
      rw [show namesOf selr (c :: cs) = c.name :: namesOf selr cs by simp [namesOf, hr], List.map_cons, List.map_congr_left htail,
        ih hd.2 h, show namesOf selw (c :: cs) = c.name :: namesOf selw cs by simp [namesOf, hw], valueOf_cons, if_pos rfl]
      obtain ⟨u', x', h1, h2, h3⟩ := fits_write hf
      rw [hu] at h1
      cases h1
      rw [hx] at h2
      cases h2
      rw [h3]
    | other hr h =>
      rw [show namesOf selr (c :: cs) = namesOf selr cs by simp [namesOf, hr], List.map_congr_left htail, ih hd.2 h]
  | @skip c cs v vs xs hw hs ih =>
    intro earlier rs ws h
    simp only [List.map_cons, List.nodup_cons] at hd
    rw [show namesOf selw (c :: cs) = namesOf selw cs by simp [namesOf, hw]]
    simp only [mask, hw, Bool.false_eq_true, if_false] at h
    cases h with
    | chosen hr hf h =>
      rw [show namesOf selr (c :: cs) = c.name :: namesOf selr cs by simp [namesOf, hr], List.map_cons, ih hd.2 h,
        valueOf_notMem (fun hm => hd.1 (namesOf_sub hm)), fits_none hf]
      rfl
    | other hr h =>
      rw [show namesOf selr (c :: cs) = namesOf selr cs by simp [namesOf, hr], ih hd.2 h]

theorem rowFits_readLoop {sel : Column → Bool} {cs : List Column} {earlier vs rs ws : List Val}
    (h : RowFits E provider raw sel earlier cs vs rs ws) : ∀ pre, raw = pre ++ rs →
      TableDef.readRowLoop provider raw cs (cs.map sel) pre.length earlier = .ok (earlier ++ ws) := by
  induction h with
  | nil => intro pre _; simp [TableDef.readRowLoop]
  | @chosen earlier c cs v r w vs rs ws hs hf h ih =>
    intro pre he
    have hget : raw[pre.length]? = some r := by simp [he]
    have := ih (pre ++ [r]) (by simp [he])
    simp only [List.length_append, List.length_singleton, List.append_assoc, List.singleton_append] at this
    simp only [List.map_cons, hs, TableDef.readRowLoop, if_true, hget, fits_read hf, ok_bind, this]
  | @other earlier c cs v vs rs ws hs h ih =>
    intro pre he
    have := ih pre he
    simp only [List.append_assoc, List.singleton_append] at this
    simp only [List.map_cons, hs, TableDef.readRowLoop, Bool.false_eq_true, if_false, this]

theorem rowFits_only {sel : Column → Bool} {cs : List Column} {earlier vs rs ws : List Val}
    (h : RowFits E provider raw sel earlier cs vs rs ws) (hk : ∀ c ∈ cs, c.kind = .plain) : only sel cs ws = rs := by
  induction h with
  | nil => rfl
  | @chosen earlier c cs v r w vs rs ws hs hf h ih =>
    rw [hk c (by simp)] at hf
    simp [only, hs, fits_plain hf, ih fun d hd => hk d (by simp [hd])]
  | @other earlier c cs v vs rs ws hs h ih => simp [only, hs, ih fun d hd => hk d (by simp [hd])]

/-- what is read for the values handed out by SQLite -/
theorem rowFits_readRow {T : SqlTable} {columns : Option (List PyStr)} {vs ws : List Val}
    (h : RowFits E provider raw (chosen columns) [] T.type.columns vs raw ws) :
    T.type.readRow provider (T.type.columns.map (chosen columns)) raw = .ok (returned T columns ws) := by
  unfold TableDef.readRow returned
  rw [needsRowConversion_eq]
  cases hp : isPlain T with
  | true => simp [rowFits_only h (isPlain_iff.mp hp)]
  | false => simpa using rowFits_readLoop h [] rfl

end Zserio.Sql
