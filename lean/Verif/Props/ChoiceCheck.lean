import Verif.Model.JsonText
import Verif.Spec.ChoiceCheck
import Mathlib.Data.List.Perm.Basic
import Mathlib.Data.List.Nodup
set_option linter.unusedSimpArgs false
/-
C84: which branch of a choice is taken.
-/
namespace Zserio.ChoiceCheck

/-! ### Lemmas -/

theorem forExprs_ok {check : CaseExpr → Except Refusal Unit} {es : List CaseExpr} :
    forExprs check es = .ok () ↔ ∀ e ∈ es, check e = .ok () := by
  induction es with
  | nil => simp [forExprs]
  | cons e es ih =>
    unfold forExprs
    rcases h : check e with r | u
    · simp [h]
    · simp [h, ih]

theorem checkDuplicated_ok {es : List CaseExpr} : ∀ {seen : List CaseExpr},
    checkDuplicated seen es = .ok () ↔
      (∀ e ∈ es, ∀ o ∈ seen, equals e o = false) ∧ es.Pairwise (fun o e => equals e o = false) := by
  induction es with
  | nil => simp [checkDuplicated]
  | cons e es ih =>
    intro seen
    unfold checkDuplicated
    by_cases h : seen.any (equals e ·) = true
    · simp only [h, if_true, reduceCtorEq, false_iff, List.mem_cons, forall_eq_or_imp, not_and]
      rintro ⟨h1, -⟩
      simp only [List.any_eq_true] at h
      obtain ⟨o, ho, he⟩ := h
      simp [h1 o ho] at he
    · rw [if_neg h, ih]
      simp only [List.any_eq_true, not_exists, not_and, Bool.not_eq_true] at h
      simp only [List.mem_append, List.mem_cons, List.not_mem_nil, or_false, forall_eq_or_imp, List.pairwise_cons]
      constructor
      · rintro ⟨h1, h2⟩
        exact ⟨⟨h, fun e' he' o ho => h1 e' he' o (.inl ho)⟩, fun e' he' => h1 e' he' e (.inr rfl), h2⟩
      · rintro ⟨⟨-, h1⟩, h2, h3⟩
        refine ⟨fun e' he' o ho => ?_, h3⟩
        rcases ho with ho | rfl
        · exact h1 e' he' o ho
        · exact h2 e' he'

theorem bind_ok' {α β : Type} {x : Except Refusal α} {f : α → Except Refusal β} {y : β} :
    (x >>= f) = .ok y ↔ ∃ a, x = .ok a ∧ f a = .ok y := by
  cases x with
  | error e => simp [Bind.bind, Except.bind]
  | ok a => simp [Bind.bind, Except.bind]

theorem check_ok {d : ChoiceDecl} {u : Bool} : check d = .ok u ↔
    checkUnreachableDefault d = .ok u ∧ checkSelector d = .ok () ∧ (∀ e ∈ allExprs d, checkCaseType d.selector e = .ok ()) ∧
      (∀ e ∈ allExprs d, checkItems d.selector e = .ok ()) ∧
      (allExprs d).Pairwise (fun o e => equals e o = false) := by
  unfold check
  simp only [bind_ok', ← forExprs_ok]
  constructor
  · rintro ⟨u', h1, ⟨⟩, h2, ⟨⟩, h3, ⟨⟩, h4, ⟨⟩, h5, h6⟩
    simp only [Except.ok.injEq] at h6
    subst h6
    exact ⟨h1, h2, h3, h4, (checkDuplicated_ok.mp h5).2⟩
  · rintro ⟨h1, h2, h3, h4, h5⟩
    exact ⟨u, h1, (), h2, (), h3, (), h4, (), checkDuplicated_ok.mpr ⟨by simp, h5⟩, rfl⟩

theorem distinct_iff {d : ChoiceDecl} (hf : Faithful d) :
    (allExprs d).Pairwise (fun o e => equals e o = false) ↔ Distinct d := by
  unfold Distinct List.Nodup
  rw [List.pairwise_map]
  unfold allExprs
  apply List.Pairwise.iff_of_mem
  intro o e ho he
  constructor
  · intro h hv
    obtain ⟨h1, h2⟩ := (hf e he o ho).1.mp hv.symm
    unfold equals at h
    rcases hi : e.integer with _ | v
    · simp [hi, h2 hi] at h
    · rw [hi] at h1
      simp [hi, ← h1] at h
  · intro h
    unfold equals
    rcases hi : e.integer with _ | v
    · simp only [decide_eq_false_iff_not]
      exact fun ht => h ((hf e he o ho).2 ht).symm
    · simp only [decide_eq_false_iff_not]
      exact fun ho' => h ((hf e he o ho).1.mpr ⟨by rw [hi, ho'], by simp [hi]⟩).symm

/-! ### Execution -/

/-- the case that lists the value first -/
def firstCase (ks : List CaseDecl) (s : Int) : Option CaseDecl := ks.find? fun k => decide (s ∈ k.exprs.map (·.value))

theorem lists_iff {k : CaseDecl} {s : Int} : k.Lists s ↔ s ∈ k.exprs.map (·.value) := by
  simp [CaseDecl.Lists]

theorem execute_cases (tail : List Clause) (s : Int) : ∀ (first : Bool) (ks : List CaseDecl),
    execute (caseClauses false first ks ++ tail) s = match firstCase ks s with
      | some k => some (.member k.field)
      | none => execute tail s := by
  intro first ks
  induction ks generalizing first with
  | nil => rfl
  | cons k ks ih =>
    unfold caseClauses firstCase
    simp only [Bool.not_false, Bool.or_true, if_true, List.cons_append]
    by_cases hs : s ∈ k.exprs.map (·.value)
    · cases first <;> simp only [Bool.false_eq_true, if_false, if_true, execute, hs, List.find?_cons, decide_true]
    · have := ih false
      unfold firstCase at this
      cases first <;> simp only [Bool.false_eq_true, if_false, if_true, execute, hs, List.find?_cons, decide_false, this]

theorem restParses_cases (a : Action) : ∀ (ks : List CaseDecl),
    restParses (caseClauses false false ks ++ [.otherwise a]) = true := by
  intro ks
  induction ks with
  | nil => rfl
  | cons k ks ih =>
    unfold caseClauses
    simpa [restParses] using ih

theorem firstCase_some {d : ChoiceDecl} (hd : Distinct d) {s : Int} {k : CaseDecl} (hk : k ∈ d.cases) (hl : k.Lists s) :
    firstCase d.cases s = some k := by
  unfold Distinct at hd
  unfold firstCase
  generalize d.cases = ks at *
  induction ks with
  | nil => simp at hk
  | cons x xs ih =>
    simp only [List.flatMap_cons, List.map_append] at hd
    rw [List.nodup_append] at hd
    simp only [List.find?_cons]
    rcases List.mem_cons.mp hk with rfl | hk
    · simp [lists_iff.mp hl]
    · have : s ∉ x.exprs.map (·.value) := by
        intro hx
        obtain ⟨e, he, hes⟩ := hl
        exact hd.2.2 s hx s (List.mem_map.mpr ⟨e, List.mem_flatMap.mpr ⟨k, hk, he⟩, hes⟩) rfl
      simp only [this, decide_false]
      exact ih hd.2.1 hk

theorem firstCase_none {ks : List CaseDecl} {s : Int} : firstCase ks s = none ↔ ∀ k ∈ ks, ¬ k.Lists s := by
  unfold firstCase
  simp only [List.find?_eq_none, decide_eq_true_eq, lists_iff]

theorem prescribed_iff {d : ChoiceDecl} (hd : Distinct d) {s : Int} {a : Action} :
    Prescribed d s a ↔ a = match firstCase d.cases s with
      | some k => .member k.field
      | none => match d.default with
        | some f => .member f
        | none => .noMatch := by
  rcases h : firstCase d.cases s with _ | k
  · have := firstCase_none.mp h
    constructor
    · rintro (⟨k, hk, hl, -⟩ | ⟨-, ha⟩)
      · exact absurd hl (this k hk)
      · exact ha
    · exact fun ha => .inr ⟨this, ha⟩
  · have hmem : k ∈ d.cases := List.mem_of_find?_eq_some h
    have hl : k.Lists s := lists_iff.mpr (by simpa using List.find?_some h)
    constructor
    · rintro (⟨k', hk', hl', rfl⟩ | ⟨hn, -⟩)
      · have := firstCase_some hd hk' hl'
        rw [h] at this
        simp only [Option.some.injEq] at this
        rw [this]
      · exact absurd hl (hn k hmem)
    · rintro rfl
      exact .inl ⟨k, hmem, hl, rfl⟩

/-! ### C84 -/

/-- **C84.** An accepted choice lists no value twice, provided that the compiler can compare the expressions. -/
theorem C84_distinct_partial (d : ChoiceDecl) (u : Bool) (h : check d = .ok u) (hf : Faithful d) : Distinct d :=
  (distinct_iff hf).mp (check_ok.mp h).2.2.2.2

/-- **C84.** The generated code of an accepted choice is valid, and takes the branch which the language prescribes for the value
of the selector, provided that the compiler can compare the expressions, and that a choice on a `bool` has one value in each
case. -/
theorem C84_selects_partial (d : ChoiceDecl) (u : Bool) (h : check d = .ok u) (hf : Faithful d) (hw : Written d)
    (hb : d.selector = .boolean → ∀ k ∈ d.cases, k.exprs.length = 1) :
    parses (clauses u d) = true ∧
    ∀ s, Possible d s → ∀ a, execute (clauses u d) s = some a ↔ Prescribed d s a := by
  have hd := C84_distinct_partial d u h hf
  have hu := (check_ok.mp h).1
  cases u with
  | false =>
    constructor
    · unfold clauses
      simp only [Bool.false_eq_true, if_false]
      cases hc : d.cases with
      | nil => rfl
      | cons k ks => simpa [caseClauses, parses] using restParses_cases _ ks
    · intro s _ a
      rw [prescribed_iff hd]
      unfold clauses
      rw [execute_cases]
      rcases firstCase d.cases s with _ | k
      · rcases d.default with _ | f
        · simp only [Bool.false_eq_true, if_false]; split <;> simp [execute, eq_comm]
        · simp only [Bool.false_eq_true, if_false]; split <;> simp [execute, eq_comm]
      · simp [eq_comm]
  | true =>
    unfold checkUnreachableDefault at hu
    split at hu
    · next hsel =>
      obtain ⟨hsel, hlen⟩ := hsel
      split at hu
      · simp at hu
      · next hdef =>
        have hone := hb hsel
        unfold allExprs at hlen
        unfold Distinct at hd
        have hval : ∀ k ∈ d.cases, ∃ e, k.exprs = [e] ∧ (e.value = 0 ∨ e.value = 1) := by
          intro k hk
          obtain ⟨e, he⟩ := List.length_eq_one_iff.mp (hone k hk)
          exact ⟨e, he, (hw k hk).2 e (by simp [he]) hsel⟩
        obtain ⟨sel, cs, dflt⟩ := d
        simp only at hsel hdef hlen hd hval hone ⊢
        subst hsel
        have hno : dflt = none := by simpa using hdef
        subst hno
        match cs, hval, hd, hlen with
        | [], _, _, hlen => simp at hlen
        | [k1], hval, _, hlen =>
          obtain ⟨e1, h1, -⟩ := hval k1 (by simp)
          simp [h1] at hlen
        | [k1, k2], hval, hd, _ =>
          obtain ⟨e1, h1, v1⟩ := hval k1 (by simp)
          obtain ⟨e2, h2, v2⟩ := hval k2 (by simp)
          simp [h1, h2] at hd
          refine ⟨by rfl, fun s hs a => ?_⟩
          have hs : s = 0 ∨ s = 1 := hs rfl
          have hdist : Distinct ⟨.boolean, [k1, k2], none⟩ := by simp [Distinct, h1, h2, hd]
          rw [prescribed_iff hdist]
          simp only [clauses, caseClauses, execute, firstCase, List.find?_cons, h1, h2, List.map_cons, List.map_nil,
            List.mem_singleton, List.isEmpty_cons, Bool.not_false, Bool.true_or, if_true, List.isEmpty_nil, Bool.not_true,
            Bool.or_self, Bool.false_eq_true, if_false, List.append_nil]
          by_cases hs1 : s = e1.value
          · simp [hs1, eq_comm]
          · have hs2 : s = e2.value := by omega
            subst hs2
            simp only [hs1, if_false, decide_false, decide_true, Option.some.injEq]
            exact eq_comm
        | k1 :: k2 :: k3 :: ks, hval, hd, _ =>
          exfalso
          obtain ⟨e1, h1, v1⟩ := hval k1 (by simp)
          obtain ⟨e2, h2, v2⟩ := hval k2 (by simp)
          obtain ⟨e3, h3, v3⟩ := hval k3 (by simp)
          simp [h1, h2, h3] at hd
          omega
    · simp at hu

/-- **C84.** The order of the cases does not matter. -/
theorem C84_order_partial (d d' : ChoiceDecl) (u : Bool) (h : check d = .ok u) (hf : Faithful d) (hw : Written d)
    (hb : d.selector = .boolean → ∀ k ∈ d.cases, k.exprs.length = 1)
    (hp : d'.cases.Perm d.cases) (hs : d'.selector = d.selector) (hdf : d'.default = d.default) :
    check d' = .ok u ∧ parses (clauses u d') = true ∧
    ∀ s, Possible d s → execute (clauses u d') s = execute (clauses u d) s := by
  have hpe : (allExprs d').Perm (allExprs d) := hp.flatMap_right _
  have hf' : Faithful d' := fun e he e' he' => hf e (hpe.mem_iff.mp he) e' (hpe.mem_iff.mp he')
  have hc := check_ok.mp h
  have hdist' : Distinct d' := ((hp.flatMap_right _).map _).nodup_iff.mpr (C84_distinct_partial d u h hf)
  have h' : check d' = .ok u := by
    refine check_ok.mpr ⟨?_, ?_, ?_, ?_, (distinct_iff hf').mpr hdist'⟩
    · rw [← hc.1]; unfold checkUnreachableDefault; rw [hs, hdf, hpe.length_eq]
    · rw [← hc.2.1]; unfold checkSelector; rw [hs]
    · intro e he; rw [hs]; exact hc.2.2.1 e (hpe.mem_iff.mp he)
    · intro e he; rw [hs]; exact hc.2.2.2.1 e (hpe.mem_iff.mp he)
  have hw' : Written d' := by
    intro k hk
    have := hw k (hp.mem_iff.mp hk)
    exact ⟨this.1, fun e he hb => this.2 e he (hs ▸ hb)⟩
  have hsel := C84_selects_partial d u h hf hw hb
  have hsel' := C84_selects_partial d' u h' hf' hw' (fun hb' k hk => hb (hs ▸ hb') k (hp.mem_iff.mp hk))
  refine ⟨h', hsel'.1, fun s hpos => ?_⟩
  apply Option.ext
  intro a
  rw [hsel.2 s hpos a, hsel'.2 s (fun hb => hpos (hs ▸ hb)) a]
  unfold Prescribed
  simp only [hp.mem_iff, hdf]

/-! ### The schemas of Model/Schema.lean -/

/-- a case with the values of its expressions -/
def caseDef (k : CaseDecl) : CaseDef := ⟨k.exprs.map (·.value), k.field⟩

/-- the cases as Model/Schema.lean has them: the last case is the default if the compiler regards the default as unreachable -/
def caseDefs (u : Bool) (d : ChoiceDecl) : List CaseDef := ((if u then d.cases.dropLast else d.cases).map caseDef)

/-- the default, see `caseDefs` -/
def defaultDef (u : Bool) (d : ChoiceDecl) : Option (Option FieldDef) := if u then d.cases.getLast?.map (·.field) else d.default

/-- the action for a result of `Choice.selectCase` -/
def actionOf : Except Err (Option FieldDef × Nat) → Action
  | .ok (f, _) => .member f
  | .error _ => .noMatch

theorem selectCase_execute (dflt : Option (Option FieldDef)) (s : Int) (a : Action)
    (ha : a = match dflt with
      | some f => .member f
      | none => .noMatch) : ∀ (ks : List CaseDecl) (n : Nat),
    actionOf (Choice.selectCase (ks.map caseDef) dflt n s) = match firstCase ks s with
      | some k => .member k.field
      | none => a := by
  intro ks
  induction ks with
  | nil => intro n; rcases dflt with _ | f <;> simp [Choice.selectCase, firstCase, actionOf, ha]
  | cons k ks ih =>
    intro n
    simp only [List.map_cons, Choice.selectCase, firstCase, List.find?_cons, caseDef]
    by_cases hs : s ∈ k.exprs.map (·.value)
    · simp only [hs, if_true, decide_true, actionOf]
    · simp only [hs, if_false, decide_false]
      exact ih (n + 1)

theorem execute_unreachable (s : Int) : ∀ (ks : List CaseDecl) (first : Bool), ks ≠ [] →
    execute (caseClauses true first ks) s = some (match firstCase ks.dropLast s with
      | some k => .member k.field
      | none => match ks.getLast? with
        | some k => .member k.field
        | none => .noMatch) := by
  intro ks
  induction ks with
  | nil => intro _ h; exact absurd rfl h
  | cons k ks ih =>
    intro first _
    cases ks with
    | nil => rfl
    | cons k2 ks =>
      unfold caseClauses
      simp only [List.isEmpty_cons, Bool.not_false, Bool.true_or, if_true, List.dropLast_cons₂, firstCase, List.find?_cons,
        List.getLast?_cons_cons]
      have ih := ih false (by simp)
      unfold firstCase at ih
      by_cases hs : s ∈ k.exprs.map (·.value)
      · cases first <;> simp only [Bool.false_eq_true, if_false, if_true, execute, hs, decide_true]
      · cases first <;> simp only [Bool.false_eq_true, if_false, if_true, execute, hs, decide_false, ih]

/-- The selection in the codec of Model/Compound.lean is the branch that the generated code takes. -/
theorem C84_codec (d : ChoiceDecl) (u : Bool) (h : check d = .ok u) (s : Int) :
    execute (clauses u d) s = some (actionOf (Choice.selectCase (caseDefs u d) (defaultDef u d) 1 s)) := by
  cases u with
  | false =>
    unfold caseDefs defaultDef clauses
    rw [execute_cases]
    simp only [Bool.false_eq_true, if_false]
    rw [selectCase_execute d.default s _ rfl]
    rcases firstCase d.cases s with _ | k
    · rcases d.default with _ | f
      · simp only; split <;> rfl
      · simp only; split <;> rfl
    · rfl
  | true =>
    have hne : d.cases ≠ [] := by
      intro he
      have := (check_ok.mp h).1
      simp [checkUnreachableDefault, allExprs, he] at this
    unfold caseDefs defaultDef clauses
    simp only [if_true, List.append_nil]
    rw [execute_unreachable s _ _ hne, selectCase_execute _ s _ rfl]
    rcases firstCase d.cases.dropLast s with _ | k
    · rcases d.cases.getLast? with _ | k <;> rfl
    · rfl

/-! ### Samples -/

/-- `uint8` -/
def byteField : FieldDef := { type := .int (.bitField 8) }

/-- `string` -/
def textField : FieldDef := { type := .other .string }

/-- a number -/
def number (text : PyStr) (v : Int) : CaseExpr := { type := .integer, integer := some v, text := text, value := v }

/-- an expression of the type `bool` -/
def truth (text : PyStr) (v : Int) : CaseExpr := { type := .boolean, integer := none, text := text, value := v }

/-- `choice C(int32 p) on p { case 1: case 0x10: uint8 a; case 3: ; default: string b; };` -/
def numbers : ChoiceDecl :=
  ⟨.integer, [⟨[number (py! "1") 1, number (py! "0x10") 16], some byteField⟩, ⟨[number (py! "3") 3], none⟩], some (some textField)⟩

/-- `choice C(bool p) on p { case true: uint8 a; case false: string b; };` -/
def truths : ChoiceDecl :=
  ⟨.boolean, [⟨[truth (py! "true") 1], some byteField⟩, ⟨[truth (py! "false") 0], some textField⟩], none⟩

/-- The choices meet the hypotheses. -/
example : check numbers = .ok false ∧ Faithful numbers ∧ Written numbers ∧ check truths = .ok true ∧ Faithful truths ∧
    Written truths ∧ (∀ k ∈ truths.cases, k.exprs.length = 1) := by
  refine ⟨by rfl, ?_, ?_, by rfl, ?_, ?_, ?_⟩
  · intro e he e' he'
    simp only [numbers, List.flatMap_cons, List.flatMap_nil, List.cons_append, List.nil_append, List.append_nil, List.mem_cons,
      List.not_mem_nil, or_false] at he he'
    rcases he with rfl | rfl | rfl <;> rcases he' with rfl | rfl | rfl <;> simp [number] <;> decide
  · intro k hk
    simp only [numbers, List.mem_cons, List.not_mem_nil, or_false] at hk
    rcases hk with rfl | rfl <;> simp [Possible, numbers]
  · intro e he e' he'
    simp only [truths, List.flatMap_cons, List.flatMap_nil, List.cons_append, List.nil_append, List.append_nil, List.mem_cons,
      List.not_mem_nil, or_false] at he he'
    rcases he with rfl | rfl <;> rcases he' with rfl | rfl <;> simp [truth] <;> decide
  · intro k hk
    simp only [truths, List.mem_cons, List.not_mem_nil, or_false] at hk
    rcases hk with rfl | rfl <;> simp [Possible, truths, truth]
  · intro k hk
    simp only [truths, List.mem_cons, List.not_mem_nil, or_false] at hk
    rcases hk with rfl | rfl <;> rfl

/-- **Deviation.** `choice C(bool p) on p { case true: case false: uint8 a; };` is accepted; the generated code begins with
`else:`, which Python does not parse. -/
theorem C84_bothTruths_deviates :
    let d : ChoiceDecl := ⟨.boolean, [⟨[truth (py! "true") 1, truth (py! "false") 0], some byteField⟩], none⟩
    check d = .ok true ∧ Written d ∧ parses (clauses true d) = false := by
  refine ⟨by rfl, ?_, by rfl⟩
  intro k hk
  simp only [List.mem_cons, List.not_mem_nil, or_false] at hk
  subst hk
  simp [Possible, truth]

/-- **Deviation.** `choice C(bool p) on p { case true: uint8 a; case !false: string b; };` is accepted, and the second case is
taken for `false`, which no case lists. -/
theorem C84_sameTruth_deviates :
    let d : ChoiceDecl := ⟨.boolean, [⟨[truth (py! "true") 1], some byteField⟩, ⟨[truth (py! "!false") 1], some textField⟩], none⟩
    check d = .ok true ∧ execute (clauses true d) 0 = some (.member (some textField)) ∧
    Prescribed d 0 .noMatch := by
  refine ⟨by rfl, by rfl, .inr ⟨?_, rfl⟩⟩
  intro k hk
  simp only [List.mem_cons, List.not_mem_nil, or_false] at hk
  rcases hk with rfl | rfl <;> simp [CaseDecl.Lists, truth]

/-- an item of the enumeration 7 or a constant of its type -/
def color (text : PyStr) (items : List Nat) (v : Int) : CaseExpr :=
  { type := .enum 7, items := items, integer := none, text := text, value := v }

/-- **Deviation.** With `const Color C = Color.RED;` a choice with the cases `Color.RED` and `C` is accepted, and the first of
them is taken. -/
theorem C84_sameItem_deviates :
    let red : CaseDecl := ⟨[color (py! "Color.RED") [7] 2], some byteField⟩
    let c : CaseDecl := ⟨[color (py! "C") [] 2], some textField⟩
    check ⟨.enum 7, [red, c], none⟩ = .ok false ∧ check ⟨.enum 7, [c, red], none⟩ = .ok false ∧
    execute (clauses false ⟨.enum 7, [red, c], none⟩) 2 = some (.member (some byteField)) ∧
    execute (clauses false ⟨.enum 7, [c, red], none⟩) 2 = some (.member (some textField)) :=
  ⟨by rfl, by rfl, by rfl, by rfl⟩

end Zserio.ChoiceCheck
