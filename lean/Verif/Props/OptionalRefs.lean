import Verif.Lemmas.OptionalRefs
/-
C98: a schema for which the compiler prints no warning about references to optional fields never asks for a field which is not
there.
-/
set_option linter.unusedSimpArgs false

namespace Zserio.Expression.OptionalRefs

section
variable {O : Type} {T : Table} {L : Layout O} {W : World O} {D : Division}

/-- C98: if there is no warning for an expression of the field `self` (offset, argument, constraint, length), then its evaluation in
an object in which the condition of `self` is true never asks for an optional field which is not there.  What is missing in comparison
with the full statement: expressions with the conditional operator, references to the same field by different paths, and optional
fields of elements of arrays and of results of functions; see the counterexamples below. -/
theorem C98_expression_partial (self : Nat) (e : Expr) (hc : Consistent T L W D) (hr : Resolved T L W D e)
    (hcond : ∀ c, Condition T self c → c.eval W D = some (.bool true))
    (hself : .symbol self ∈ parts e → W.symbol self ≠ none)
    (htern : NoTernary e)
    (hpath : ∀ e' id, .member e' id ∈ parts e → Optional T id → Path e')
    (honce : ∀ id r r', Optional T id → r ∈ parts e → r' ∈ parts e → RefersTo id r → RefersTo id r' → r = r')
    (hno : warnings T self e = []) : Safe T W D e := by
  intro r hreach hmiss
  have hmem := reaches_mem hreach
  rw [warnings, (containsTernary_iff e).mpr htern] at hno
  simp only [Bool.false_eq_true, if_false, List.flatMap_eq_nil_iff] at hno
  have noDiff : ∀ id x, (id, x) ∈ referenced T e → differentOptional T self id x.pre = false := by
    intro id x hx
    have := hno (id, x) hx
    by_contra h
    simp only [Bool.not_eq_false] at h
    simp only [h, if_true] at this
    split at this
    · split at this <;> cases this
    · cases this
  have entry : ∀ id, Optional T id → RefersTo id r → ∃ x, (id, x) ∈ referenced T e := fun id ho hid =>
    (referenced_has T id e).mpr ⟨ho, r, hmem, hid⟩
  cases r with
  | symbol id =>
    obtain ⟨ho, hnone⟩ := hmiss
    obtain ⟨x, hx⟩ := entry id ho rfl
    have hpre : x.pre = [] := by
      rcases referenced_from T id x e hx with ⟨_, h⟩ | ⟨e', hm, _⟩
      · exact h
      · exact absurd (honce id _ _ ho hmem hm rfl rfl) (by simp)
    have hd := noDiff id x hx
    rw [hpre] at hd
    unfold differentOptional at hd
    split at hd
    · rename_i h
      rw [← h.2] at hnone hmem
      exact hself hmem hnone
    · split at hd
      · rename_i c c' h1 h2
        simp only [Bool.not_eq_false', same_nil] at hd
        have ht := hcond c ((clause_iff T self c).mp h1)
        rw [← eval_removeParentheses, hd, eval_removeParentheses] at ht
        exact ((hc.1 id c' (hr.1 id hmem ho) ((clause_iff T id c').mp h2)).mpr ht) hnone
      · cases hd
  | member e' id =>
    obtain ⟨ho, o, heo, hnone⟩ := hmiss
    obtain ⟨x, hx⟩ := entry id ho rfl
    have hp := hpath e' id hmem ho
    have hpre : x.pre = names e' := by
      rcases referenced_from T id x e hx with ⟨hm, _⟩ | ⟨e'', hm, h⟩
      · exact absurd (honce id _ _ ho hmem hm rfl rfl) (by simp)
      · have := honce id _ _ ho hmem hm rfl rfl
        cases this
        exact h hp
    have hd := noDiff id x hx
    rw [hpre] at hd
    unfold differentOptional at hd
    split at hd
    · rename_i h
      exact names_ne_nil hp h.1
    · split at hd
      · rename_i c c' h1 h2
        simp only [Bool.not_eq_false', sameExpression, beq_iff_eq] at hd
        have ht := hcond c ((clause_iff T self c).mp h1)
        rw [← eval_removeParentheses, hd, eval_prefixed T hp heo, eval_removeParentheses] at ht
        exact ((hc.2 o id c' (hr.2 e' id o hmem ho heo) ((clause_iff T id c').mp h2)).mpr ht) hnone
      · cases hd
  | _ => exact hmiss

/-- C98: if there is no warning about the optional field `id` for the expression behind `if`, then `id` is there whenever the
expression asks for it.  What is missing: expressions with the conditional operator, more than one reference to the field, `&&` which is
below another operator on the left of `&&`, and fields of other objects; see the counterexamples below. -/
theorem C98_clause_partial (e : Expr) (id : Nat) (hc : Consistent T L W D) (hr : Resolved T L W D e) (ho : Optional T id)
    (htern : NoTernary e) (hand : ∀ a b, .binary .land a b ∈ parts e → Conjunction a) (honce : mentions id e ≤ 1)
    (hno : ∀ w ∈ clauseWarnings T e, w.about ≠ id) (hreach : Reaches W D e (.symbol id)) : W.symbol id ≠ none := by
  have hmem := reaches_mem hreach
  obtain ⟨x, hx⟩ := (referenced_has T id e).mpr ⟨ho, _, hmem, rfl⟩
  have hands := scan_ands T id ((optional_iff T id).mpr ho) e hand honce hreach {} (by simp) x hx
  rw [clauseWarnings, (containsTernary_iff e).mpr htern] at hno
  simp only [Bool.false_eq_true, if_false, List.mem_flatMap] at hno
  cases hcl : T.clause id with
  | none => exact absurd rfl (hno (.autoInClause id) ⟨(id, x), hx, by simp [hcl]⟩)
  | some c =>
    have hany : (x.ands.any fun a => sameExpression T a c []) = true := by
      by_contra h
      exact hno (.noLeftAnd id) ⟨(id, x), hx, by simp only [hcl, h]; simp⟩ rfl
    obtain ⟨a, ha, hs⟩ := List.any_eq_true.mp hany
    have ht := hands a ha
    rw [← eval_removeParentheses, (same_nil T a c).mp hs, eval_removeParentheses] at ht
    exact (hc.1 id c (hr.1 id hmem ho) ((clause_iff T id c).mp hcl)).mpr ht

/-- C98: the two theorems for all expressions of a field at once -/
theorem C98_field_partial (self : Nat) (f : FieldExprs) (hno : fieldWarnings T self f = []) (e : Expr)
    (he : f.offset = some e ∨ e ∈ f.arguments ∨ f.constraint = some e ∨ f.arrayLength = some e ∨ f.bitLength = some e)
    (hc : Consistent T L W D) (hr : Resolved T L W D e)
    (hcond : ∀ c, Condition T self c → c.eval W D = some (.bool true))
    (hself : .symbol self ∈ parts e → W.symbol self ≠ none) (htern : NoTernary e)
    (hpath : ∀ e' id, .member e' id ∈ parts e → Optional T id → Path e')
    (honce : ∀ id r r', Optional T id → r ∈ parts e → r' ∈ parts e → RefersTo id r → RefersTo id r' → r = r') :
    Safe T W D e := by
  refine C98_expression_partial self e hc hr hcond hself htern hpath honce ?_
  simp only [fieldWarnings, List.append_eq_nil_iff, List.flatMap_eq_nil_iff, Option.mem_toList] at hno
  obtain ⟨⟨⟨⟨⟨h1, h2⟩, _⟩, h3⟩, h4⟩, h5⟩ := hno
  rcases he with he | he | he | he | he
  · exact h1 e he
  · exact h2 e he
  · exact h3 e he
  · exact h4 e he
  · exact h5 e he

/-- C98: and for its condition -/
theorem C98_field_clause_partial (self : Nat) (f : FieldExprs) (hno : fieldWarnings T self f = []) (e : Expr) (he : Condition T self e)
    (id : Nat) (hc : Consistent T L W D) (hr : Resolved T L W D e) (ho : Optional T id)
    (htern : NoTernary e) (hand : ∀ a b, .binary .land a b ∈ parts e → Conjunction a) (honce : mentions id e ≤ 1)
    (hreach : Reaches W D e (.symbol id)) : W.symbol id ≠ none := by
  refine C98_clause_partial e id hc hr ho htern hand honce ?_ hreach
  simp only [fieldWarnings, List.append_eq_nil_iff, List.flatMap_eq_nil_iff, Option.mem_toList] at hno
  obtain ⟨⟨⟨⟨⟨_, _⟩, h⟩, _⟩, _⟩, _⟩ := hno
  rw [h e ((clause_iff T self e).mpr he)]
  simp

end

section
variable {T : Table}

/-- C98: the warnings about a field which the expression refers to by its name alone.  There is one exactly if the field is optional,
it is not the field with the expression itself, and the two do not have the same condition; what it says depends on the conditions. -/
theorem C98_warned (self id : Nat) (e : Expr) (w : Warning) (htern : NoTernary e)
    (hown : ∀ r ∈ parts e, RefersTo id r → r = .symbol id) (hw : w.about = id) :
    w ∈ warnings T self e ↔
      (Optional T id ∧ .symbol id ∈ parts e ∧ id ≠ self ∧
        (¬∃ c c', Condition T self c ∧ Condition T id c' ∧ SameUpToParens c c')) ∧
      ((w = .notOptional id ∧ ¬Optional T self) ∨
        (w = .optionalToOptional id ∧ Optional T self ∧ ((¬∃ c, Condition T self c) ∨ ¬∃ c, Condition T id c)) ∨
        (w = .differentCondition id ∧ (∃ c, Condition T self c) ∧ ∃ c, Condition T id c)) := by
  have hterm : ∀ i, (¬∃ c, Condition T i c) ↔ T.clause i = none := by
    intro i
    simp only [← clause_iff]
    cases T.clause i <;> simp
  have hterm' : ∀ i, (∃ c, Condition T i c) ↔ T.clause i ≠ none := by
    intro i
    rw [← not_not (a := ∃ c, Condition T i c), hterm]
  have hdiff : differentOptional T self id [] = true ↔
      id ≠ self ∧ ¬∃ c c', Condition T self c ∧ Condition T id c' ∧ SameUpToParens c c' := by
    unfold differentOptional
    simp only [true_and, ← clause_iff]
    by_cases h : self = id
    · simp [h]
    · simp only [h, if_false, ne_eq, Ne.symm h, not_false_eq_true, true_and]
      cases h1 : T.clause self with
      | none => simp
      | some c =>
        cases h2 : T.clause id with
        | none => simp
        | some c' =>
          simp only [Bool.not_eq_true', Option.some.injEq, exists_and_left, exists_eq_left']
          rw [← Bool.not_eq_true, same_nil, sameUpToParens_iff]
  have hopt : ∀ i, (∃ c, Condition T i c) → Optional T i := fun i ⟨c, hc⟩ => optional_of_condition hc
  have hmen : Mentions e id ↔ .symbol id ∈ parts e := by
    constructor
    · rintro ⟨r, hr, h⟩
      exact hown r hr h ▸ hr
    · exact fun h => ⟨_, h, rfl⟩
  rw [warnings, (containsTernary_iff e).mpr htern]
  simp only [Bool.false_eq_true, if_false, List.mem_flatMap]
  constructor
  · rintro ⟨⟨i, x⟩, hx, hmem⟩
    have hi : i = id := by
      simp only at hmem
      split at hmem
      · split at hmem
        · split at hmem <;> (simp only [List.mem_singleton] at hmem; subst hmem; exact hw)
        · simp only [List.mem_singleton] at hmem; subst hmem; exact hw
      · cases hmem
    subst hi
    obtain ⟨ho, hm⟩ := (referenced_has T i e).mp ⟨x, hx⟩
    have hpre : x.pre = [] := by
      rcases referenced_from T i x e hx with ⟨_, h⟩ | ⟨e', hm, _⟩
      · exact h
      · exact absurd (hown _ hm rfl) (by simp)
    rw [hpre] at hmem
    simp only at hmem
    split at hmem
    · rename_i hd
      refine ⟨⟨ho, hmen.mp hm, (hdiff.mp hd).1, (hdiff.mp hd).2⟩, ?_⟩
      split at hmem
      · rename_i hs
        rw [optional_iff] at hs
        split at hmem
        · rename_i hn
          exact .inr (.inl ⟨by simpa using hmem, hs, by rw [hterm, hterm]; exact hn⟩)
        · rename_i hn
          rw [not_or] at hn
          exact .inr (.inr ⟨by simpa using hmem, by rw [hterm']; exact hn.1, by rw [hterm']; exact hn.2⟩)
      · rename_i hs
        rw [optional_iff] at hs
        exact .inl ⟨by simpa using hmem, hs⟩
    · cases hmem
  · rintro ⟨⟨ho, hm, hne, hsame⟩, hkind⟩
    obtain ⟨x, hx⟩ := (referenced_has T id e).mpr ⟨ho, hmen.mpr hm⟩
    have hpre : x.pre = [] := by
      rcases referenced_from T id x e hx with ⟨_, h⟩ | ⟨e', hm, _⟩
      · exact h
      · exact absurd (hown _ hm rfl) (by simp)
    refine ⟨(id, x), hx, ?_⟩
    have hd := hdiff.mpr ⟨hne, hsame⟩
    simp only [hpre, hd, if_true]
    rcases hkind with ⟨rfl, hs⟩ | ⟨rfl, hs, hn⟩ | ⟨rfl, h1, h2⟩
    · rw [← optional_iff] at hs
      simp [hs]
    · rw [hterm, hterm] at hn
      rw [if_pos ((optional_iff T self).mpr hs), if_pos hn]
      simp
    · have hs := hopt self h1
      rw [hterm'] at h1 h2
      rw [if_pos ((optional_iff T self).mpr hs), if_neg (by rw [not_or]; exact ⟨h1, h2⟩)]
      simp

/-- C98: functions and selectors of choices: the warnings are about exactly the optional fields they refer to -/
theorem C98_mentioned (id : Nat) (e : Expr) (htern : NoTernary e) : id ∈ mentionWarnings T e ↔ Optional T id ∧ Mentions e id := by
  rw [mentionWarnings, (containsTernary_iff e).mpr htern, ← referenced_has]
  simp [Has]

/-- C98: so that a function or a selector without warnings never asks for an optional field -/
theorem C98_function_partial {O : Type} (W : World O) (D : Division) (e : Expr) (htern : NoTernary e) (hno : mentionWarnings T e = []) :
    Safe T W D e := by
  intro r hreach hmiss
  have key : ∀ id, Optional T id → ¬RefersTo id r := by
    intro id ho hr
    have := (C98_mentioned id e htern).mpr ⟨ho, r, reaches_mem hreach, hr⟩
    rw [hno] at this
    cases this
  cases r with
  | symbol id => exact key id hmiss.1 rfl
  | member e' id => exact key id hmiss.1 rfl
  | _ => exact hmiss

/-- C98: a reference to a field with the keyword `optional` in a condition always leads to a warning -/
theorem C98_auto (id : Nat) (e : Expr) (htern : NoTernary e) (ho : Optional T id) (hn : ∀ c, ¬Condition T id c) :
    .autoInClause id ∈ clauseWarnings T e ↔ Mentions e id := by
  have hcl : T.clause id = none := by
    cases h : T.clause id with
    | none => rfl
    | some c => exact absurd ((clause_iff T id c).mp h) (hn c)
  rw [clauseWarnings, (containsTernary_iff e).mpr htern]
  simp only [Bool.false_eq_true, if_false, List.mem_flatMap]
  constructor
  · rintro ⟨⟨i, x⟩, hx, hm⟩
    have : i = id := by
      simp only at hm
      split at hm
      · simp only [List.mem_singleton, Warning.autoInClause.injEq] at hm
        exact hm.symm
      · split at hm <;> simp at hm
    subst this
    exact ((referenced_has T i e).mp ⟨x, hx⟩).2
  · intro h
    obtain ⟨x, hx⟩ := (referenced_has T id e).mpr ⟨ho, h⟩
    exact ⟨(id, x), hx, by simp [hcl]⟩

/-- C98: a reference to a field in a condition which does not contain the condition of the field leads to a warning -/
theorem C98_unguarded (id : Nat) (e c : Expr) (htern : NoTernary e) (hcond : Condition T id c) (hm : Mentions e id)
    (hn : ∀ a ∈ parts e, ¬SameUpToParens a c) : .noLeftAnd id ∈ clauseWarnings T e := by
  obtain ⟨x, hx⟩ := (referenced_has T id e).mpr ⟨optional_of_condition hcond, hm⟩
  rw [clauseWarnings, (containsTernary_iff e).mpr htern]
  simp only [Bool.false_eq_true, if_false, List.mem_flatMap]
  refine ⟨(id, x), hx, ?_⟩
  simp only [(clause_iff T id c).mpr hcond]
  rw [if_neg]
  · simp
  · simp only [List.any_eq_true, not_exists, not_and, same_nil, sameUpToParens_iff]
    exact fun a ha => hn a (referenced_parts T e id x hx a ha)

/-- C98: a condition `... && c && ... && r`, where `c` is the condition of the field and `r` begins with the field, leads to no
warning about it -/
theorem C98_guarded (id : Nat) (g r c c' : Expr) (hcond : Condition T id c) (hg : Conjunct c' g) (hs : SameUpToParens c' c)
    (hb : Begins id r) (hm : mentions id r ≤ 1) :
    ∀ w ∈ clauseWarnings T (.binary .land g r), w.about ≠ id := by
  intro w hw hwid
  rw [clauseWarnings] at hw
  split at hw
  · cases hw
  · simp only [List.mem_flatMap] at hw
    obtain ⟨⟨i, x⟩, hx, hw⟩ := hw
    have hi : i = id := by
      simp only at hw
      split at hw
      · simp only [List.mem_singleton] at hw; subst hw; exact hwid
      · split at hw
        · cases hw
        · simp only [List.mem_singleton] at hw; subst hw; exact hwid
    subst hi
    simp only [(clause_iff T i c).mpr hcond] at hw
    split at hw
    · cases hw
    · rename_i hany
      have ho := (optional_iff T i).mpr (optional_of_condition hcond)
      unfold referenced at hx
      simp only [scan] at hx
      have hands := scan_begins T ho hb hm _ x hx
      simp only [if_true] at hands
      have hmem := conjunct_mem hg
      simp only [List.mem_map] at hmem
      obtain ⟨a, ha, hac⟩ := hmem
      apply hany
      simp only [List.any_eq_true, same_nil]
      exact ⟨a, by rw [hands]; exact List.mem_append.mpr (.inr ha), by rw [hac]; exact (sameUpToParens_iff c' c).mpr hs⟩

end

/-! ### Examples -/

namespace Demo

/-- A structure `Node(Node next)` with the fields `bool has; bool flag; uint8 opt if has; optional uint8 auto; Node(next) arr[];
uint8 plain; uint8 twin if has;`; the parameter has the number 4. -/
def T : Table
  | 0 => .field {}
  | 1 => .field {}
  | 2 => .field { clause := some (.symbol 0) }
  | 3 => .field { auto := true }
  | 4 => .parameter
  | 5 => .field {}
  | 6 => .field {}
  | 7 => .field { clause := some (.symbol 0) }
  | _ => .other

abbrev has : Expr := .symbol 0
abbrev flag : Expr := .symbol 1
abbrev opt : Expr := .symbol 2
abbrev zero : Expr := .intLit .dec (py! "0")

/-- `> 0` -/
abbrev positive (e : Expr) : Expr := .binary .gt e zero

/-- the objects: the next one, and the array -/
inductive Obj where
  | next
  | arr
  deriving DecidableEq

/-- `has` and `flag` as given, `has` false in the next object -/
def world (h f : Bool) : World Obj where
  symbol
    | 0 => some (.bool h)
    | 1 => some (.bool f)
    | 2 => if h then some (.int 5) else none
    | 4 => some (.other .next)
    | 5 => some (.other .arr)
    | 6 => some (.int 1)
    | 7 => if h then some (.int 6) else none
    | _ => none
  index := none
  member
    | .next, 0 => some (.bool false)
    | _, _ => none
  element
    | .arr, 0 => some (.other .next)
    | _, _ => none
  length _ := none
  result _ := none
  equal a b := a = b
  width _ := 8
  floatText _ := 0
  stringText s := s
  floatMinus x := x
  floatArith _ _ _ := none
  floatLess _ _ := false

/-- all objects have all fields -/
def layout : Layout Obj where
  this id := id < 8
  of o id := o = .next ∧ id < 8

theorem condition_iff (id : Nat) (c : Expr) : Condition T id c ↔ (id = 2 ∨ id = 7) ∧ c = has := by
  constructor
  · rintro ⟨p, hp, hc⟩
    unfold T at hp
    split at hp <;> cases hp <;> cases hc <;> simp
  · rintro ⟨rfl | rfl, rfl⟩
    · exact ⟨_, rfl, rfl⟩
    · exact ⟨_, rfl, rfl⟩

theorem consistent (h f : Bool) : Consistent T layout (world h f) .floor := by
  constructor
  · intro id c _ hc
    obtain ⟨rfl | rfl, rfl⟩ := (condition_iff id c).mp hc
    · cases h <;> simp [world, Expr.eval, has]
    · cases h <;> simp [world, Expr.eval, has]
  · rintro o id c ⟨rfl, _⟩ hc
    obtain ⟨rfl | rfl, rfl⟩ := (condition_iff id c).mp hc
    · simp [world, Expr.eval, has, within, T]
    · simp [world, Expr.eval, has, within, T]

theorem optional_iff' (id : Nat) : Optional T id ↔ id = 2 ∨ id = 3 ∨ id = 7 := by
  rw [← optional_iff]
  unfold Table.isOptional T
  match id with
  | 0 | 1 | 2 | 3 | 4 | 5 | 6 | 7 => simp [Presence.isOptional]
  | n + 8 => simp

/-- the field `twin` may use `opt`: `uint8 twin if has : opt > 0 && twin > opt` -/
def good : Expr := .binary .land (positive opt) (.binary .gt (.symbol 7) opt)

example : warnings T 7 good = [] := by decide
example : Safe T (world true false) .floor good := by
  refine C98_expression_partial (L := layout) 7 good (consistent true false) ⟨?_, ?_⟩ ?_ (fun _ => by simp [world]) ?_ ?_ ?_ (by decide)
  · intro id _ ho
    have := (optional_iff' id).mp ho
    change id < 8
    omega
  · intro e' id o hm
    simp [good, parts, positive] at hm
  · intro c hc
    rw [((condition_iff 7 c).mp hc).2]
    rfl
  · intro c a b hm
    simp [good, parts, positive] at hm
  · intro e' id hm
    simp [good, parts, positive] at hm
  · intro id r r' ho hr hr' h h'
    have hs : ∀ r ∈ parts good, RefersTo id r → r = .symbol id := by
      intro r hr h
      simp only [good, parts, positive, List.mem_cons, List.mem_append, List.not_mem_nil, or_false] at hr
      rcases hr with rfl | (rfl | rfl | rfl) | rfl | rfl | rfl <;> simp_all [RefersTo]
    rw [hs r hr h, hs r' hr' h']

/-- the condition `has && opt > 0` -/
def guarded : Expr := .binary .land has (positive opt)

example : clauseWarnings T guarded = [] := by decide
example : clauseWarnings T (positive opt) = [.noLeftAnd 2] ∧ clauseWarnings T (.binary .lor has (positive opt)) = [.noLeftAnd 2] ∧
    clauseWarnings T (.binary .land has (positive (.symbol 3))) = [.autoInClause 3] := by decide
example : Conjunct (.paren has) (.binary .land flag (.paren (.binary .land (.paren has) flag))) ∧ SameUpToParens (.paren has) has ∧
    Begins 2 (positive (.unary .minus opt)) :=
  ⟨.right (.paren (.left (.whole _))), .left (.same _), .left (.unary .here)⟩
example : warnings T 6 (positive opt) = [.notOptional 2] ∧ warnings T 3 (positive opt) = [.optionalToOptional 2] ∧
    warnings T 7 (positive (.symbol 3)) = [.optionalToOptional 3] := by decide

/-- For a condition without warnings, `opt` is there when it is asked for. -/
example (h f : Bool) (hr : Reaches (world h f) .floor guarded opt) : (world h f).symbol 2 ≠ none := by
  refine C98_clause_partial (L := layout) guarded 2 (consistent h f) ⟨?_, ?_⟩ ((optional_iff' 2).mpr (.inl rfl)) ?_ ?_ (by decide)
    (by decide) hr
  · intro id _ ho
    have := (optional_iff' id).mp ho
    change id < 8
    omega
  · intro e' id o hm
    simp [guarded, parts, positive] at hm
  · intro c a b hm
    simp [guarded, parts, positive] at hm
  · intro a b hm
    simp only [guarded, parts, positive, List.mem_cons, List.mem_append, List.not_mem_nil, or_false, Expr.binary.injEq, reduceCtorEq,
      false_or, false_and, and_false, true_and, or_self] at hm
    rw [hm.1]
    exact .single (by intro x y hm; simp [parts] at hm)

theorem missing_opt (f : Bool) : Missing T (world false f) .floor opt := ⟨(optional_iff' 2).mpr (.inl rfl), rfl⟩

/-- C98 fails for the conditional operator: `flag ? opt > 0 : true` is the constraint of a field without condition, there is no warning,
and `opt` is not there. -/
theorem C98_ternary_deviates : let e := Expr.cond flag (positive opt) (.boolLit true)
    warnings T 6 e = [] ∧ Consistent T layout (world false true) .floor ∧ ¬Safe T (world false true) .floor e ∧
      e.eval (world false true) .floor = none :=
  ⟨by decide, consistent _ _, fun h => h opt (.first rfl (.left (.whole _))) (missing_opt true), rfl⟩

/-- C98 fails for a field which is mentioned twice: in `opt > 0 && (has && opt > 0)` only the second place is looked at. -/
theorem C98_twice_deviates : let e := Expr.binary .land (positive opt) (.paren (.binary .land has (positive opt)))
    clauseWarnings T e = [] ∧ Consistent T layout (world false true) .floor ∧ ¬Safe T (world false true) .floor e ∧
      e.eval (world false true) .floor = none :=
  ⟨by decide, consistent _ _, fun h => h opt (.left (.left (.whole _))) (missing_opt true), rfl⟩

/-- C98 fails for `&&` below another operator: in `!(has && flag) && opt > 0` the condition `has` counts as true on the right. -/
theorem C98_nested_deviates : let e := Expr.binary .land (.unary .bang (.paren (.binary .land has flag))) (positive opt)
    clauseWarnings T e = [] ∧ Consistent T layout (world false true) .floor ∧ ¬Safe T (world false true) .floor e ∧
      e.eval (world false true) .floor = none :=
  ⟨by decide, consistent _ _, fun h => h opt (.right rfl (.left (.whole _))) (missing_opt true), rfl⟩

theorem missing_next (h f : Bool) {e : Expr} (he : e.eval (world h f) .floor = some (.other .next)) :
    Missing T (world h f) .floor (.member e 2) := ⟨(optional_iff' 2).mpr (.inl rfl), .next, he, rfl⟩

/-- C98 fails for conditions which refer to fields of other objects of the same type: `has && next.opt > 0` looks like a check of the
condition of `opt`, but it is the one of this object. -/
theorem C98_other_object_deviates : let e := Expr.binary .land has (positive (.member (.symbol 4) 2))
    clauseWarnings T e = [] ∧ Consistent T layout (world true true) .floor ∧ ¬Safe T (world true true) .floor e ∧
      e.eval (world true true) .floor = none :=
  ⟨by decide, consistent _ _, fun h => h _ (.right rfl (.left (.whole _))) (missing_next _ _ rfl), rfl⟩

/-- C98 fails for elements of arrays: in the constraint `arr[0].opt > 0` of `twin` the array is forgotten, so that `opt` is taken for the
field of this object. -/
theorem C98_array_deviates : let e := positive (.member (.element (.symbol 5) zero) 2)
    warnings T 7 e = [] ∧ Consistent T layout (world true true) .floor ∧ ¬Safe T (world true true) .floor e ∧
      e.eval (world true true) .floor = none :=
  ⟨by decide, consistent _ _, fun h => h _ (.left (.whole _)) (missing_next _ _ rfl), rfl⟩

/-- C98 fails for two paths to the same field: in the constraint `next.opt > 0 && opt > 0` of `twin` only the second place counts. -/
theorem C98_two_paths_deviates : let e := Expr.binary .land (positive (.member (.symbol 4) 2)) (positive opt)
    warnings T 7 e = [] ∧ Consistent T layout (world true true) .floor ∧ ¬Safe T (world true true) .floor e ∧
      e.eval (world true true) .floor = none :=
  ⟨by decide, consistent _ _, fun h => h _ (.left (.left (.whole _))) (missing_next _ _ rfl), rfl⟩

/-- There are warnings about references which are always fine: `has && 0 < opt`, while there is none for `has && opt > 0`. -/
theorem C98_spurious_deviates : let e := Expr.binary .land has (.binary .lt zero opt)
    clauseWarnings T e = [.noLeftAnd 2] ∧ ∀ {O : Type} (W : World O) (D : Division) (L : Layout O), L.this 2 → Consistent T L W D →
      Safe T W D e := by
  refine ⟨by decide, ?_⟩
  intro O W D L hL hc r hr hm
  have key : r = opt ∧ has.eval W D = some (.bool true) := by
    have hopt : ∀ id, Optional T id → id ≠ 0 := by
      rintro id ho rfl
      simp [optional_iff'] at ho
    cases hr with
    | whole => exact absurd hm (by simp [Missing])
    | left h =>
      cases h
      exact absurd rfl (hopt 0 hm.1)
    | right hcont h =>
      cases h with
      | whole => exact absurd hm (by simp [Missing])
      | left h =>
        cases h
        exact absurd hm (by simp [Missing])
      | right _ h =>
        cases h
        exact ⟨rfl, hcont⟩
  obtain ⟨rfl, ht⟩ := key
  exact (hc.1 2 has hL ((condition_iff 2 has).mpr ⟨.inl rfl, rfl⟩)).mpr ht hm.2

end Demo

end Zserio.Expression.OptionalRefs
