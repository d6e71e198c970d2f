import Verif.Spec.OptionalRefs
/-
Lemmas about the warnings of the compiler about references to optional fields.
-/
set_option linter.unusedSimpArgs false

namespace Zserio.Expression.OptionalRefs

theorem optional_iff (T : Table) (id : Nat) : T.isOptional id = true ↔ Optional T id := by
  unfold Table.isOptional Optional
  cases h : T id with
  | field p =>
    simp only [Node.field.injEq, exists_eq_left', Presence.isOptional, Bool.or_eq_true, Option.isSome_iff_exists]
  | _ => simp

theorem clause_iff (T : Table) (id : Nat) (c : Expr) : T.clause id = some c ↔ Condition T id c := by
  unfold Table.clause Condition
  cases h : T id with
  | field p => simp
  | _ => simp

theorem optional_of_condition {T : Table} {id : Nat} {c : Expr} (h : Condition T id c) : Optional T id := by
  obtain ⟨p, hp, hc⟩ := h
  exact ⟨p, hp, .inr ⟨c, hc⟩⟩

/-! ### the map -/

theorem put_other {refs : List (Nat × Info)} {id i : Nat} {x y : Info} (h : i ≠ id) :
    (i, y) ∈ put refs id x ↔ (i, y) ∈ refs := by
  unfold put
  split
  · simp only [List.mem_map]
    constructor
    · rintro ⟨p, hp, e⟩
      split at e
      · cases e
        exact absurd rfl h
      · exact e ▸ hp
    · intro hp
      exact ⟨_, hp, by simp [h]⟩
  · simp [h]

theorem put_self {refs : List (Nat × Info)} {id : Nat} {x y : Info} : (id, y) ∈ put refs id x ↔ y = x := by
  unfold put
  split
  · rename_i hany
    simp only [List.mem_map]
    constructor
    · rintro ⟨p, hp, e⟩
      split at e
      · cases e
        rfl
      · rename_i hne
        exact absurd (by rw [e]) hne
    · rintro rfl
      obtain ⟨p, hp, e⟩ := List.any_eq_true.mp hany
      exact ⟨p, hp, by simp at e; simp [e]⟩
  · rename_i hany
    simp only [List.any_eq_true, not_exists, not_and, beq_iff_eq] at hany
    simp only [List.mem_append, List.mem_singleton, Prod.mk.injEq, true_and]
    constructor
    · rintro (h | h)
      · exact absurd rfl (hany _ h)
      · exact h
    · exact .inr

/-- the field has an entry -/
def Has (refs : List (Nat × Info)) (id : Nat) : Prop := ∃ x, (id, x) ∈ refs

theorem has_put {refs : List (Nat × Info)} {id i : Nat} {x : Info} : Has (put refs id x) i ↔ i = id ∨ Has refs i := by
  unfold Has
  by_cases h : i = id
  · subst h
    simp [put_self]
  · simp [put_other h, h]

/-! ### parts -/

theorem self_mem_parts (e : Expr) : e ∈ parts e := by
  cases e <;> simp [parts]

theorem reaches_mem {O : Type} {W : World O} {D : Division} {e r : Expr} (h : Reaches W D e r) : r ∈ parts e := by
  induction h with
  | whole e => exact self_mem_parts e
  | _ => simp_all [parts]

theorem containsTernary_iff (e : Expr) : containsTernary e = false ↔ NoTernary e := by
  unfold NoTernary
  induction e with
  | cond c a b => 
    simp only [containsTernary, parts, Bool.true_eq_false, false_iff]
    intro h
    exact h c a b (by simp)
  | paren e ih | call e ih | member e _ ih | lengthof e ih | valueof e ih | numbits e ih | unary _ e ih =>
    simp only [containsTernary, ih, parts, List.mem_cons, reduceCtorEq, false_or]
  | element a b iha ihb | isset a b iha ihb | binary _ a b iha ihb =>
    simp only [containsTernary, Bool.or_eq_false_iff, iha, ihb, parts, List.mem_cons, List.mem_append, reduceCtorEq, false_or, not_or]
    constructor
    · rintro ⟨h, h'⟩ c x y
      exact ⟨h c x y, h' c x y⟩
    · intro h
      exact ⟨fun c x y => (h c x y).1, fun c x y => (h c x y).2⟩
  | _ => simp [containsTernary, parts]

/-! ### keys -/

theorem mentions_symbol (i id : Nat) : Mentions (.symbol i) id ↔ i = id := by simp [Mentions, parts, RefersTo]

theorem mentions_member (e : Expr) (i id : Nat) : Mentions (.member e i) id ↔ i = id ∨ Mentions e id := by
  simp [Mentions, parts, RefersTo]

theorem leaf_has (T : Table) (i id : Nat) (s : Scan) :
    Has (leaf T i s).refs id ↔ Has s.refs id ∨ (T.isOptional id = true ∧ i = id) := by
  unfold leaf
  by_cases h : T.isOptional i = true
  · simp only [h, if_true, has_put]
    constructor
    · rintro (rfl | h')
      · exact .inr ⟨h, rfl⟩
      · exact .inl h'
    · rintro (h' | ⟨_, rfl⟩)
      · exact .inr h'
      · exact .inl rfl
  · simp only [h]
    constructor
    · exact .inl
    · rintro (h' | ⟨h', rfl⟩)
      · exact h'
      · exact absurd h' h

theorem scan_has (T : Table) (id : Nat) (e : Expr) : ∀ s : Scan,
    Has (scan T e s).refs id ↔ Has s.refs id ∨ (T.isOptional id = true ∧ Mentions e id) := by
  induction e with
  | symbol i => intro s; simp only [scan, leaf_has, mentions_symbol]
  | member e i ih =>
    intro s
    simp only [scan, leaf_has, ih, mentions_member]
    tauto
  | paren e ih | call e ih | lengthof e ih | valueof e ih | numbits e ih | unary _ e ih =>
    intro s
    simp only [scan, ih]
    simp [Mentions, parts, RefersTo]
  | element a b iha ihb | isset a b iha ihb | binary _ a b iha ihb =>
    intro s
    simp only [scan, iha, ihb]
    have : ∀ x, (x = true ∧ Mentions a id) ∨ (x = true ∧ Mentions b id) ↔
        x = true ∧ ((∃ r ∈ parts a, RefersTo id r) ∨ ∃ r ∈ parts b, RefersTo id r) := by
      intro x; simp only [Mentions, ← and_or_left]
    rw [or_assoc, this]
    simp [Mentions, parts, RefersTo, or_and_right, exists_or]
  | cond c a b ihc iha ihb =>
    intro s
    simp only [scan, iha, ihb, ihc]
    have : ∀ x, (x = true ∧ Mentions c id) ∨ (x = true ∧ Mentions a id) ∨ (x = true ∧ Mentions b id) ↔
        x = true ∧ ((∃ r ∈ parts c, RefersTo id r) ∨ (∃ r ∈ parts a, RefersTo id r) ∨ ∃ r ∈ parts b, RefersTo id r) := by
      intro x; simp only [Mentions, ← and_or_left]
    rw [or_assoc, or_assoc, this]
    simp [Mentions, parts, RefersTo, or_and_right, exists_or]
  | _ => intro s; simp [scan, Mentions, parts, RefersTo]

theorem referenced_has (T : Table) (id : Nat) (e : Expr) : Has (referenced T e) id ↔ Optional T id ∧ Mentions e id := by
  unfold referenced
  rw [scan_has, optional_iff]
  simp [Has]

/-! ### prefixes -/

/-- the names of a path -/
def names : Expr → List Nat
  | .symbol id => [id]
  | .member e id => names e ++ [id]
  | .paren e => names e
  | _ => []

theorem scan_path (T : Table) (e : Expr) (h : Path e) : ∀ s : Scan, s.pre = [] → (scan T e s).pre = names e := by
  induction e with
  | symbol i => intro s hs; simp [scan, leaf, names, hs]
  | member e i ih => intro s hs; simp [scan, leaf, names, ih h s hs]
  | paren e ih => intro s hs; simpa [scan, names] using ih h { s with pre := [] } rfl
  | _ => exact absurd h (by simp [Path])

/-- The entry stems from a part of the expression. -/
def From (e : Expr) (id : Nat) (x : Info) : Prop :=
  (.symbol id ∈ parts e ∧ x.pre = []) ∨ ∃ e', .member e' id ∈ parts e ∧ (Path e' → x.pre = names e')

theorem From.mono {e e' : Expr} {id : Nat} {x : Info} (hp : ∀ r ∈ parts e', r ∈ parts e) (h : From e' id x) : From e id x := by
  rcases h with ⟨h, hx⟩ | ⟨o, h, hx⟩
  · exact .inl ⟨hp _ h, hx⟩
  · exact .inr ⟨o, hp _ h, hx⟩

theorem leaf_entry (T : Table) (i id : Nat) (s : Scan) (x : Info) (h : (id, x) ∈ (leaf T i s).refs) :
    (id, x) ∈ s.refs ∨ (i = id ∧ x = ⟨s.pre, s.ands⟩) := by
  unfold leaf at h
  split at h
  · by_cases hi : id = i
    · subst hi
      exact .inr ⟨rfl, put_self.mp h⟩
    · exact .inl ((put_other hi).mp h)
  · exact .inl h

theorem scan_from (T : Table) (id : Nat) (x : Info) (e : Expr) : ∀ s : Scan, s.pre = [] →
    (id, x) ∈ (scan T e s).refs → (id, x) ∈ s.refs ∨ From e id x := by
  induction e with
  | symbol i =>
    intro s hs h
    rcases leaf_entry T i id s x h with h | ⟨rfl, rfl⟩
    · exact .inl h
    · exact .inr (.inl ⟨self_mem_parts _, hs⟩)
  | member e i ih =>
    intro s hs h
    rcases leaf_entry T i id _ x h with h | ⟨rfl, rfl⟩
    · rcases ih s hs h with h | h
      · exact .inl h
      · exact .inr (h.mono (by simp +contextual [parts]))
    · exact .inr (.inr ⟨e, self_mem_parts _, fun hp => scan_path T e hp s hs⟩)
  | paren e ih | call e ih | lengthof e ih | valueof e ih | numbits e ih | unary _ e ih =>
    intro s hs h
    rcases ih _ rfl h with h | h
    · exact .inl h
    · exact .inr (h.mono (by simp +contextual [parts]))
  | element a b iha ihb | isset a b iha ihb | binary _ a b iha ihb =>
    intro s hs h
    rcases ihb _ rfl h with h | h
    · rcases iha _ rfl h with h | h
      · exact .inl h
      · exact .inr (h.mono (by simp +contextual [parts]))
    · exact .inr (h.mono (by simp +contextual [parts]))
  | cond c a b ihc iha ihb =>
    intro s hs h
    rcases ihb _ rfl h with h | h
    · rcases iha _ rfl h with h | h
      · rcases ihc _ rfl h with h | h
        · exact .inl h
        · exact .inr (h.mono (by simp +contextual [parts]))
      · exact .inr (h.mono (by simp +contextual [parts]))
    · exact .inr (h.mono (by simp +contextual [parts]))
  | _ => intro s hs h; exact .inl h

theorem referenced_from (T : Table) (id : Nat) (x : Info) (e : Expr) (h : (id, x) ∈ referenced T e) : From e id x := by
  rcases scan_from T id x e {} rfl h with h | h
  · exact absurd h (by simp)
  · exact h

/-! ### values -/

section
variable {O : Type} {W : World O} {D : Division}

theorem eval_removeParentheses (e : Expr) : (removeParentheses e).eval W D = e.eval W D := by
  induction e with
  | paren e ih => simpa [removeParentheses, Expr.eval] using ih
  | _ => rfl

theorem inMask_within (T : Table) (o : O) (c : Nat) (x : Int) : (within T W o).inMask c x = W.inMask c x := rfl

theorem binApply_within (T : Table) (o : O) (op : BinOp) (x y : Value O) :
    op.apply (within T W o) D x y = op.apply W D x y := by
  cases op <;> cases x <;> cases y <;> rfl

theorem unApply_within (T : Table) (o : O) (op : UnOp) (x : Value O) : op.apply (within T W o) x = op.apply W x := by
  cases op <;> cases x <;> rfl

/-- the names of a path, as an expression -/
def chain : List Nat → Expr
  | [] => .boolLit false
  | p :: ps => ps.foldl .member (.symbol p)

theorem dotted_cons (p : Nat) (ps : List Nat) (id : Nat) : dotted (p :: ps) id = .member (chain (p :: ps)) id := rfl

theorem chain_snoc {ps : List Nat} (h : ps ≠ []) (id : Nat) : chain (ps ++ [id]) = .member (chain ps) id := by
  cases ps with
  | nil => exact absurd rfl h
  | cons p ps => simp [chain]

theorem names_ne_nil {e : Expr} (h : Path e) : names e ≠ [] := by
  induction e with
  | symbol i => simp [names]
  | member e i ih => simp [names]
  | paren e ih => exact ih h
  | _ => exact absurd h (by simp [Path])

theorem eval_chain {e : Expr} (h : Path e) : (chain (names e)).eval W D = e.eval W D := by
  induction e with
  | symbol i => rfl
  | member e i ih =>
    simp only [names]
    rw [chain_snoc (names_ne_nil (e := e) h)]
    simp only [Expr.eval, ih h]
  | paren e ih => simpa [names, Expr.eval] using ih h
  | _ => exact absurd h (by simp [Path])

theorem eval_prefixed (T : Table) {p : Expr} {o : O} (hp : Path p) (h : p.eval W D = some (.other o)) (e : Expr) :
    (prefixed T (names p) e).eval W D = e.eval (within T W o) D := by
  induction e with
  | symbol i =>
    simp only [prefixed]
    by_cases hi : T i = .other
    · simp [hi, Expr.eval, within]
    · simp only [hi, if_false]
      obtain ⟨q, qs, hq⟩ := List.exists_cons_of_ne_nil (names_ne_nil hp)
      rw [hq, dotted_cons, ← hq]
      simp [Expr.eval, eval_chain hp, h, within, hi]
  | binary op a b iha ihb =>
    cases op <;> simp only [prefixed, Expr.eval, iha, ihb, binApply_within]
  | unary op e ih => simp only [prefixed, Expr.eval, ih, unApply_within]
  | paren e ih => simpa only [prefixed, Expr.eval] using ih
  | call e ih | lengthof e ih | member e _ ih => simp only [prefixed, Expr.eval, ih]; rfl
  | valueof e ih | numbits e ih => simp only [prefixed, Expr.eval, ih]
  | element a b iha ihb | isset a b iha ihb => simp only [prefixed, Expr.eval, iha, ihb]; rfl
  | cond c a b ihc iha ihb => simp only [prefixed, Expr.eval, iha, ihb, ihc]
  | _ => rfl

theorem prefixed_nil (T : Table) (e : Expr) : prefixed T [] e = e := by
  induction e with
  | symbol i => simp [prefixed, dotted]
  | _ => simp_all [prefixed]

theorem same_nil (T : Table) (a b : Expr) : sameExpression T a b [] = true ↔ removeParentheses a = removeParentheses b := by
  simp [sameExpression, prefixed_nil]

end

theorem sameUpToParens_iff (a b : Expr) : removeParentheses a = removeParentheses b ↔ SameUpToParens a b := by
  constructor
  · intro h
    have key : ∀ e : Expr, ∀ x, SameUpToParens x (removeParentheses e) → SameUpToParens x e := by
      intro e
      induction e with
      | paren e ih => exact fun x hx => .right (ih x hx)
      | _ => exact fun x hx => hx
    have key' : ∀ e : Expr, ∀ x, SameUpToParens (removeParentheses e) x → SameUpToParens e x := by
      intro e
      induction e with
      | paren e ih => exact fun x hx => .left (ih x hx)
      | _ => exact fun x hx => hx
    exact key' a _ (key b _ (h ▸ .same _))
  · intro h
    induction h with
    | same e => rfl
    | left _ ih => simpa [removeParentheses] using ih
    | right _ ih => simpa [removeParentheses] using ih

/-! ### left operands of `&&` -/

theorem mentions_zero_iff (id : Nat) (e : Expr) : mentions id e = 0 ↔ ¬Mentions e id := by
  induction e with
  | symbol i => simp [mentions, mentions_symbol]
  | member e i ih => 
    simp only [mentions, mentions_member, not_or, ← ih, Nat.add_eq_zero_iff]
    constructor
    · rintro ⟨h, h'⟩
      exact ⟨by intro e; simp [e] at h', h⟩
    · rintro ⟨h, h'⟩
      exact ⟨h', by simp [h]⟩
  | paren e ih | call e ih | lengthof e ih | valueof e ih | numbits e ih | unary _ e ih =>
    simp only [mentions, ih]
    simp [Mentions, parts, RefersTo]
  | element a b iha ihb | isset a b iha ihb | binary _ a b iha ihb =>
    simp only [mentions, Nat.add_eq_zero_iff, iha, ihb, Mentions, parts, List.mem_cons, List.mem_append]
    rw [← not_or, not_iff_not]
    constructor
    · rintro (⟨r, hr, h⟩ | ⟨r, hr, h⟩)
      · exact ⟨r, .inr (.inl hr), h⟩
      · exact ⟨r, .inr (.inr hr), h⟩
    · rintro ⟨r, rfl | hr | hr, h⟩
      · exact absurd h (by simp [RefersTo])
      · exact .inl ⟨r, hr, h⟩
      · exact .inr ⟨r, hr, h⟩
  | cond c a b ihc iha ihb =>
    simp only [mentions, Nat.add_eq_zero_iff, iha, ihb, ihc, Mentions, parts, List.mem_cons, List.mem_append]
    rw [← not_or, ← not_or, not_iff_not]
    constructor
    · rintro ((⟨r, hr, h⟩ | ⟨r, hr, h⟩) | ⟨r, hr, h⟩)
      · exact ⟨r, .inr (.inl (.inl hr)), h⟩
      · exact ⟨r, .inr (.inl (.inr hr)), h⟩
      · exact ⟨r, .inr (.inr hr), h⟩
    · rintro ⟨r, rfl | (hr | hr) | hr, h⟩
      · exact absurd h (by simp [RefersTo])
      · exact .inl (.inl ⟨r, hr, h⟩)
      · exact .inl (.inr ⟨r, hr, h⟩)
      · exact .inr ⟨r, hr, h⟩
  | _ => simp [mentions, Mentions, parts, RefersTo]

theorem leaf_other {T : Table} {i id : Nat} (h : i ≠ id) (s : Scan) (x : Info) : (id, x) ∈ (leaf T i s).refs ↔ (id, x) ∈ s.refs := by
  unfold leaf
  split
  · exact put_other (Ne.symm h)
  · rfl

theorem scan_other (T : Table) (id : Nat) (x : Info) (e : Expr) (h : mentions id e = 0) : ∀ s : Scan,
    (id, x) ∈ (scan T e s).refs ↔ (id, x) ∈ s.refs := by
  induction e with
  | symbol i => 
    intro s
    exact leaf_other (by intro e; simp [mentions, e] at h) s x
  | member e i ih =>
    intro s
    simp only [mentions, Nat.add_eq_zero_iff] at h
    simp only [scan]
    rw [leaf_other (by intro e; simp [e] at h), ih h.1]
  | paren e ih | call e ih | lengthof e ih | valueof e ih | numbits e ih | unary _ e ih =>
    intro s
    simp only [scan, ih h]
  | element a b iha ihb | isset a b iha ihb | binary _ a b iha ihb =>
    intro s
    simp only [mentions, Nat.add_eq_zero_iff] at h
    simp only [scan, iha h.1, ihb h.2]
  | cond c a b ihc iha ihb =>
    intro s
    simp only [mentions, Nat.add_eq_zero_iff] at h
    simp only [scan, iha h.1.2, ihb h.2, ihc h.1.1]
  | _ => intro s; rfl

theorem leaf_ands (T : Table) (i : Nat) (s : Scan) : (leaf T i s).ands = s.ands := rfl

theorem noAnd_of_mem {e e' : Expr} (h : NoAnd e) (hp : ∀ r ∈ parts e', r ∈ parts e) : NoAnd e' :=
  fun a b hm => h a b (hp _ hm)

theorem scan_ands_noAnd (T : Table) (e : Expr) (h : NoAnd e) : ∀ s : Scan, ∀ a ∈ (scan T e s).ands, a ∈ s.ands := by
  induction e with
  | symbol i => intro s a ha; exact ha
  | member e i ih => intro s a ha; exact ih (noAnd_of_mem h (by simp +contextual [parts])) s a ha
  | paren e ih | call e ih | lengthof e ih | valueof e ih | numbits e ih | unary _ e ih =>
    intro s a ha
    exact ih (noAnd_of_mem h (by simp +contextual [parts])) { s with pre := [] } a ha
  | element x y ihx ihy | isset x y ihx ihy =>
    intro s a ha
    have := ihy (noAnd_of_mem h (by simp +contextual [parts])) _ a ha
    simp at this
  | binary op x y ihx ihy =>
    intro s a ha
    have := ihy (noAnd_of_mem h (by simp +contextual [parts])) _ a ha
    by_cases hop : op = .land
    · subst hop
      exact absurd (self_mem_parts _) (h x y)
    · simp [hop] at this
  | cond c x y ihc ihx ihy =>
    intro s a ha
    have := ihy (noAnd_of_mem h (by simp +contextual [parts])) _ a ha
    simp at this
  | _ => intro s a ha; exact ha

section
variable {O : Type} {W : World O} {D : Division}

theorem land_true {a b : Expr} (h : (Expr.binary .land a b).eval W D = some (.bool true)) :
    a.eval W D = some (.bool true) ∧ b.eval W D = some (.bool true) := by
  simp only [Expr.eval] at h
  split at h
  · rename_i ha
    split at h
    · rename_i hb
      cases h
      exact ⟨ha, hb⟩
    · cases h
  · cases h
  · cases h

theorem conjunctsInner_true (e : Expr) : e.eval W D = some (.bool true) → ∀ a ∈ conjunctsInner e, a.eval W D = some (.bool true) := by
  induction e with
  | paren e ih => exact fun h a ha => ih h a ha
  | binary op x y ihx ihy =>
    intro h a ha
    by_cases hop : op = .land
    · subst hop
      obtain ⟨hx, hy⟩ := land_true h
      simp only [conjunctsInner, List.mem_append, List.mem_cons] at ha
      rcases ha with (rfl | ha) | rfl | ha
      · exact hx
      · exact ihx hx a ha
      · exact hy
      · exact ihy hy a ha
    · cases op <;> simp_all [conjunctsInner]
  | _ => intro h a ha; simp [conjunctsInner] at ha

theorem conjuncts_true {e : Expr} (h : e.eval W D = some (.bool true)) : ∀ a ∈ conjuncts e, a.eval W D = some (.bool true) := by
  intro a ha
  rcases List.mem_cons.mp ha with rfl | ha
  · exact h
  · exact conjunctsInner_true e h a ha

theorem scan_ands_true (T : Table) {e : Expr} (hc : Conjunction e) : e.eval W D = some (.bool true) → ∀ s : Scan,
    (∀ a ∈ s.ands, a.eval W D = some (.bool true)) → ∀ a ∈ (scan T e s).ands, a.eval W D = some (.bool true) := by
  induction hc with
  | single h => exact fun _ s hs a ha => hs a (scan_ands_noAnd T _ h s a ha)
  | paren _ ih => exact fun he s hs a ha => ih he { s with pre := [] } hs a ha
  | and _ _ iha ihb =>
    intro he s hs
    obtain ⟨hx, hy⟩ := land_true he
    refine ihb hy _ ?_
    intro a ha
    simp only [if_true, List.mem_append] at ha
    rcases ha with ha | ha
    · exact iha hx { s with pre := [] } hs a ha
    · exact conjuncts_true hx a ha

/-- the entry of a field which is mentioned once, at a place which is reached -/
theorem scan_ands (T : Table) (id : Nat) (hopt : T.isOptional id = true) (e : Expr) :
    (∀ a b, .binary .land a b ∈ parts e → Conjunction a) → mentions id e ≤ 1 → Reaches W D e (.symbol id) →
    ∀ s : Scan, (∀ a ∈ s.ands, a.eval W D = some (.bool true)) → ∀ x, (id, x) ∈ (scan T e s).refs →
    ∀ a ∈ x.ands, a.eval W D = some (.bool true) := by
  have once : ∀ e : Expr, Reaches W D e (.symbol id) → mentions id e ≠ 0 := by
    intro e h
    rw [ne_eq, mentions_zero_iff, not_not]
    exact ⟨_, reaches_mem h, rfl⟩
  induction e with
  | symbol i =>
    intro _ _ hr s hs x hx
    cases hr
    simp only [scan, leaf, hopt, if_true, put_self] at hx
    subst hx
    exact hs
  | member e i ih =>
    intro hl hm hr s hs x hx
    cases hr with
    | owner hr =>
      have h1 := once e hr
      simp only [mentions] at hm
      have hi : i ≠ id := by
        intro h
        simp [h] at hm
        exact h1 hm
      simp only [scan] at hx
      rw [leaf_other hi] at hx
      refine ih (fun a b h => hl a b (by simp [parts, h])) (by omega) hr s hs x hx
  | paren e ih => 
    intro hl hm hr s hs x hx
    cases hr with
    | paren hr => exact ih (fun a b h => hl a b (by simp [parts, h])) hm hr { s with pre := [] } hs x hx
  | call e ih => 
    intro hl hm hr s hs x hx
    cases hr with
    | call hr => exact ih (fun a b h => hl a b (by simp [parts, h])) hm hr { s with pre := [] } hs x hx
  | lengthof e ih => 
    intro hl hm hr s hs x hx
    cases hr with
    | lengthof hr => exact ih (fun a b h => hl a b (by simp [parts, h])) hm hr { s with pre := [] } hs x hx
  | valueof e ih => 
    intro hl hm hr s hs x hx
    cases hr with
    | valueof hr => exact ih (fun a b h => hl a b (by simp [parts, h])) hm hr { s with pre := [] } hs x hx
  | numbits e ih => 
    intro hl hm hr s hs x hx
    cases hr with
    | numbits hr => exact ih (fun a b h => hl a b (by simp [parts, h])) hm hr { s with pre := [] } hs x hx
  | unary op e ih => 
    intro hl hm hr s hs x hx
    cases hr with
    | unary hr => exact ih (fun a b h => hl a b (by simp [parts, h])) hm hr { s with pre := [] } hs x hx
  | element a b iha ihb =>
    intro hl hm hr s hs x hx
    simp only [mentions] at hm
    simp only [scan] at hx
    cases hr with
    | array hr =>
      have h1 := once a hr
      rw [scan_other T id x b (by omega)] at hx
      exact iha (fun a b h => hl a b (by simp [parts, h])) (by omega) hr { s with pre := [] } hs x hx
    | subscript _ hr =>
      exact ihb (fun a b h => hl a b (by simp [parts, h])) (by omega) hr _ (by simp) x hx
  | isset a b iha ihb =>
    intro hl hm hr s hs x hx
    simp only [mentions] at hm
    simp only [scan] at hx
    cases hr with
    | issetLeft hr =>
      have h1 := once a hr
      rw [scan_other T id x b (by omega)] at hx
      exact iha (fun a b h => hl a b (by simp [parts, h])) (by omega) hr { s with pre := [] } hs x hx
    | issetRight _ hr =>
      exact ihb (fun a b h => hl a b (by simp [parts, h])) (by omega) hr _ (by simp) x hx
  | binary op a b iha ihb =>
    intro hl hm hr s hs x hx
    simp only [mentions] at hm
    simp only [scan] at hx
    cases hr with
    | left hr =>
      have h1 := once a hr
      rw [scan_other T id x b (by omega)] at hx
      exact iha (fun a b h => hl a b (by simp [parts, h])) (by omega) hr { s with pre := [] } hs x hx
    | right hc hr =>
      refine ihb (fun a b h => hl a b (by simp [parts, h])) (by omega) hr _ ?_ x hx
      by_cases hop : op = .land
      · subst hop
        have ha : a.eval W D = some (.bool true) := hc
        intro z hz
        simp only [if_true, List.mem_append] at hz
        rcases hz with hz | hz
        · exact scan_ands_true T (hl a b (self_mem_parts _)) ha { s with pre := [] } hs z hz
        · exact conjuncts_true ha z hz
      · simp [hop]
  | cond c a b ihc iha ihb =>
    intro hl hm hr s hs x hx
    simp only [mentions] at hm
    simp only [scan] at hx
    cases hr with
    | condition hr =>
      have h1 := once c hr
      rw [scan_other T id x b (by omega), scan_other T id x a (by omega)] at hx
      exact ihc (fun a b h => hl a b (by simp [parts, h])) (by omega) hr { s with pre := [] } hs x hx
    | first _ hr =>
      have h1 := once a hr
      rw [scan_other T id x b (by omega)] at hx
      exact iha (fun a b h => hl a b (by simp [parts, h])) (by omega) hr _ (by simp) x hx
    | second _ hr =>
      exact ihb (fun a b h => hl a b (by simp [parts, h])) (by omega) hr _ (by simp) x hx
  | _ => intro _ _ hr; cases hr

end

theorem conjunct_mem {c e : Expr} (h : Conjunct c e) : removeParentheses c ∈ (conjuncts e).map removeParentheses := by
  induction h with
  | whole => simp [conjuncts]
  | paren _ ih =>
    simp only [conjuncts, List.map_cons, List.mem_cons, removeParentheses, conjunctsInner] at ih ⊢
    exact ih
  | left _ ih => 
    simp only [conjuncts, conjunctsInner, List.map_cons, List.map_append, List.mem_cons, List.mem_append] at ih ⊢
    exact .inr (.inl ih)
  | right _ ih => 
    simp only [conjuncts, conjunctsInner, List.map_cons, List.map_append, List.mem_cons, List.mem_append] at ih ⊢
    exact .inr (.inr ih)

theorem begins_mentions {id : Nat} {e : Expr} (h : Begins id e) : mentions id e ≠ 0 := by
  induction h <;> simp_all [mentions]

theorem scan_begins (T : Table) {id : Nat} (hopt : T.isOptional id = true) {e : Expr} (h : Begins id e) : mentions id e ≤ 1 →
    ∀ s : Scan, ∀ x, (id, x) ∈ (scan T e s).refs → x.ands = s.ands := by
  induction h with
  | here =>
    intro _ s x hx
    simp only [scan, leaf, hopt, if_true, put_self] at hx
    rw [hx]
  | paren _ ih | unary _ ih | lengthof _ ih | valueof _ ih | numbits _ ih =>
    intro hm s x hx
    exact ih hm { s with pre := [] } x hx
  | owner hb ih =>
    rename_i e i
    intro hm s x hx
    have := begins_mentions hb
    simp only [mentions] at hm
    have hi : i ≠ id := by
      intro h
      simp [h] at hm
      exact this hm
    simp only [scan] at hx
    rw [leaf_other hi] at hx
    exact ih (by omega) s x hx
  | array hb ih | left hb ih =>
    intro hm s x hx
    have := begins_mentions hb
    simp only [mentions] at hm
    simp only [scan] at hx
    rw [scan_other T id x _ (by omega)] at hx
    exact ih (by omega) { s with pre := [] } x hx

/-- what is collected on the left is part of the expression, or was there before -/
theorem conjunctsInner_parts (e : Expr) : ∀ a ∈ conjunctsInner e, a ∈ parts e := by
  induction e with
  | paren e ih => exact fun a ha => by simp [parts, ih a ha]
  | binary op x y ihx ihy =>
    intro a ha
    by_cases hop : op = .land
    · subst hop
      simp only [conjunctsInner, List.mem_append, List.mem_cons] at ha
      simp only [parts, List.mem_cons, List.mem_append]
      rcases ha with (rfl | ha) | rfl | ha
      · exact .inr (.inl (self_mem_parts _))
      · exact .inr (.inl (ihx a ha))
      · exact .inr (.inr (self_mem_parts _))
      · exact .inr (.inr (ihy a ha))
    · cases op <;> simp_all [conjunctsInner]
  | _ => intro a ha; simp [conjunctsInner] at ha

theorem conjuncts_parts (e a : Expr) (h : a ∈ conjuncts e) : a ∈ parts e := by
  rcases List.mem_cons.mp h with rfl | h
  · exact self_mem_parts _
  · exact conjunctsInner_parts e a h

theorem scan_ands_parts (T : Table) (e : Expr) : ∀ s : Scan,
    (∀ a ∈ (scan T e s).ands, a ∈ s.ands ∨ a ∈ parts e) ∧
    ∀ id x, (id, x) ∈ (scan T e s).refs → (id, x) ∈ s.refs ∨ ∀ a ∈ x.ands, a ∈ s.ands ∨ a ∈ parts e := by
  have leaf' : ∀ i s id x, (id, x) ∈ (leaf T i s).refs → (id, x) ∈ s.refs ∨ x.ands = s.ands := by
    intro i s id x h
    rcases leaf_entry T i id s x h with h | ⟨_, rfl⟩
    · exact .inl h
    · exact .inr rfl
  have two : ∀ (w a b : Expr) (s : Scan) (more : List Expr),
      (∀ r, r ∈ parts a ∨ r ∈ parts b → r ∈ parts w) → (∀ c ∈ more, c ∈ s.ands ∨ c ∈ parts w) →
      (∀ s : Scan, (∀ c ∈ (scan T b s).ands, c ∈ s.ands ∨ c ∈ parts b) ∧
        ∀ id x, (id, x) ∈ (scan T b s).refs → (id, x) ∈ s.refs ∨ ∀ c ∈ x.ands, c ∈ s.ands ∨ c ∈ parts b) →
      ∀ refs, (∀ id x, (id, x) ∈ refs → (id, x) ∈ s.refs ∨ ∀ c ∈ x.ands, c ∈ s.ands ∨ c ∈ parts w) →
      (∀ c ∈ (scan T b ⟨refs, [], more⟩).ands, c ∈ s.ands ∨ c ∈ parts w) ∧
        ∀ id x, (id, x) ∈ (scan T b ⟨refs, [], more⟩).refs → (id, x) ∈ s.refs ∨ ∀ c ∈ x.ands, c ∈ s.ands ∨ c ∈ parts w := by
    intro w a b s more hp hm hb refs hr
    obtain ⟨h1, h2⟩ := hb ⟨refs, [], more⟩
    constructor
    · intro c hc
      rcases h1 c hc with h | h
      · exact hm c h
      · exact .inr (hp c (.inr h))
    · intro id x hx
      rcases h2 id x hx with h | h
      · exact hr id x h
      · refine .inr fun c hc => ?_
        rcases h c hc with h | h
        · exact hm c h
        · exact .inr (hp c (.inr h))
  induction e with
  | symbol i =>
    intro s
    refine ⟨fun a ha => .inl ha, fun id x hx => ?_⟩
    rcases leaf' i s id x hx with h | h
    · exact .inl h
    · exact .inr fun a ha => .inl (h ▸ ha)
  | member e i ih =>
    intro s
    obtain ⟨h1, h2⟩ := ih s
    have lift : ∀ a, a ∈ s.ands ∨ a ∈ parts e → a ∈ s.ands ∨ a ∈ parts (.member e i) := by
      intro a h
      simp only [parts, List.mem_cons]
      tauto
    refine ⟨fun a ha => lift a (h1 a ha), fun id x hx => ?_⟩
    rcases leaf' i _ id x hx with h | h
    · rcases h2 id x h with h | h
      · exact .inl h
      · exact .inr fun a ha => lift a (h a ha)
    · exact .inr fun a ha => lift a (h1 a (h ▸ ha))
  | paren e ih | call e ih | lengthof e ih | valueof e ih | numbits e ih | unary _ e ih =>
    intro s
    obtain ⟨h1, h2⟩ := ih { s with pre := [] }
    refine ⟨fun a ha => ?_, fun id x hx => ?_⟩
    · rcases h1 a ha with h | h
      · exact .inl h
      · exact .inr (by simp [parts, h])
    · rcases h2 id x hx with h | h
      · exact .inl h
      · refine .inr fun a ha => ?_
        rcases h a ha with h | h
        · exact .inl h
        · exact .inr (by simp [parts, h])
  | element a b iha ihb | isset a b iha ihb =>
    intro s
    obtain ⟨h1, h2⟩ := iha { s with pre := [] }
    refine two _ a b s [] (fun r hr => by simp only [parts, List.mem_cons, List.mem_append]; exact .inr hr) (by simp) ihb _ ?_
    intro id x hx
    rcases h2 id x hx with h | h
    · exact .inl h
    · refine .inr fun c hc => ?_
      rcases h c hc with h | h
      · exact .inl h
      · exact .inr (by simp [parts, h])
  | binary op a b iha ihb =>
    intro s
    obtain ⟨h1, h2⟩ := iha { s with pre := [] }
    refine two _ a b s _ (fun r hr => by simp only [parts, List.mem_cons, List.mem_append]; exact .inr hr) ?_ ihb _ ?_
    · intro c hc
      split at hc
      · rcases List.mem_append.mp hc with hc | hc
        · rcases h1 c hc with h | h
          · exact .inl h
          · exact .inr (by simp [parts, h])
        · exact .inr (by simp [parts, conjuncts_parts a c hc])
      · simp at hc
    · intro id x hx
      rcases h2 id x hx with h | h
      · exact .inl h
      · refine .inr fun c hc => ?_
        rcases h c hc with h | h
        · exact .inl h
        · exact .inr (by simp [parts, h])
  | cond c a b ihc iha ihb =>
    intro s
    obtain ⟨h1, h2⟩ := ihc { s with pre := [] }
    obtain ⟨_, h3⟩ := iha ⟨(scan T c { s with pre := [] }).refs, [], []⟩
    refine two _ a b s [] (fun r hr => by simp only [parts, List.mem_cons, List.mem_append]; tauto) (by simp) ihb _ ?_
    intro id x hx
    rcases h3 id x hx with h | h
    · rcases h2 id x h with h | h
      · exact .inl h
      · refine .inr fun c hc => ?_
        rcases h c hc with h | h
        · exact .inl h
        · exact .inr (by simp [parts, h])
    · refine .inr fun c hc => ?_
      rcases h c hc with h | h
      · simp at h
      · exact .inr (by simp [parts, h])
  | _ => intro s; exact ⟨fun a ha => .inl ha, fun id x hx => .inl hx⟩

theorem referenced_parts (T : Table) (e : Expr) (id : Nat) (x : Info) (h : (id, x) ∈ referenced T e) : ∀ a ∈ x.ands, a ∈ parts e := by
  rcases (scan_ands_parts T e {}).2 id x h with h | h
  · simp at h
  · intro a ha
    rcases h a ha with h | h
    · simp at h
    · exact h

end Zserio.Expression.OptionalRefs
