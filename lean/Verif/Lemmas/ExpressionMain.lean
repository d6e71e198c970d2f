import Verif.Lemmas.Expression
/-
The formatted text of an expression is a Python expression with the value of the expression.
-/
set_option linter.unusedSimpArgs false
namespace Zserio.Expression

variable {O : Type} {W : PyWorld O} {Γ : Signature} {names : Names} {T : O → Ty → Prop}

/-- The text of `e` has a tree by the rule of its outermost operator, and the tree has the value of `e`. -/
def Expr.Formats (W : PyWorld O) (Γ : Signature) (names : Names) (e : Expr) : Prop :=
  ∃ t, Derives e.pyLevel (e.format Γ names) t ∧ ∀ v, e.eval W.toWorld .floor = some v → t.eval W = .ok v

/-- The same for `e == b` and `e != b` with booleans. -/
def Expr.FormatsEqual (W : PyWorld O) (Γ : Signature) (names : Names) (e : Expr) : Prop :=
  ∀ (op : BinOp) (bs : List Tok) (tb : PyExpr), op = .eq ∨ op = .ne → Derives 5 bs tb →
    ∃ t, Derives 3 (e.format Γ names ++ op.token false :: bs) t ∧
      ∀ x y, e.eval W.toWorld .floor = some (.bool x) → tb.eval W = .ok (.bool y) →
        t.eval W = .ok (.bool (if op = .eq then x == y else x != y))

theorem Expr.Formats.at {e : Expr} (h : e.Formats W Γ names) {n : Nat} (hn : n ≤ e.pyLevel) :
    ∃ t, Derives n (e.format Γ names) t ∧ ∀ v, e.eval W.toWorld .floor = some v → t.eval W = .ok v := by
  obtain ⟨t, h1, h2⟩ := h
  exact ⟨t, h1.weaken hn (pyLevel_le e), h2⟩

/-- an operand which is an atom -/
theorem formatsEqual_atom {e : Expr} (h : e.Formats W Γ names) (hl : e.level = 12) : e.FormatsEqual W Γ names := by
  have h12 : e.pyLevel = 12 := by
    cases e with
    | binary op _ _ => cases op <;> simp [Expr.level, BinOp.level] at hl
    | _ => simp [Expr.level] at hl <;> rfl
  obtain ⟨t, h1, h2⟩ := h.at (n := 5) (by omega)
  intro op bs tb ho hb
  have key : ∀ c : CmpOp, op.cmp = some c → (op.token false).comparison = some c →
      (∀ x y : Bool, op.apply W.toWorld .floor (.bool x) (.bool y) = some (.bool (if op = .eq then x == y else x != y))) →
      ∃ t, Derives 3 (e.format Γ names ++ op.token false :: bs) t ∧
      ∀ x y, e.eval W.toWorld .floor = some (.bool x) → tb.eval W = .ok (.bool y) →
        t.eval W = .ok (.bool (if op = .eq then x == y else x != y)) := by
    intro c hc hk happ
    refine ⟨.compare t (.last c tb), .notTest (.compare h1 (.last hk hb)), fun x y hx hy => ?_⟩
    exact eval_compare hc (h2 _ hx) hy (happ x y)
  rcases ho with rfl | rfl
  · exact key .eq rfl rfl fun x y => by cases x <;> cases y <;> rfl
  · exact key .ne rfl rfl fun x y => by cases x <;> cases y <;> rfl

theorem formatsEqual_bang {e : Expr} (h : e.FormatsEqual W Γ names) (_hl : 11 ≤ e.level) : (Expr.unary .bang e).FormatsEqual W Γ names := by
  intro op bs tb ho hb
  obtain ⟨t, h1, h2⟩ := h op bs tb ho hb
  refine ⟨.not t, .not h1, fun x y hx hy => ?_⟩
  simp only [Expr.eval] at hx
  split at hx
  · rename_i w hw
    obtain ⟨z, rfl, hz⟩ := bang_apply hx
    cases hz
    have := h2 z y hw hy
    simp only [PyExpr.eval, this, bind, Except.bind, Value.truth]
    rcases ho with rfl | rfl <;> cases z <;> cases y <;> rfl
  · cases hx

theorem formats_valueof {e : Expr} (h : e.Formats W Γ names) {t : Ty} (ht : e.type Γ = some t) (ht' : (Expr.valueof e).type Γ ≠ none)
    (hc : ∀ c, e.type Γ = some (.enum c) → e.IsConditional = false) : (Expr.valueof e).Formats W Γ names := by
  have heval : ∀ (t : PyExpr) v, (∀ v, e.eval W.toWorld .floor = some v → t.eval W = .ok v) → (Expr.valueof e).eval W.toWorld .floor = some v →
      (PyExpr.attr t (py! "value")).eval W = .ok v := by
    intro t v h2 hv
    simp only [Expr.eval] at hv
    split at hv
    · rename_i hx
      cases hv
      simp only [PyExpr.eval, h2 _ hx, bind, Except.bind, if_true]
    · rename_i hx
      cases hv
      simp only [PyExpr.eval, h2 _ hx, bind, Except.bind, if_true]
    · cases hv
  unfold Expr.Formats
  simp only [Expr.format, ht]
  cases t with
  | bitmask c =>
    obtain ⟨t, h1, h2⟩ := h
    refine ⟨.attr t (py! "value"), ?_, fun v hv => heval t v h2 hv⟩
    have := (h1.paren (pyLevel_le e)).trailers (.attr (s := py! "value") .nil)
    simpa only [List.cons_append, List.append_assoc, List.nil_append, Expr.pyLevel] using this
  | enum c =>
    have h12 : e.pyLevel = 12 := by
      have h0 := hc c ht
      cases e with
      | unary op e =>
        simp only [Expr.type, Option.bind_eq_bind, Option.bind_eq_some_iff] at ht
        obtain ⟨ta, _, ht⟩ := ht
        cases op <;> cases ta <;> simp [UnOp.type] at ht
      | binary op a b =>
        simp only [Expr.type, Option.bind_eq_bind, Option.bind_eq_some_iff] at ht
        obtain ⟨ta, _, tb, _, ht⟩ := ht
        unfold BinOp.type at ht
        split at ht <;> (try split at ht) <;> (try split at ht) <;> simp only [Option.some.injEq, reduceCtorEq] at ht <;> split at ht <;> cases ht
      | cond c a b => simp [Expr.IsConditional] at h0
      | _ => rfl
    obtain ⟨t, h1, h2⟩ := h
    rw [h12] at h1
    exact ⟨.attr t (py! "value"), h1.trailers (.attr .nil), fun v hv => heval t v h2 hv⟩
  | _ => simp [Expr.type, ht] at ht'

theorem binary_token {op : BinOp} {i : Bool} {a : ArithOp} (h : op.arith i = some a) (x y : Expr) :
    (op.token i).binary = some ((Expr.binary op x y).pyLevel, .arith a) := by
  cases op <;> simp only [BinOp.arith, Option.some.injEq, reduceCtorEq] at h <;> subst h <;> (try rfl)
  cases i <;> rfl

theorem formats (hW : W.toWorld.Typed Γ T) (hA : Agrees W names) (e : Expr) :
    ∀ ty, e.type Γ = some ty → e.Parsed → e.Parenthesised Γ → e.Literals →
      e.Formats W Γ names ∧ (ty = .bool → 11 ≤ e.level → e.FormatsEqual W Γ names) := by
  have atom : ∀ {e : Expr} {ty : Ty}, e.level = 12 → e.Formats W Γ names →
      e.Formats W Γ names ∧ (ty = .bool → 11 ≤ e.level → e.FormatsEqual W Γ names) :=
    fun hl h => ⟨h, fun _ _ => formatsEqual_atom h hl⟩
  induction e with
  | intLit b digits =>
    intro ty _ _ _ hlit
    refine atom rfl ⟨.number (b.prefix ++ digits), .atom .number, fun v hv => ?_⟩
    simp only [Expr.eval, Option.some.injEq] at hv
    subst hv
    simp only [PyExpr.eval, pyNumber_literal hlit.1 hlit.2.1 hlit.2.2]
  | floatLit text =>
    intro ty _ _ _ _
    refine atom rfl ⟨.float text, .atom .float, fun v hv => ?_⟩
    simp only [Expr.eval, Option.some.injEq] at hv
    subst hv
    rfl
  | strLit text =>
    intro ty _ _ _ _
    refine atom rfl ⟨.str text, .atom .str, fun v hv => ?_⟩
    simp only [Expr.eval, Option.some.injEq] at hv
    subst hv
    rfl
  | boolLit b =>
    intro ty _ _ _ _
    refine atom rfl ⟨.const b, ?_, fun v hv => ?_⟩
    · cases b
      · exact .atom .false
      · exact .atom .true
    · simp only [Expr.eval, Option.some.injEq] at hv
      subst hv
      rfl
  | index =>
    intro ty _ _ _ _
    refine atom rfl ⟨.name (py! "zserio_index"), .atom .name, fun v hv => ?_⟩
    simp only [Expr.eval, Option.map_eq_some_iff] at hv
    obtain ⟨i, hi, rfl⟩ := hv
    simp only [PyExpr.eval, hA.index i hi]
  | symbol id =>
    intro ty _ _ _ _
    exact atom rfl ⟨_, dotted_derives _ _, fun v hv => hA.symbol id v hv⟩
  | paren e ih =>
    intro ty ht hp hs hlit
    obtain ⟨t, h1, h2⟩ := (ih ty ht hp hs hlit).1
    exact atom rfl ⟨t, h1.paren (pyLevel_le e), h2⟩
  | call e ih =>
    intro ty ht hp hs hlit
    simp only [Expr.type] at ht
    split at ht
    · rename_i ht'
      obtain ⟨t, h1, h2⟩ := (ih _ ht' hp.1 hs hlit).1.at (n := 12) (by
        have := (level_of_not_bool ht' (by simp) (n := 12) (by have := hp.2; omega) (by omega)).2.2.2.2; omega)
      refine atom rfl ⟨.call0 t, h1.trailers (.call0 .nil), fun v hv => ?_⟩
      simp only [Expr.eval] at hv
      split at hv
      · rename_i o ho
        simp only [PyExpr.eval, h2 _ ho, bind, Except.bind, hv]
      · cases hv
    · cases ht
  | element e i ih ihi =>
    intro ty ht hp hs hlit
    simp only [Expr.type] at ht
    split at ht
    · rename_i ht' hti
      obtain ⟨t, h1, h2⟩ := (ih _ ht' hp.1 hs.1 hlit.1).1.at (n := 12) (by
        have := (level_of_not_bool ht' (by simp) (n := 12) (by have := hp.2.1; omega) (by omega)).2.2.2.2; omega)
      obtain ⟨ti, h3, h4⟩ := (ihi _ hti hp.2.2 hs.2 hlit.2).1.at (n := 0) (Nat.zero_le _)
      refine atom rfl ⟨.item t ti, h1.trailers (.item h3 .nil), fun v hv => ?_⟩
      simp only [Expr.eval] at hv
      split at hv
      · rename_i o i ho hi
        split at hv
        · cases hv
        · rename_i hneg
          simp only [PyExpr.eval, h2 _ ho, h4 _ hi, bind, Except.bind, if_neg hneg, hv]
      · cases hv
    · cases ht
  | member e id ih =>
    intro ty ht hp hs hlit
    simp only [Expr.type] at ht
    split at ht
    · rename_i ht'
      obtain ⟨t, h1, h2⟩ := (ih _ ht' hp.1 hs hlit).1.at (n := 12) (by
        have := (level_of_not_bool ht' (by simp) (n := 12) (by have := hp.2; omega) (by omega)).2.2.2.2; omega)
      refine atom rfl ⟨.attr t (names.member id), h1.trailers (.attr .nil), fun v hv => ?_⟩
      simp only [Expr.eval] at hv
      split at hv
      · rename_i o ho
        simp only [PyExpr.eval, h2 _ ho, bind, Except.bind, hA.member _ _ _ hv]
      · cases hv
    · cases ht
  | isset a b iha ihb =>
    intro ty ht hp hs hlit
    simp only [Expr.type] at ht
    split at ht
    · rename_i hta htb
      obtain ⟨ta, h1, h2⟩ := (iha _ hta hp.1 hs.1 hlit.1).1.at (n := 0) (Nat.zero_le _)
      obtain ⟨tb, h3, h4⟩ := (ihb _ htb hp.2 hs.2 hlit.2).1.at (n := 0) (Nat.zero_le _)
      refine atom rfl ⟨.call2 (dottedTree (py! "zserio") [py! "builtin", py! "isset"]) ta tb,
        builtin_derives (.call2 h1 h3 .nil) (by simp [Expr.format]), fun v hv => ?_⟩
      simp only [Expr.eval] at hv
      split at hv
      · rename_i c x c' y hx hy
        split at hv
        · rename_i hm
          obtain ⟨rfl, hm⟩ := hm
          cases hv
          have hf : (dottedTree (py! "zserio") [py! "builtin", py! "isset"]).function = some .isset := rfl
          have hband : pyArith W .band (.bitmask c x) (.bitmask c y) = .ok (.bitmask c (Int.land x y)) :=
            mask_arith hA (op := .band) (i := false) rfl (by simp only [BinOp.apply, true_and]; rw [if_pos hm])
          simp only [PyExpr.eval, h2 _ hx, h4 _ hy, bind, Except.bind, hf, pyIsset, hband, pyEq, true_and]
        · cases hv
      · cases hv
    · cases ht
  | lengthof e ih =>
    intro ty ht hp hs hlit
    simp only [Expr.type] at ht
    have hte : ∃ te, e.type Γ = some te := by
      cases h : e.type Γ with
      | none => simp [h] at ht
      | some te => exact ⟨te, rfl⟩
    obtain ⟨te, hte⟩ := hte
    obtain ⟨t, h1, h2⟩ := (ih _ hte hp hs hlit).1.at (n := 0) (Nat.zero_le _)
    have hsound := fun v => type_sound hW .floor e (v := v) hte
    by_cases hstr : te = .str
    · subst hstr
      refine atom rfl ⟨.call1 (dottedTree (py! "zserio") [py! "builtin", py! "lengthof_string"]) t,
        builtin_derives (.call1 h1 .nil) (by simp [Expr.format, hte]), fun v hv => ?_⟩
      simp only [Expr.eval] at hv
      have hf : (dottedTree (py! "zserio") [py! "builtin", py! "lengthof_string"]).function = some .lengthofString := rfl
      split at hv
      · rename_i o ho
        exact absurd (hsound _ ho) (by simp [Value.HasType])
      · rename_i s hsv
        split at hv
        · rename_i bs hbs
          cases hv
          simp only [PyExpr.eval, h2 _ hsv, bind, Except.bind, hf, pyLengthofString, lengthofString, hbs, Except.map]
        · cases hv
      · rename_i bs hbs
        exact absurd (hsound _ hbs) (by simp [Value.HasType])
      · cases hv
    · have hne : ¬ (some te = some Ty.str) := by simpa using hstr
      refine atom rfl ⟨.call1 (.name (py! "len")) t, ?_, fun v hv => ?_⟩
      · have := (Derives.atom (Atom.name (s := py! "len"))).trailers (.call1 h1 .nil)
        simp only [Expr.format, hte, if_neg hne]
        exact this
      · simp only [Expr.eval] at hv
        have hf : (PyExpr.name (py! "len")).function = some .len := rfl
        split at hv
        · rename_i o ho
          obtain ⟨n, hn, rfl⟩ := Option.map_eq_some_iff.1 hv
          simp only [PyExpr.eval, h2 _ ho, bind, Except.bind, hf, pyLen, hn]
        · rename_i s hsv
          have := hsound _ hsv
          cases te <;> simp [Value.HasType] at this hstr
        · rename_i bs hbs
          cases hv
          simp only [PyExpr.eval, h2 _ hbs, bind, Except.bind, hf, pyLen]
        · cases hv
  | valueof e ih =>
    intro ty ht hp hs hlit
    have hte : ∃ te, e.type Γ = some te := by
      simp only [Expr.type] at ht
      cases h : e.type Γ with
      | none => simp [h] at ht
      | some te => exact ⟨te, rfl⟩
    obtain ⟨te, hte⟩ := hte
    exact atom rfl (formats_valueof (ih _ hte hp hs.1 hlit).1 hte (by rw [ht]; simp) hs.2)
  | numbits e ih =>
    intro ty ht hp hs hlit
    simp only [Expr.type] at ht
    split at ht
    · rename_i hte
      obtain ⟨t, h1, h2⟩ := (ih _ hte hp hs hlit).1.at (n := 0) (Nat.zero_le _)
      refine atom rfl ⟨.call1 (dottedTree (py! "zserio") [py! "builtin", py! "numbits"]) t,
        builtin_derives (.call1 h1 .nil) (by simp [Expr.format, hte]), fun v hv => ?_⟩
      simp only [Expr.eval] at hv
      have hf : (dottedTree (py! "zserio") [py! "builtin", py! "numbits"]).function = some .numbits := rfl
      split at hv
      · rename_i x hx
        split at hv
        · cases hv
        · rename_i hneg
          cases hv
          simp only [PyExpr.eval, h2 _ hx, bind, Except.bind, hf, Value.asInt, pyNumbits, if_neg hneg, numbits_clog]
      · cases hv
    · cases ht
  | unary op e ih =>
    intro ty ht hp hs hlit
    simp only [Expr.type, Option.bind_eq_bind, Option.bind_eq_some_iff] at ht
    obtain ⟨te, hte, ht⟩ := ht
    obtain ⟨ihf, ihe⟩ := ih te hte hp.1 hs hlit
    by_cases hb : op = .bang
    · subst hb
      have hbool : te = .bool := by cases te <;> simp [UnOp.type] at ht <;> rfl
      subst hbool
      refine ⟨?_, fun _ _ => formatsEqual_bang (ihe rfl hp.2) hp.2⟩
      have h3 : 3 ≤ e.pyLevel := by
        have := hp.2
        cases e with
        | unary op _ => cases op <;> simp [Expr.pyLevel]
        | binary op _ _ => cases op <;> simp [Expr.level, BinOp.level] at this
        | cond _ _ _ => simp [Expr.level] at this
        | _ => simp [Expr.pyLevel]
      obtain ⟨t, h1, h2⟩ := ihf.at h3
      refine ⟨.not t, .not h1, fun v hv => ?_⟩
      simp only [Expr.eval] at hv
      split at hv
      · rename_i x hx
        obtain ⟨z, rfl, rfl⟩ := bang_apply hv
        simp only [PyExpr.eval, h2 _ hx, bind, Except.bind, Value.truth]
      · cases hv
    · have hnb : te ≠ .bool := by
        rintro rfl
        cases op <;> simp [UnOp.type] at ht hb
      refine ⟨?_, fun hty _ => absurd ((UnOp.type_not_bool ht).1 hty) hb⟩
      have h11 := (level_of_not_bool hte hnb hp.2 (by omega)).2.2.2.2 (by omega)
      obtain ⟨t, h1, h2⟩ := ihf.at h11
      obtain ⟨s, hsgn⟩ : ∃ s, op.sign = some s := by cases op <;> first | exact ⟨_, rfl⟩ | exact absurd rfl hb
      have hlev : (Expr.unary op e).pyLevel = 11 := by cases op <;> first | rfl | exact absurd rfl hb
      have htok : op.token.sign = some s := by cases op <;> first | exact hsgn | exact absurd rfl hb
      refine ⟨.sign s t, hlev ▸ .sign htok h1, fun v hv => ?_⟩
      simp only [Expr.eval] at hv
      split at hv
      · rename_i x hx
        simp only [PyExpr.eval, h2 _ hx, bind, Except.bind]
        exact sign_apply hA hsgn hv
      · cases hv
  | binary op a b iha ihb =>
    intro ty ht hp hs hlit
    have htfull := ht
    simp only [Expr.type, Option.bind_eq_bind, Option.bind_eq_some_iff] at ht
    obtain ⟨ta, hta, tb, htb, ht⟩ := ht
    obtain ⟨iha, ihae⟩ := iha ta hta hp.1 hs.1 hlit.1
    obtain ⟨ihb, _⟩ := ihb tb htb hp.2.2.1 hs.2.1 hlit.2
    obtain ⟨hpa, hla, hpb, hlb⟩ := hp
    refine ⟨?_, fun _ hl => absurd hl (by cases op <;> simp [Expr.level, BinOp.level])⟩
    by_cases h1 : op = .land
    · subst h1
      obtain ⟨xa, ha1, ha2⟩ := iha.at (n := 2) (by
        cases a with
        | unary op _ => cases op <;> simp [Expr.pyLevel]
        | binary op _ _ => cases op <;> simp [Expr.level, BinOp.level, Expr.pyLevel] at hla ⊢
        | cond _ _ _ => simp [Expr.level, BinOp.level] at hla
        | _ => simp [Expr.pyLevel])
      obtain ⟨xb, hb1, hb2⟩ := ihb.at (n := 3) (by
        cases b with
        | unary op _ => cases op <;> simp [Expr.pyLevel]
        | binary op _ _ => cases op <;> simp [Expr.level, BinOp.level, Expr.pyLevel] at hlb ⊢
        | cond _ _ _ => simp [Expr.level, BinOp.level] at hlb
        | _ => simp [Expr.pyLevel])
      refine ⟨.and xa xb, .binary rfl ha1 hb1, fun v hv => ?_⟩
      rcases eval_land hv with ⟨hx, hy, y, rfl⟩ | ⟨hx, rfl⟩
      · simp only [PyExpr.eval, ha2 _ hx, hb2 _ hy, bind, Except.bind, Value.truth, if_true]
      · simp only [PyExpr.eval, ha2 _ hx, bind, Except.bind, Value.truth, if_false, Bool.false_eq_true]
    by_cases h2 : op = .lor
    · subst h2
      obtain ⟨xa, ha1, ha2⟩ := iha.at (n := 1) (by
        cases a with
        | unary op _ => cases op <;> simp [Expr.pyLevel]
        | binary op _ _ => cases op <;> simp [Expr.level, BinOp.level, Expr.pyLevel] at hla ⊢
        | cond _ _ _ => simp [Expr.level, BinOp.level] at hla
        | _ => simp [Expr.pyLevel])
      obtain ⟨xb, hb1, hb2⟩ := ihb.at (n := 2) (by
        cases b with
        | unary op _ => cases op <;> simp [Expr.pyLevel]
        | binary op _ _ => cases op <;> simp [Expr.level, BinOp.level, Expr.pyLevel] at hlb ⊢
        | cond _ _ _ => simp [Expr.level, BinOp.level] at hlb
        | _ => simp [Expr.pyLevel])
      refine ⟨.or xa xb, .binary rfl ha1 hb1, fun v hv => ?_⟩
      rcases eval_lor hv with ⟨hx, hy, y, rfl⟩ | ⟨hx, rfl⟩
      · simp only [PyExpr.eval, ha2 _ hx, hb2 _ hy, bind, Except.bind, Value.truth, if_false, Bool.false_eq_true]
      · simp only [PyExpr.eval, ha2 _ hx, bind, Except.bind, Value.truth, if_true]
    by_cases hcmp : ∃ c, op.cmp = some c
    · obtain ⟨c, hc⟩ := hcmp
      have htok : ∀ i, (op.token i).comparison = some c := by
        intro i; cases op <;> simp only [BinOp.cmp, Option.some.injEq, reduceCtorEq] at hc <;> subst hc <;> rfl
      have hlev : (Expr.binary op a b).pyLevel = 3 := by
        cases op <;> simp only [BinOp.cmp, reduceCtorEq] at hc <;> rfl
      have htyb : ((Expr.binary op a b).type Γ == some .int) = false := by
        have hbool : ty = .bool := (BinOp.type_not_bool ht).2 (by cases op <;> simp [BinOp.cmp, BinOp.level] at hc ⊢)
        rw [htfull, hbool]; rfl
      have h6 : 6 ≤ op.level := by cases op <;> simp [BinOp.cmp, BinOp.level] at hc ⊢
      have hsame : ta = .bool ∨ (ta ≠ .bool ∧ tb ≠ .bool) := by
        cases op <;> simp only [BinOp.cmp, reduceCtorEq] at hc <;> cases ta <;> cases tb <;> simp [BinOp.type, Ty.numeric] at ht ⊢
      rcases hsame with rfl | ⟨hna, hnb⟩
      · -- booleans
        have heq : (op = .eq ∨ op = .ne) ∧ tb = .bool := by
          cases op <;> simp only [BinOp.cmp, reduceCtorEq] at hc <;> cases tb <;> simp [BinOp.type, Ty.numeric] at ht ⊢
        obtain ⟨heq, rfl⟩ := heq
        obtain ⟨hs1, hs2, hs3⟩ := hs.2.2 heq
        have ha11 : 11 ≤ a.level := by
          cases a with
          | binary op' x y =>
            simp only [Expr.type, Option.bind_eq_bind, Option.bind_eq_some_iff] at hta
            obtain ⟨_, _, _, _, hta⟩ := hta
            have hl := (BinOp.type_not_bool hta).1 rfl
            simp only [Expr.IsComparison, Bool.or_eq_false_iff, beq_eq_false_iff_ne] at hs1
            simp only [Expr.level] at hla
            omega
          | cond _ _ _ => simp only [Expr.level] at hla; omega
          | _ => simp [Expr.level]
        have hb5 : 5 ≤ b.pyLevel := by
          cases b with
          | binary op' x y =>
            simp only [Expr.type, Option.bind_eq_bind, Option.bind_eq_some_iff] at htb
            obtain ⟨_, _, _, _, htb⟩ := htb
            have hl := (BinOp.type_not_bool htb).1 rfl
            simp only [Expr.IsComparison, Bool.or_eq_false_iff, beq_eq_false_iff_ne] at hs2
            simp only [Expr.level] at hlb
            omega
          | unary op' x => cases op' <;> simp [Expr.IsNegation, Expr.pyLevel] at hs3 ⊢
          | cond _ _ _ => simp only [Expr.level] at hlb; omega
          | _ => simp [Expr.pyLevel]
        obtain ⟨xb, hb1, hb2⟩ := ihb.at hb5
        obtain ⟨t, ht1, ht2⟩ := ihae rfl ha11 op _ xb heq hb1
        unfold Expr.Formats
        simp only [Expr.format, htyb, hlev]
        refine ⟨t, ht1, fun v hv => ?_⟩
        obtain ⟨x, y, hx, hy, hv⟩ := eval_binary h1 h2 hv
        obtain ⟨p, rfl⟩ := hasType_bool (type_sound hW .floor a hta hx)
        obtain ⟨q, rfl⟩ := hasType_bool (type_sound hW .floor b htb hy)
        rw [ht2 p q hx (hb2 _ hy)]
        rcases heq with rfl | rfl <;> simp only [BinOp.apply, BinOp.equality, Option.map_some, Option.some.injEq] at hv <;>
          subst hv <;> cases p <;> cases q <;> rfl
      · have la := (level_of_not_bool hta hna (Nat.le_trans h6 hla) (by omega)).2.2.2.1 (by omega)
        have lb := (level_of_not_bool htb hnb (Nat.le_trans h6 (Nat.le_of_lt hlb)) (by omega)).2.2.2.1 (by omega)
        obtain ⟨xa, ha1, ha2⟩ := iha.at (n := 5) (by omega)
        obtain ⟨xb, hb1, hb2⟩ := ihb.at (n := 5) (by omega)
        unfold Expr.Formats
        simp only [Expr.format, hlev]
        refine ⟨.compare xa (.last c xb), .notTest (.compare ha1 (.last (htok _) hb1)), fun v hv => ?_⟩
        obtain ⟨x, y, hx, hy, hv⟩ := eval_binary h1 h2 hv
        exact eval_compare hc (ha2 _ hx) (hb2 _ hy) hv
    · -- arithmetic
      obtain ⟨o, ho⟩ : ∃ o, op.arith ((Expr.binary op a b).type Γ == some .int) = some o := by
        cases op <;> first | exact ⟨_, rfl⟩ | exact absurd ⟨_, rfl⟩ hcmp | exact absurd rfl h1 | exact absurd rfl h2
      have hnb : ta ≠ .bool ∧ tb ≠ .bool := by
        cases op <;> first
          | exact absurd ⟨_, rfl⟩ hcmp
          | exact absurd rfl h1
          | exact absurd rfl h2
          | (constructor <;> rintro rfl <;> (try cases ta) <;> (try cases tb) <;> simp [BinOp.type, Ty.numeric] at ht)
      have hla' := fun n h0 h => level_of_not_bool hta hnb.1 (n := n) h h0
      have hlb' := fun n h0 h => level_of_not_bool htb hnb.2 (n := n) h h0
      have hl : (Expr.binary op a b).pyLevel ≤ a.pyLevel ∧ (Expr.binary op a b).pyLevel + 1 ≤ b.pyLevel := by
        have ha := hla' op.level (by cases op <;> simp [BinOp.level]) hla
        have hb := hlb' (op.level + 1) (by omega) hlb
        cases op <;> simp only [BinOp.level, Expr.pyLevel] at ha hb ⊢ <;> first
          | exact absurd ⟨_, rfl⟩ hcmp
          | exact absurd rfl h1
          | exact absurd rfl h2
          | omega
      obtain ⟨xa, ha1, ha2⟩ := iha.at hl.1
      obtain ⟨xb, hb1, hb2⟩ := ihb.at hl.2
      refine ⟨.arith o xa xb, .binary (binary_token ho a b) ha1 hb1, fun v hv => ?_⟩
      obtain ⟨x, y, hx, hy, hv⟩ := eval_binary h1 h2 hv
      refine eval_arith hA ho ?_ (ha2 _ hx) (hb2 _ hy) hv
      rintro rfl
      have hxt := type_sound hW .floor a hta hx
      have hyt := type_sound hW .floor b htb hy
      rw [htfull]
      simp only [BinOp.type] at ht
      split at ht
      · rename_i hnum
        simp only [Option.some.injEq] at ht
        subst ht
        cases ta <;> simp [Ty.numeric] at hnum <;> cases tb <;> simp [Ty.numeric] at hnum <;>
          cases x <;> simp [Value.HasType] at hxt <;> cases y <;> simp [Value.HasType] at hyt <;> simp
      · cases ht
  | cond c a b ihc iha ihb =>
    intro ty ht hp hs hlit
    simp only [Expr.type] at ht
    split at ht
    · rename_i hty
      obtain ⟨xc, hc1, hc2⟩ := (ihc _ hty.1 hp.1 hs.1 hlit.1).1
      obtain ⟨xa, ha1, ha2⟩ := (iha _ ht hp.2.2.1 hs.2.1 hlit.2.1).1
      obtain ⟨xb, hb1, hb2⟩ := (ihb _ (hty.2 ▸ ht) hp.2.2.2 hs.2.2 hlit.2.2).1
      refine ⟨⟨.cond xc xa xb, ?_, fun v hv => ?_⟩, fun _ hl => absurd hl (by simp [Expr.level])⟩
      · have := Derives.cond ((ha1.paren (pyLevel_le a)).weaken (n := 1) (by omega) (by omega)) ((hc1.paren (pyLevel_le c)).weaken (n := 1) (by omega) (by omega))
          ((hb1.paren (pyLevel_le b)).weaken (n := 0) (by omega) (by omega))
        simpa only [Expr.format, Expr.pyLevel, List.cons_append, List.append_assoc, List.nil_append] using this
      · simp only [Expr.eval] at hv
        split at hv
        · rename_i hx
          simp only [PyExpr.eval, hc2 _ hx, ha2 _ hv, bind, Except.bind, Value.truth, if_true]
        · rename_i hx
          simp only [PyExpr.eval, hc2 _ hx, hb2 _ hv, bind, Except.bind, Value.truth, if_false, Bool.false_eq_true]
        · cases hv
    · cases ht

end Zserio.Expression
