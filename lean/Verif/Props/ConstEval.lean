import Verif.Lemmas.ConstEvalSem
import Verif.Spec.Enumeration
/-
C81: the values of constants, of the items of enumerations and of the values of bitmasks.
-/
set_option linter.unusedSimpArgs false
namespace Zserio.ConstEval
open Zserio.Expression

variable {O : Type}

/-! ### A schema

```
const int32 SIZE = 3;
enum uint8 Color { RED, GREEN = SIZE * 2, BLUE };
bitmask uint8 Rights { READ, WRITE, ALL = valueof(Color.BLUE), NEXT };
const uint8 FLAGS = valueof(Rights.READ | Rights.NEXT);
```
-/

/-- see above; the declarations are listed in another order than they use each other -/
def sample : Schema where
  decls :=
    [.const .int (some (.bitField 8)) (.valueof (.binary .bor (.symbol 2) (.symbol 3))),
     .bitmask (.bitField 8) [⟨py! "READ", none, false, false⟩, ⟨py! "WRITE", none, false, false⟩,
       ⟨py! "ALL", some (.valueof (.symbol 1)), false, false⟩, ⟨py! "NEXT", none, false, false⟩],
     .enum (.bitField 8) [⟨py! "RED", none, false, false⟩,
       ⟨py! "GREEN", some (.binary .mul (.symbol 0) (.intLit .dec [ch! '2'])), false, false⟩, ⟨py! "BLUE", none, false, false⟩],
     .const .int (some (.signedBitField 32)) (.intLit .dec [ch! '3'])]
  symbol
    | 0 => some (.const 3)
    | 1 => some (.item 2 2)
    | 2 => some (.item 1 0)
    | 3 => some (.item 1 3)
    | _ => none

/-- what the schema means -/
def sampleMeaning : Meaning Unit where
  const
    | 0 => some (.int 9)
    | 3 => some (.int 3)
    | _ => none
  item
    | 1, 0 => some 1
    | 1, 1 => some 2
    | 1, 2 => some 7
    | 1, 3 => some 8
    | 2, 0 => some 0
    | 2, 1 => some 6
    | 2, 2 => some 7
    | _, _ => none

/-- a world: bitmasks are of 8 bits -/
def sampleWorld : World Unit where
  symbol := fun _ => none
  index := none
  member := fun _ _ => none
  element := fun _ _ => none
  length := fun _ => none
  result := fun _ => none
  equal := fun _ _ => true
  width := fun _ => 8
  floatText := fun _ => 0
  stringText := stripStringLiteral
  floatMinus := id
  floatArith := fun _ _ _ => none
  floatLess := fun _ _ => false

/-- the table which the compiler computes -/
def sampleTable : Table :=
  [(0, .const { type := .int, value := some 9 }), (1, .items [1, 2, 7, 8]), (2, .items [0, 6, 7]),
   (3, .const { type := .int, value := some 3 })]

theorem of_toOption {α β : Type} {x : Except α β} {y : β} (h : x.toOption = some y) : x = .ok y := by
  cases x with
  | error e => cases h
  | ok z => cases h; rfl

theorem sample_compile : compile sample [0, 1, 2, 3] = .ok sampleTable := of_toOption (by decide +kernel)

theorem sample_decl {d : Nat} {decl : Decl} (h : sample.decls[d]? = some decl) : d < 4 :=
  (List.getElem?_eq_some_iff.mp h).1

theorem sample_describes : sampleMeaning.Describes sample sampleWorld where
  const := by
    intro d type kind e h _
    have := sample_decl h
    obtain rfl | rfl | rfl | rfl : d = 0 ∨ d = 1 ∨ d = 2 ∨ d = 3 := by omega
    all_goals cases h
    · rfl
    · rfl
  explicit := by
    intro d decl i it e h hi he
    have := sample_decl h
    obtain rfl | rfl | rfl | rfl : d = 0 ∨ d = 1 ∨ d = 2 ∨ d = 3 := by omega
    all_goals cases h
    · simp [Decl.items] at hi
    · match i, hi with
      | 0, hi => cases hi; cases he
      | 1, hi => cases hi; cases he
      | 2, hi => cases hi; cases he; rfl
      | 3, hi => cases hi; cases he
    · match i, hi with
      | 0, hi => cases hi; cases he
      | 1, hi => cases hi; cases he; rfl
      | 2, hi => cases hi; cases he
    · simp [Decl.items] at hi
  enumFirst := by
    intro d kind items it h hi _
    have := sample_decl h
    obtain rfl | rfl | rfl | rfl : d = 0 ∨ d = 1 ∨ d = 2 ∨ d = 3 := by omega
    all_goals cases h
    rfl
  enumNext := by
    intro d kind items i it h hi he
    have := sample_decl h
    obtain rfl | rfl | rfl | rfl : d = 0 ∨ d = 1 ∨ d = 2 ∨ d = 3 := by omega
    all_goals cases h
    match i, hi with
    | 0, hi => cases hi; cases he
    | 1, hi => rfl
  bitmaskFirst := by
    intro d kind items it h hi _
    have := sample_decl h
    obtain rfl | rfl | rfl | rfl : d = 0 ∨ d = 1 ∨ d = 2 ∨ d = 3 := by omega
    all_goals cases h
    rfl
  bitmaskNext := by
    intro d kind items i it h hi he
    have := sample_decl h
    obtain rfl | rfl | rfl | rfl : d = 0 ∨ d = 1 ∨ d = 2 ∨ d = 3 := by omega
    all_goals cases h
    match i, hi with
    | 0, hi => rfl
    | 1, hi => cases hi; cases he
    | 2, hi => decide +kernel

theorem sample_regular : sampleMeaning.Regular sample sampleWorld where
  exprs := by
    intro d decl e h he
    have := sample_decl h
    obtain rfl | rfl | rfl | rfl : d = 0 ∨ d = 1 ∨ d = 2 ∨ d = 3 := by omega
    all_goals cases h
    · simp only [Decl.exprs, List.mem_singleton] at he
      subst he
      refine ⟨trivial, trivial, by simp, ?_⟩
      intro c x c' y hx hy
      cases hx; cases hy
      decide
    · simp only [Decl.exprs, List.filterMap_cons, List.filterMap_nil, List.mem_singleton] at he
      subst he
      trivial
    · simp only [Decl.exprs, List.filterMap_cons, List.filterMap_nil, List.mem_singleton] at he
      subst he
      refine ⟨trivial, trivial, by simp, ?_⟩
      intro c x c' y hx hy
      cases hx
    · simp only [Decl.exprs, List.mem_singleton] at he
      subst he
      trivial
  zero := by
    intro d kind items i it h hi he
    have := sample_decl h
    obtain rfl | rfl | rfl | rfl : d = 0 ∨ d = 1 ∨ d = 2 ∨ d = 3 := by omega
    all_goals cases h
    match i, hi with
    | 0, hi => decide
    | 1, hi => cases hi; cases he
    | 2, hi => decide

/-! ### The values -/

/-- **C81, values.**  Whatever the order in which the compiler comes to the declarations of the schema: if it accepts the schema, the
numbers which it writes into the generated enumerations and bitmasks, and the integers and texts which it takes for constants, are those
which the language guide prescribes.

Partial: the expressions of the schema have to be regular (`Meaning.Regular`); the theorems `C81_*_deviates` below show each of the other
cases to be computed differently. -/
theorem C81_values_partial {S : Schema} {order : List Nat} {t : Table} {W : World O} {m : Meaning O} (h : compile S order = .ok t)
    (hall : ∀ d, d < S.decls.length → d ∈ order) (hm : m.Describes S W) (hr : m.Regular S W) :
    (∀ d decl, S.decls[d]? = some decl → (∃ kind items, decl = .enum kind items ∨ decl = .bitmask kind items) →
      ∃ vs, t.find d = some (.items vs) ∧ vs.length = decl.items.length ∧ ∀ (i : Nat) v, vs[i]? = some v → m.item d i = some v) ∧
    (∀ d type kind e, S.decls[d]? = some (.const type kind e) → ∃ r, t.find d = some (.const r) ∧
      (type = .int → ∀ v, r.value = some v → m.const d = some (.int v)) ∧
      (∀ c, type = .enum c → ∀ v, r.value = some v → m.const d = some (.enum c v)) ∧
      (∀ c, type = .bitmask c → ∀ v, r.value = some v → m.const d = some (.bitmask c v)) ∧
      (type = .str → ∀ s, r.text = some s → m.const d = some (.str s))) := by
  obtain ⟨h1, h2⟩ := compile_ok h
  obtain ⟨hb, _, hf⟩ := evaluateAll_built S order [] t .nil h1
  have hck := checkAll_ok h2
  have hty : TypesChecked S t := by
    intro d type kind e r hd hfd
    obtain ⟨decl, v, k1, k2, k3⟩ := hck d (hall d (List.getElem?_eq_some_iff.mp hd).1)
    rw [hd, Option.some.injEq] at k1
    rw [hfd, Option.some.injEq] at k2
    subst k1; subst k2
    simp only [checkDecl, checkConst] at k3
    split at k3
    · cases k3
    · next hc => simpa using hc
  have hright := built_right hm hr hb hty
  constructor
  · rintro d decl hd ⟨kind, items, hk⟩
    obtain ⟨decl', v, k1, k2, k3⟩ := hck d (hall d (List.getElem?_eq_some_iff.mp hd).1)
    rw [hd, Option.some.injEq] at k1
    subst k1
    have he := hright d decl v hd k2
    cases v with
    | const r => rcases hk with rfl | rfl <;> cases k3
    | items vs =>
      refine ⟨vs, k2, built_lengths hb hd k2, ?_⟩
      rcases hk with rfl | rfl <;> exact he
  · intro d type kind e hd
    obtain ⟨decl', v, k1, k2, k3⟩ := hck d (hall d (List.getElem?_eq_some_iff.mp hd).1)
    rw [hd, Option.some.injEq] at k1
    subst k1
    have he := hright d _ v hd k2
    cases v with
    | items vs => cases k3
    | const r =>
      refine ⟨r, k2, ?_, ?_, ?_, ?_⟩
      · rintro rfl v hv; exact Right.int he rfl hv
      · rintro c rfl v hv; exact Right.enum he rfl hv
      · rintro c rfl v hv; exact Right.bitmask he rfl hv
      · rintro rfl s hs; exact he.2 s hs rfl

/-- the hypotheses are met by the schema above, in an order in which every declaration is needed before the compiler comes to it; the
conclusion gives the numbers of the generated classes -/
example : compile sample [0, 1, 2, 3] = .ok sampleTable ∧ (∀ d, d < sample.decls.length → d ∈ [0, 1, 2, 3]) ∧
    sampleMeaning.Describes sample sampleWorld ∧ sampleMeaning.Regular sample sampleWorld ∧
    sampleTable.find 2 = some (.items [0, 6, 7]) ∧ sampleMeaning.item 2 1 = some 6 :=
  ⟨sample_compile, by decide, sample_describes, sample_regular, rfl, rfl⟩

/-- **C81, classes.**  The items of every generated enumeration have different values, and the values belong to the underlying type:
generated enumerations are well-formed in the sense required for C39 (provided that the names of their items differ). -/
theorem C81_enum {S : Schema} {order : List Nat} {t : Table} (h : compile S order = .ok t) {d : Nat} {kind : IntKind}
    {items : List ItemDecl} {vs : List Int} (hd : S.decls[d]? = some (.enum kind items)) (hmem : d ∈ order)
    (hv : t.find d = some (.items vs)) (hk : ValidKind kind) (hn : (items.map (·.name)).Nodup) :
    (enumClass kind items vs).WellFormed ∧ (enumClass kind items vs).items.length = items.length := by
  obtain ⟨h1, h2⟩ := compile_ok h
  obtain ⟨hb, _, _⟩ := evaluateAll_built S order [] t .nil h1
  obtain ⟨decl, v, k1, k2, k3⟩ := checkAll_ok h2 d hmem
  rw [hd, Option.some.injEq] at k1
  rw [hv, Option.some.injEq] at k2
  subst k1; subst k2
  have hlen : vs.length = items.length := built_lengths hb hd hv
  obtain ⟨k4, k5⟩ := checkItems_ok k3
  have hnames : ((enumClass kind items vs).items.map (·.name)) = items.map (·.name) := by
    simp only [enumClass, List.map_zipWith]
    clear k4 k5 k3 hd hv hn
    induction items generalizing vs with
    | nil => simp
    | cons i is ih =>
      cases vs with
      | nil => simp at hlen
      | cons v vs => simp only [List.zipWith_cons_cons, List.map_cons]; rw [ih (by simpa using hlen)]
  have hvalues : ((enumClass kind items vs).items.map (·.value)) = vs := by
    simp only [enumClass, List.map_zipWith]
    clear k4 k5 k3 hd hv hn hnames
    induction items generalizing vs with
    | nil => cases vs <;> simp at hlen ⊢
    | cons i is ih =>
      cases vs with
      | nil => simp at hlen
      | cons v vs => simp only [List.zipWith_cons_cons]; rw [ih (by simpa using hlen)]
  refine ⟨⟨by rw [hnames]; exact hn, by rw [hvalues]; exact k4, ?_⟩, by simp [enumClass, hlen]⟩
  intro item hi
  have : item.value ∈ vs := by rw [← hvalues]; exact List.mem_map_of_mem hi
  obtain ⟨_, k6, k7⟩ := k5 _ this
  exact bounds_inRange hk k6 k7

example : (enumClass (.bitField 8) [⟨py! "RED", none, false, false⟩,
    ⟨py! "GREEN", some (.binary .mul (.symbol 0) (.intLit .dec [ch! '2'])), false, false⟩, ⟨py! "BLUE", none, false, false⟩]
    [0, 6, 7]).WellFormed :=
  (C81_enum sample_compile (d := 2) rfl (by decide) rfl ⟨by decide, by decide⟩ (by decide)).1

/-- **C81, classes.**  The values of every generated bitmask differ, none is negative, and each is accepted by `from_value`, hence can be
written. -/
theorem C81_bitmask {S : Schema} {order : List Nat} {t : Table} (h : compile S order = .ok t) {d : Nat} {kind : IntKind}
    {items : List ItemDecl} {vs : List Int} (hd : S.decls[d]? = some (.bitmask kind items)) (hmem : d ∈ order)
    (hv : t.find d = some (.items vs)) (hk : ValidKind kind) :
    vs.length = items.length ∧ vs.Nodup ∧ ∀ v ∈ vs, 0 ≤ v ∧ kind.InRange v ∧
      Bitmask.fromValue (d := bitmaskDef kind items vs) v = .ok ⟨v⟩ := by
  obtain ⟨h1, h2⟩ := compile_ok h
  obtain ⟨hb, _, _⟩ := evaluateAll_built S order [] t .nil h1
  obtain ⟨decl, v, k1, k2, k3⟩ := checkAll_ok h2 d hmem
  rw [hd, Option.some.injEq] at k1
  rw [hv, Option.some.injEq] at k2
  subst k1; subst k2
  obtain ⟨k4, k5⟩ := checkItems_ok k3
  have hsig : isSigned kind = false := by
    obtain ⟨u, decl', _, _, _, _, h5, h6, _, _⟩ := built_split hb hv
    rw [hd, Option.some.injEq] at h5
    subst h5
    have h1 := h6 []
    simp only [Decl.evaluate] at h1
    obtain ⟨ws, s, _, h3⟩ := kbind_ok h1
    split at h3
    · cases (liftK_ok h3).1
    · next hs => simpa using hs
  refine ⟨built_lengths hb hd hv, k4, ?_⟩
  intro v hmv
  obtain ⟨_, k6, k7⟩ := k5 v hmv
  refine ⟨?_, bounds_inRange hk k6 k7, ?_⟩
  · have hlow : 0 ≤ lowerBound kind := by
      cases kind with
      | bitField n => exact Int.le_refl _
      | signedBitField n => cases hsig
      | var t => cases t <;> first | exact Int.le_refl _ | cases hsig
    omega
  · have e1 : (bitmaskDef kind items vs).lowerBound = lowerBound kind := rfl
    have e2 : (bitmaskDef kind items vs).upperBound = upperBound kind := rfl
    unfold Bitmask.fromValue
    rw [if_neg (by rw [e1, e2]; omega)]

example : ∀ v ∈ [1, 2, 7, 8], (0 : Int) ≤ v ∧ (IntKind.bitField 8).InRange v :=
  fun v hv => (((C81_bitmask sample_compile (d := 1) rfl (by decide) rfl ⟨by decide, by decide⟩).2.2 v hv).imp_right And.left)

/-! ### The order of declarations -/

/-- **C81, order.**  The order in which the compiler comes to the declarations does not matter: if it accepts the schema in one order, it
accepts it in every other order with the same values. -/
theorem C81_order {S : Schema} {order order' : List Nat} {t : Table} (h : compile S order = .ok t) (heq : ∀ d, d ∈ order' ↔ d ∈ order) :
    ∃ t', compile S order' = .ok t' ∧ ∀ d, t'.find d = t.find d := by
  obtain ⟨h1, h2⟩ := compile_ok h
  obtain ⟨hb, _, hf⟩ := evaluateAll_built S order [] t .nil h1
  have hck := checkAll_ok h2
  obtain ⟨t', k1, k2⟩ := evaluateAll_complete hb order' [] (by intro d v hv; simp [Table.find] at hv)
    (fun d hd => hf d ((heq d).mp hd))
  obtain ⟨hb', _, hf'⟩ := evaluateAll_built S order' [] t' .nil k1
  obtain ⟨t2, k3, k4⟩ := evaluateAll_complete hb' order [] (by intro d v hv; simp [Table.find] at hv)
    (fun d hd => hf' d ((heq d).mpr hd))
  rw [h1, Except.ok.injEq] at k3
  subst k3
  have hfind : ∀ d, t'.find d = t.find d := by
    intro d
    cases hx : t'.find d with
    | some v => exact (k2 d v hx).symm
    | none =>
      cases hy : t.find d with
      | none => rfl
      | some v => rw [k4 d v hy] at hx; cases hx
  refine ⟨t', ?_, hfind⟩
  have hc : checkAll S t' order' = .ok () := by
    apply checkAll_intro
    intro d hd
    obtain ⟨decl, v, k5, k6, k7⟩ := hck d ((heq d).mp hd)
    exact ⟨decl, v, k5, by rw [hfind, k6], k7⟩
  unfold compile
  rw [k1]
  show (checkAll S t' order' >>= fun _ => Except.ok t') = _
  rw [hc]
  rfl

example : ∃ t', compile sample [3, 1, 0, 2] = .ok t' ∧ ∀ d, t'.find d = sampleTable.find d :=
  C81_order sample_compile (by simp; omega)

/-- **C81, circular definitions.**  A schema in which a declaration needs its own value, directly or through others, is refused in every
order, and no other schema is refused as circular. -/
theorem C81_cyclic {S : Schema} {order : List Nat} (hall : ∀ d, d < S.decls.length → d ∈ order) :
    ((∃ d, Relation.TransGen (Uses S) d d) → ∀ t, compile S order ≠ .ok t) ∧
    (compile S order = .error .cyclic → ∃ d, Relation.TransGen (Uses S) d d) := by
  constructor
  · rintro ⟨d, hd⟩ t h
    obtain ⟨h1, _⟩ := compile_ok h
    obtain ⟨hb, _, hf⟩ := evaluateAll_built S order [] t .nil h1
    obtain ⟨rank, _, hrank⟩ := built_rank hb
    have hstep : ∀ a b, Uses S a b → rank b < rank a := by
      rintro a b ⟨decl, e, id, ref, k1, k2, k3, k4, rfl⟩
      obtain ⟨ref', k5, _, k6⟩ := hrank a decl (hf a (hall a (List.getElem?_eq_some_iff.mp k1).1)) k1 e k2 id k3
      rw [k4, Option.some.injEq] at k5
      subst k5
      exact k6
    have : ∀ a b, Relation.TransGen (Uses S) a b → rank b < rank a := by
      intro a b hab
      induction hab with
      | single h => exact hstep _ _ h
      | tail _ h ih => exact (hstep _ _ h).trans ih
    exact absurd (this d d hd) (Nat.lt_irrefl _)
  · intro h
    by_contra hno
    exact compile_avoids S (.inr rfl) (fun d => evaluateDecl_cyclic (fun d hd => hno ⟨d, hd⟩) _ [] d (by simp)) order h

/-- `const int32 A = B + 1; const int32 B = valueof(E.X); enum uint8 E { X = A };` -/
def circular : Schema where
  decls := [.const .int (some (.signedBitField 32)) (.binary .add (.symbol 1) (.intLit .dec [ch! '1'])),
    .const .int (some (.signedBitField 32)) (.valueof (.symbol 2)), .enum (.bitField 8) [⟨py! "X", some (.symbol 0), false, false⟩]]
  symbol
    | 0 => some (.const 0)
    | 1 => some (.const 1)
    | 2 => some (.item 2 0)
    | _ => none

example : ∀ t, compile circular [2, 0, 1] ≠ .ok t := by
  refine (C81_cyclic (S := circular) (order := [2, 0, 1]) (by decide)).1 ⟨0, ?_⟩
  have h1 : Uses circular 0 1 := ⟨_, _, 1, .const 1, rfl, List.mem_singleton.mpr rfl, by simp [symbols], rfl, rfl⟩
  have h2 : Uses circular 1 2 := ⟨_, _, 2, .item 2 0, rfl, List.mem_singleton.mpr rfl, by simp [symbols], rfl, rfl⟩
  have h3 : Uses circular 2 0 := ⟨_, .symbol 0, 0, .const 0, rfl, by simp [Decl.exprs], by simp [symbols], rfl, rfl⟩
  exact .trans (.single h1) (.trans (.single h2) (.single h3))

/-- the error is the one reported -/
example : compile circular [2, 0, 1] = .error .cyclic := by
  have : (match compile circular [2, 0, 1] with | .error .cyclic => true | _ => false) = true := by decide +kernel
  revert this
  cases compile circular [2, 0, 1] with
  | ok t => simp
  | error e => cases e <;> simp

/-- **C81, termination.**  The evaluation ends for every schema: the bound on the depth of the recursion in the model is never reached. -/
theorem C81_depth (S : Schema) (order : List Nat) : compile S order ≠ .error .depth :=
  compile_avoids S (.inl rfl) (fun d => evaluateDecl_depth S _ [] d (by simp) (by simp) (by simp)) order

/-! ### Where the compiler deviates -/

/-- a schema of one enumeration whose only item has the given value -/
def single (e : Expression.Expr) : Schema where
  decls := [.enum (.signedBitField 32) [⟨py! "A", some e, false, false⟩],
    .bitmask (.bitField 8) [⟨py! "READ", none, false, false⟩]]
  symbol
    | 0 => some (.item 1 0)
    | _ => none

/-- the value of the item -/
def singleValue (e : Expression.Expr) : Option Evaluated := (compile (single e) [0, 1]).toOption.bind (·.find 0)

/-- a number -/
def num (digits : PyStr) : Expression.Expr := .intLit .dec digits

/-- `numbits(0)` is 0 (as in generated code), the compiler computes 1 -/
theorem C81_numbits_deviates (W : World O) : singleValue (.numbits (num (py! "0"))) = some (.items [1]) ∧
    (Expr.numbits (num (py! "0"))).eval W .java = some (.int 0) :=
  ⟨by decide +kernel, by simp [Expr.eval, num, Base.value, digitValue, numBits, Base.radix]⟩

/-- `~READ` is the complement within the bits of the bitmask (254 as in generated code), the compiler computes -2 -/
theorem C81_complement_deviates (W : World O) (hw : W.width 1 = 8) (hs : W.symbol 0 = some (.bitmask 1 1)) :
    singleValue (.valueof (.unary .tilde (.symbol 0))) = some (.items [-2]) ∧
    (Expr.valueof (.unary .tilde (.symbol 0))).eval W .java = some (.int 254) := by
  refine ⟨by decide +kernel, ?_⟩
  simp only [Expr.eval, hs, UnOp.apply, World.inMask, hw]
  norm_num

/-- A shift by 4294967297 bits gives 0, the compiler shifts by one bit; a shift by a negative number of bits has no value, the compiler
shifts the other way. -/
theorem C81_shift_deviates (W : World O) : singleValue (.binary .shr (num (py! "8")) (num (py! "4294967297"))) = some (.items [4]) ∧
    (∀ x, (Expr.binary .shr (num (py! "8")) (num (py! "4294967297"))).eval W .java = some (.int x) → x ≠ 4) ∧
    singleValue (.binary .shl (num (py! "8")) (.unary .minus (num (py! "1")))) = some (.items [4]) ∧
    (Expr.binary .shl (num (py! "8")) (.unary .minus (num (py! "1")))).eval W .java = none := by
  have e8 : (num (py! "8")).eval W .java = some (.int 8) := by
    simp [Expr.eval, num, Base.value, digitValue, Base.radix]
  have e1 : (num (py! "1")).eval W .java = some (.int 1) := by
    simp [Expr.eval, num, Base.value, digitValue, Base.radix]
  have eb : (num (py! "4294967297")).eval W .java = some (.int 4294967297) := by
    simp only [Expr.eval, num]
    congr 2
  refine ⟨by decide +kernel, ?_, by decide +kernel, ?_⟩
  · intro x hx
    simp only [Expr.eval, e8, eb, BinOp.apply, BinOp.compareInt, BinOp.arithInt] at hx
    rw [if_neg (by decide)] at hx
    simp only [Option.map_some, Option.some.injEq, Value.int.injEq] at hx
    rw [← hx]
    rw [Int.ediv_eq_zero_of_lt (by decide)]
    · decide
    · calc (8 : Int) < 2 ^ 4 := by decide
        _ ≤ 2 ^ (4294967297 : Int).toNat := pow_le_pow_right₀ (by decide) (by decide)
  · simp only [Expr.eval, e8, e1, UnOp.apply, BinOp.apply, BinOp.compareInt, BinOp.arithInt]
    rfl

/-- `lengthof("\\n")`: the text is one line feed, the compiler counts the two characters of the escape sequence -/
theorem C81_lengthof_deviates (W : World O) (hs : W.stringText (py! "\"\\n\"") = [10]) :
    singleValue (.lengthof (.strLit (py! "\"\\n\""))) = some (.items [2]) ∧
    (Expr.lengthof (.strLit (py! "\"\\n\""))).eval W .java = some (.int 1) := by
  refine ⟨by decide +kernel, ?_⟩
  simp only [Expr.eval, hs]
  rfl

/-- A conditional expression has no value in the compiler: the item is refused (by a `NullPointerException`) although its value is
known. -/
theorem C81_conditional_deviates (W : World O) :
    (match compile (single (.cond (.boolLit true) (num (py! "1")) (num (py! "2")))) [0, 1] with
      | .error .null => true
      | _ => false) = true ∧
    (Expr.cond (.boolLit true) (num (py! "1")) (num (py! "2"))).eval W .java = some (.int 1) := by
  refine ⟨by decide +kernel, ?_⟩
  simp [Expr.eval, num, Base.value, digitValue, Base.radix]

/-- `bitmask uint8 M { NONE = 0, FIRST };`: the first unused bit is 1, the compiler assigns 2 -/
theorem C81_afterZero_deviates :
    (compile ⟨[.bitmask (.bitField 8) [⟨py! "NONE", some (num (py! "0")), false, false⟩, ⟨py! "FIRST", none, false, false⟩]],
      fun _ => none⟩ [0]).toOption = some [(0, .items [0, 2])] ∧ nextBit 0 = 1 :=
  ⟨by decide +kernel, by decide +kernel⟩

/-- **C81, one constant, two values.**  `const int32 C = -7 / 2; enum int32 E { A = C };`: the item of the generated enumeration is -3, as
the compiler computes it, the generated constant is the expression, which is -4 in Python. -/
theorem C81_division_deviates (W : World O) :
    (compile ⟨[.const .int (some (.signedBitField 32)) (.binary .div (.unary .minus (num (py! "7"))) (num (py! "2"))),
        .enum (.signedBitField 32) [⟨py! "A", some (.symbol 0), false, false⟩]],
      fun id => if id = 0 then some (.const 0) else none⟩ [0, 1]).toOption =
      some [(1, .items [-3]), (0, .const { type := .int, value := some (-3) })] ∧
    (Expr.binary .div (.unary .minus (num (py! "7"))) (num (py! "2"))).eval W .floor = some (.int (-4)) := by
  refine ⟨by decide +kernel, ?_⟩
  simp [Expr.eval, num, Base.value, digitValue, Base.radix, UnOp.apply, BinOp.apply, BinOp.compareInt, BinOp.arithInt, Division.floor]


end Zserio.ConstEval
