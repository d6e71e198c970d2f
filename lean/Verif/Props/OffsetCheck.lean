import Verif.Lemmas.OffsetCheck
import Verif.Props.Offsets
/-
C93: the checks of the compiler for fields used as offsets are enough for the generated code.
-/
namespace Zserio.OffsetCheck

/-! ## Examples -/
namespace Demo

/-- `+` -/
def plus : Op where
  run
    | [.int a, .int b] => .ok (.int (a + b))
    | _ => .error .type
  noOffset := by intro vs; split <;> simp

/-- `>` -/
def gt : Op where
  run
    | [.int a, .int b] => .ok (.bool (decide (b < a)))
    | _ => .error .type
  noOffset := by intro vs; split <;> simp

def lit (v : Int) : XExpr := .const false .plain (.int v)

/--
```
struct Header(int32 p)
{
    uint8 count; uint32 off; bit:3 x if p > 2; off: uint8 data[count];
    function uint8 total() { return count + 1; }
};
union Any { uint8 small; Header(7) big; };
struct Main
{
    uint8 list[]; Header(lengthof(list)) header; uint32 offs[header.total()]; offs[@index]: Any items[header.total()];
    bool last if header.data[0] > 9; uint8 end : end > header.count;
};
```
-/
def schema : XSchema := [
  ⟨.struct [
    { type := .int (.bitField 8), typePackable := true },
    { type := .int (.bitField 32), typePackable := true },
    { type := .int (.bitField 3), optional := .clause (.op2 gt (.param .plain 0) (lit 2)), typePackable := true },
    { type := .int (.bitField 8), array := some (.fixed (.field 0), false), offset := some (.field 1), typePackable := true }],
    [⟨.unsigned, .op2 plus (.field 0) (lit 1)⟩]⟩,
  ⟨.union [{ type := .int (.bitField 8), typePackable := true }, { type := .compound 0 [lit 7] }], []⟩,
  ⟨.struct [
    { type := .int (.bitField 8), array := some (.auto, false) },
    { type := .compound 0 [.lengthof (.field 0)] },
    { type := .int (.bitField 32), array := some (.fixed (.dotCall (.field 1) 0 0), false) },
    { type := .compound 1 [], array := some (.fixed (.dotCall (.field 1) 0 0), false), offset := some (.element (.field 2) .index) },
    { type := .other .bool, optional := .clause (.op2 gt (.element (.dot (.field 1) 0 3) (lit 0)) (lit 9)) },
    { type := .int (.bitField 8), constraint := some (.op2 gt (.field 5) (.dot (.field 1) 0 0)) }], []⟩]

/-- an object of `Main`; all offsets are `o`, `p`, `q`, `r` -/
def obj (o p q r : Int) : Val :=
  .obj [] 0 0 [.arr [.int 1, .int 2], .obj [2] 0 0 [.int 1, .int o, .none, .arr [.int 10]], .arr [.int p, .int q],
    .arr [.obj [] 0 0 [.int 5], .obj [] 0 1 [.obj [7] 0 0 [.int 2, .int r, .int 6, .arr [.int 8, .int 9]]]], .bool true, .int 3]

theorem schema_own : schema.OwnOffsets := by
  intro id i f e ⟨fs, fns, hd, hf⟩ he
  rcases id with _ | _ | _ | id <;> simp [schema] at hd
  all_goals
    obtain ⟨rfl, rfl⟩ := hd
    rcases i with _ | _ | _ | _ | _ | _ | i <;> simp at hf
    all_goals subst hf; simp at he
    subst he; simp

theorem schema_present : schema.OffsetsPresent := by
  intro id i f o g ⟨fs, fns, hd, hf⟩ he ⟨fs', fns', hd', hg⟩
  rcases id with _ | _ | _ | id <;> simp [schema] at hd hd'
  all_goals
    obtain ⟨rfl, rfl⟩ := hd
    obtain ⟨rfl, rfl⟩ := hd'
    rcases i with _ | _ | _ | _ | _ | _ | i <;> simp at hf
    all_goals subst hf; simp at he
    subst he
    simp at hg
    subst hg
    exact ⟨rfl, rfl⟩

/-- `struct OptionalOffset { optional uint32 off; off: uint8 f; };` -/
def optionalOffset : XSchema := [⟨.struct [
  { type := .int (.bitField 32), optional := .auto },
  { type := .int (.bitField 8), offset := some (.field 0) }], []⟩]

/-- `struct LengthOffset { uint32 off; uint8 data[off]; off: uint8 f; };` -/
def lengthOffset : XSchema := [⟨.struct [
  { type := .int (.bitField 32) },
  { type := .int (.bitField 8), array := some (.fixed (.field 0), false) },
  { type := .int (.bitField 8), offset := some (.field 0) }], []⟩]

/-- `struct FunctionOffset { uint32 off; uint8 data[get()]; off: uint8 f; function uint32 get() { return off; } };` -/
def functionOffset : XSchema := [⟨.struct [
  { type := .int (.bitField 32) },
  { type := .int (.bitField 8), array := some (.fixed (.call 0), false) },
  { type := .int (.bitField 8), offset := some (.field 0) }], [⟨.unsigned, .field 0⟩]⟩]

/-- `struct Inner { uint32 off; off: uint8 f; }; struct Outer { Inner inner; uint8 data if inner.off > 3; };` -/
def nestedOffset : XSchema := [
  ⟨.struct [{ type := .int (.bitField 32) }, { type := .int (.bitField 8), offset := some (.field 0) }], []⟩,
  ⟨.struct [{ type := .compound 0 [] },
    { type := .int (.bitField 8), optional := .clause (.op2 gt (.dot (.field 0) 0 0) (lit 3)) }], []⟩]

/-- `struct TwiceOffset { uint32 off; off: uint8 f; off: uint8 g; };` -/
def twiceOffset : XSchema := [⟨.struct [
  { type := .int (.bitField 32) },
  { type := .int (.bitField 8), offset := some (.field 0) },
  { type := .int (.bitField 8), offset := some (.field 0) }], []⟩]

end Demo

/-! ## The rules are enforced -/

theorem offsetSyntax_iff : ∀ {e : XExpr} {b : Bool}, offsetSyntax b e = true ↔ e.Plain ∨ b = true ∧ e.Indexed
  | .const c _ _, b => by
    cases c
    · simp only [offsetSyntax, Bool.false_eq_true, false_iff, not_or, not_and]
      exact ⟨nofun, fun _ => nofun⟩
    · simp only [offsetSyntax, true_iff]; exact .inl .const
  | .param _ _, b => by simp only [offsetSyntax, true_iff]; exact .inl .param
  | .field _, b => by simp only [offsetSyntax, true_iff]; exact .inl .field
  | .dot e _ _, b => by
    simp only [offsetSyntax]
    rw [offsetSyntax_iff]
    constructor
    · rintro (h | ⟨hb, h⟩)
      · exact .inl (.dot h)
      · exact .inr ⟨hb, .dot h⟩
    · rintro (h | ⟨hb, h⟩)
      · cases h; left; assumption
      · cases h; right; exact ⟨hb, by assumption⟩
  | .dotParam e _ _, b => by
    simp only [offsetSyntax]
    rw [offsetSyntax_iff]
    constructor
    · rintro (h | ⟨hb, h⟩)
      · exact .inl (.dotParam h)
      · exact .inr ⟨hb, .dotParam h⟩
    · rintro (h | ⟨hb, h⟩)
      · cases h; left; assumption
      · cases h; right; exact ⟨hb, by assumption⟩
  | .element a i, b => by
    have key : ∀ i, i ≠ .index → (offsetSyntax b (.element a i) = true ↔ (XExpr.element a i).Plain ∨ b = true ∧ (XExpr.element a i).Indexed) := by
      intro i hi
      have : offsetSyntax b (.element a i) = false := by cases i <;> simp [offsetSyntax] at hi ⊢
      rw [this]
      simp only [Bool.false_eq_true, false_iff, not_or, not_and]
      refine ⟨nofun, fun _ h => ?_⟩
      cases h
      exact hi rfl
    by_cases hi : i = .index
    · subst hi
      simp only [offsetSyntax, Bool.and_eq_true]
      rw [offsetSyntax_iff]
      constructor
      · rintro ⟨hb, h | ⟨h, _⟩⟩
        · exact .inr ⟨hb, .element h⟩
        · cases h
      · rintro (h | ⟨hb, h⟩)
        · cases h
        · cases h; exact ⟨hb, .inl (by assumption)⟩
    · exact key i hi
  | .index, b | .call _, b | .dotCall _ _ _, b | .lengthof _, b | .op1 _ _, b | .op2 _ _ _, b | .op3 _ _ _ _, b => by
    simp only [offsetSyntax, Bool.false_eq_true, false_iff, not_or, not_and]
    exact ⟨nofun, fun _ => nofun⟩

/-- **C93.** An offset in an accepted schema is a path to a field; `[@index]` is used at most once in it, and only if the field which is
marked is an array with a length which is known. -/
theorem C93_path (S : XSchema) (h : check S = .ok ()) (id i : Nat) (f : XField) (hf : S.FieldAt id i f) (e : XExpr) (he : f.offset = some e) :
    e.Plain ∨ e.Indexed ∧ ∃ kind isPacked, f.array = some (kind, isPacked) ∧ kind ≠ .implicit := by
  obtain ⟨fs, fns, hd, hx⟩ := hf
  obtain ⟨hc, -⟩ := checkField_ok (checkFields_ok (checkDecl_struct (check_decl h hd)).1 hx)
  rcases offsetSyntax_iff.mp (hc e he).1 with hp | ⟨hi, hp⟩
  · exact .inl hp
  · refine .inr ⟨hp, ?_⟩
    unfold XField.indexable at hi
    rcases ha : f.array with _ | ⟨kind, isPacked⟩
    · simp [ha] at hi
    · refine ⟨kind, isPacked, rfl, ?_⟩
      rintro rfl
      simp [ha] at hi

theorem names_type {S : XSchema} {self scope : Nat} {e : XExpr} {t : Ty} (hs : e.Plain ∨ e.Indexed) (ht : typeOf S self scope e = some t)
    (hp : ∀ b i, e ≠ .param b i) (hc : ∀ c b v, e ≠ .const c b v) (hn : ∀ a i, e ≠ .element a i) (hd : t ≠ .base .plain) :
    ∃ id j g, S.FieldAt id j g ∧ e.Names self id j ∧ g.ty = t ∧ (∀ o, e = .field o → o < scope) ∧ (refs self e).head? = some (id, j) := by
  cases e with
  | const c b v => exact absurd rfl (hc c b v)
  | param b i => exact absurd rfl (hp b i)
  | field i =>
    simp only [typeOf, Option.bind_eq_bind, Option.bind_eq_some_iff] at ht
    obtain ⟨fs, h1, h2⟩ := ht
    obtain ⟨fns, h3⟩ := structFields_some h1
    split at h2
    · rename_i hlt
      simp only [Option.bind_eq_some_iff] at h2
      obtain ⟨g, h4, h5⟩ := h2
      refine ⟨self, i, g, ⟨fs, fns, h3, h4⟩, .inl ⟨rfl, rfl⟩, by simpa using h5, ?_, rfl⟩
      intro o ho
      cases ho
      exact hlt
    · cases h2
  | dot a id j =>
    simp only [typeOf] at ht
    split at ht
    · simp only [Option.bind_eq_bind, Option.bind_eq_some_iff] at ht
      obtain ⟨fs, h1, g, h4, h5⟩ := ht
      obtain ⟨fns, h3⟩ := structFields_some h1
      split at h5
      · exact ⟨id, j, g, ⟨fs, fns, h3, h4⟩, .inr ⟨a, rfl⟩, by simpa using h5, nofun, rfl⟩
      · cases h5
    · cases ht
  | dotParam a id i =>
    simp only [typeOf] at ht
    split at ht
    · split at ht
      · cases ht; exact absurd rfl hd
      · cases ht
    · cases ht
  | element a i => exact absurd rfl (hn a i)
  | index | call _ | dotCall _ _ _ | lengthof _ | op1 _ _ | op2 _ _ _ | op3 _ _ _ _ => rcases hs with h | h <;> cases h

/-- **C93.** An offset in an accepted schema is an unsigned integer field, or an element of an array of unsigned integers which is not
packed; it comes before the field it belongs to. -/
theorem C93_target (S : XSchema) (h : check S = .ok ()) (id i : Nat) (f : XField) (hf : S.FieldAt id i f) (e : XExpr)
    (he : f.offset = some e) :
    ∃ id' j g n, S.FieldAt id' j g ∧ g.type = .int (.bitField n) ∧
      ((e.Names id id' j ∧ g.array = none) ∨
        ∃ a kind, e = .element a .index ∧ a.Names id id' j ∧ g.array = some (kind, false)) ∧
      ∀ o, e = .field o ∨ e = .element (.field o) .index → o < i := by
  have hpath := C93_path S h id i f hf e he
  obtain ⟨fs, fns, hd, hx⟩ := hf
  have hk := checkFields_ok (checkDecl_struct (check_decl h hd)).1 hx
  rw [Nat.zero_add] at hk
  have hce : checkOffsetPacked S id e = .ok () ∧ checkOffsetExpression S id i e = .ok () := by
    unfold checkField at hk
    rw [he] at hk
    simp only at hk
    obtain ⟨-, h5⟩ := unit_bind_ok hk
    obtain ⟨h5, h6⟩ := unit_bind_ok h5
    exact ⟨h5, (unit_bind_ok h6).1⟩
  obtain ⟨hpk, hce⟩ := hce
  unfold checkOffsetExpression at hce
  obtain ⟨ht, hm⟩ := unit_bind_ok hce
  have ht := of_decide_eq_true (require_ok ht)
  have hunsigned : ∀ {t : XType}, t.base = .unsigned → ∃ n, t = .int (.bitField n) := by
    intro t hb
    unfold XType.base at hb
    split at hb
    · exact ⟨_, rfl⟩
    · cases hb
    · cases hb
  have hnone : ∀ (b : Base) (g : XField), g.ty = .base b → g.array = none ∧ g.type.base = b := by
    intro b g hg
    unfold XField.ty at hg
    split at hg
    · rename_i ha; cases hg; exact ⟨ha, rfl⟩
    · cases hg
  have harr : ∀ (b : Base) (g : XField), g.ty = .array b → (∃ p, g.array = some p) ∧ g.type.base = b := by
    intro b g hg
    unfold XField.ty at hg
    split at hg
    · cases hg
    · rename_i p ha; cases hg; exact ⟨⟨p, ha⟩, rfl⟩
  by_cases hel : ∃ a x, e = .element a x
  · obtain ⟨a, x, rfl⟩ := hel
    have hax : x = .index ∧ a.Plain := by
      rcases hpath with hp | ⟨hp, _⟩
      · cases hp
      · cases hp; exact ⟨rfl, by assumption⟩
    obtain ⟨rfl, hap⟩ := hax
    have hta : typeOf S id i a = some (.array .unsigned) := by
      simp only [typeOf] at ht
      split at ht
      · rename_i b h1 h2; cases ht; exact h1
      · rename_i b h1 h2; cases h2
      · cases ht
    obtain ⟨id', j, g, h1, h2, h3, h4, h5⟩ := names_type (.inl hap) hta (by
        rintro b i rfl; cases b <;> simp [typeOf] at hta) (by rintro c b v rfl; cases b <;> simp [typeOf] at hta) (by
        rintro a i rfl; cases hap) (by simp)
    obtain ⟨⟨⟨kind, isPacked⟩, ha⟩, hb⟩ := harr _ g h3
    obtain ⟨n, hn⟩ := hunsigned hb
    refine ⟨id', j, g, n, h1, hn, .inr ⟨a, kind, rfl, h2, ?_⟩, ?_⟩
    · cases isPacked with
      | false => exact ha
      | true =>
        exfalso
        obtain ⟨fs', fns', hd', hg'⟩ := h1
        unfold checkOffsetPacked at hpk
        rcases g with ⟨_, _, _, _, _, _, _, _, _, _, _, _⟩
        simp only at ha
        subst ha
        simp [refs, h5, structFields_of hd', hg'] at hpk
    · rintro o (ho | ho)
      · cases ho
      · cases ho; exact h4 o rfl
  · obtain ⟨id', j, g, h1, h2, h3, h4, h5⟩ := names_type (hpath.imp (fun h => h) And.left) ht (by rintro b i rfl; simp at hm)
        (by rintro c b v rfl; simp at hm) (fun a x hx => hel ⟨a, x, hx⟩) (by simp)
    obtain ⟨ha, hb⟩ := hnone _ g h3
    obtain ⟨n, hn⟩ := hunsigned hb
    refine ⟨id', j, g, n, h1, hn, .inl ⟨h2, ha⟩, ?_⟩
    rintro o (ho | ho)
    · exact h4 o ho
    · exact absurd ⟨_, _, ho⟩ hel

example : check Demo.schema = .ok () ∧ ∃ f e, Demo.schema.FieldAt 2 3 f ∧ f.offset = some e ∧ e.Indexed :=
  ⟨by decide +kernel, _, _, ⟨_, _, rfl, rfl⟩, rfl, .element .field⟩

/-- **C93.** Every schema which the compiler accepts, whose offsets are fields of the same structure which are there, satisfies the
rules for offsets on which the theorems about writing (C34) depend. Missing from the full claim: offsets which are optional or
extended fields, for which it is false (`C93_optional_deviates`), and offsets in parameters or nested objects, which are not
modelled. -/
theorem C93_rules_partial (S : XSchema) (n : Nat) (h : check S = .ok ()) (_ho : S.OwnOffsets) (hp : S.OffsetsPresent) :
    (compile S n).OffsetRules := rules h hp

/-- **C93.** For such a schema no object whose offsets can be initialized is refused because of a wrong offset when it is
serialized, whatever values its offsets had; the object which is written differs only in its offsets, and its size is what was
computed. Missing: as in `C93_rules_partial`. -/
theorem C93_serialize_partial (S : XSchema) (m : Nat) (h : check S = .ok ()) (ho : S.OwnOffsets) (hp : S.OffsetsPresent)
    (n id : Nat) (x x1 : Val) (e : Nat) (hi : ((compile S m).codec n id).initialize 0 x = .ok (e, x1)) :
    serialize ((compile S m).codec n id) x ≠ .error .offset ∧
    ∀ b y, serialize ((compile S m).codec n id) x = .ok (b, y) → y = x1 ∧ (compile S m).Same n id x y ∧ b.bitsize = e :=
  C34_serialize (compile S m) (C93_rules_partial S m h ho hp) n id x x1 e hi

/-- The schema above is accepted, its offsets are its own, and an object with wrong offsets is serialized with the right ones. -/
example : check Demo.schema = .ok () ∧ Demo.schema.OwnOffsets ∧ Demo.schema.OffsetsPresent ∧
    ((compile Demo.schema 10).codec 5 2).initialize 0 (Demo.obj 0 1 2 3) = .ok (233, Demo.obj 8 17 19 26) ∧
    (serialize ((compile Demo.schema 10).codec 5 2) (Demo.obj 0 1 2 3)).isOk = true :=
  ⟨by decide +kernel, Demo.schema_own, Demo.schema_present, by decide +kernel, by decide +kernel⟩

/-- **C93 deviates.** The compiler accepts an optional field as an offset. Serializing an object in which it is not set raises the
exception for a wrong offset, because the layout changes when the offset is set; serializing the same object a second time
succeeds. -/
theorem C93_optional_deviates : check Demo.optionalOffset = .ok () ∧ Demo.optionalOffset.OwnOffsets ∧
    ∃ x x1, ((compile Demo.optionalOffset 10).codec 2 0).initialize 0 x = .ok (16, x1) ∧
      serialize ((compile Demo.optionalOffset 10).codec 2 0) x = .error .offset ∧
      (serialize ((compile Demo.optionalOffset 10).codec 2 0) x1).isOk = true := by
  refine ⟨by decide +kernel, ?_, .obj [] 0 0 [.none, .int 7], .obj [] 0 0 [.int 1, .int 7], by decide +kernel, by decide +kernel,
    by decide +kernel⟩
  intro id i f e ⟨fs, fns, hd, hf⟩ he
  rcases id with _ | id <;> simp [Demo.optionalOffset] at hd
  obtain ⟨rfl, rfl⟩ := hd
  rcases i with _ | _ | i <;> simp at hf
  all_goals subst hf; simp at he
  subst he; simp

/-! ## What expressions can depend on -/

/-- **C93.** No length of a bit field, argument, length of an array, clause or constraint of a field of a structure depends on an
offset: objects which differ only in their own offsets and those of objects in them give the same value, or the same exception,
which is never the one for a wrong offset. This holds through functions and through fields of other structures. -/
theorem C93_expressions (S : XSchema) (h : check S = .ok ()) (id i : Nat) (f : XField) (hf : S.FieldAt id i f) (e : XExpr)
    (hu : f.Uses e) (n k : Nat) (fs : List FieldDef) (hc : compile S n id = .struct fs) :
    (intExpr S n id e).IgnoresOffsets ((compile S n).Same k) (Struct.targets fs) fs ∧
    (boolExpr S n id e).IgnoresOffsets ((compile S n).Same k) (Struct.targets fs) fs := by
  obtain ⟨xs, fns, hd, hx⟩ := hf
  have hs := structFields_of hd
  rw [compile_struct hs] at hc
  cases hc
  have hcf := checkFields_ok (checkDecl_struct (check_decl h hd)).1 hx
  rw [Nat.zero_add] at hcf
  obtain ⟨-, h1, h2⟩ := checkField_ok hcf
  have : ∃ scope, checkUse S id scope e = .ok () := by
    rcases hu with ⟨s, ht⟩ | ⟨id', args, ht, hm⟩ | ⟨p, ha⟩ | ho | hco
    · exact ⟨i, h1 e (by simp [XField.exprs, XType.exprs, ht])⟩
    · exact ⟨i, h1 e (by simp [XField.exprs, XType.exprs, ht, hm])⟩
    · exact ⟨i, h1 e (by simp [XField.exprs, ha])⟩
    · exact ⟨i, h1 e (by simp [XField.exprs, ho])⟩
    · exact ⟨i + 1, h2 e hco⟩
  obtain ⟨scope, hcu⟩ := this
  exact ⟨intExpr_ignores h (related_struct hs) hcu, boolExpr_ignores h (related_struct hs) hcu⟩

/-- The clause of `last` reads an element of an array of a nested structure which has an offset, the length of `offs` calls a
function of it. -/
example : ∃ f g : XField, Demo.schema.FieldAt 2 4 f ∧ f.Uses (.op2 Demo.gt (.element (.dot (.field 1) 0 3) (Demo.lit 0)) (Demo.lit 9)) ∧
    Demo.schema.FieldAt 2 2 g ∧ g.Uses (.dotCall (.field 1) 0 0) :=
  ⟨_, _, ⟨_, _, rfl, rfl⟩, Or.inr (Or.inr (Or.inr (Or.inl rfl))), ⟨_, _, rfl, rfl⟩, Or.inr (Or.inr (Or.inl ⟨_, rfl⟩))⟩

/-- **C93.** Results of functions which are no objects do not depend on offsets either, however deep the calls are. -/
theorem C93_functions (S : XSchema) (h : check S = .ok ()) (id f : Nat) (d : XDecl) (g : XFunction) (hd : S[id]? = some d)
    (hg : d.functions[f]? = some g) (hp : ∀ c, g.type ≠ .compound c) (m n k : Nat) (x x' : Val)
    (hx : (compile S n).Same k id x x') (ps : List Int) (vs vs' : List Val) (ha : attributes x = .ok (ps, vs))
    (ha' : attributes x' = .ok (ps, vs')) :
    callFunction S m id f ⟨ps, vs', 0⟩ = callFunction S m id f ⟨ps, vs, 0⟩ := by
  obtain ⟨qs, ws, ws', h1, h2, h3⟩ := attributes_agree hx
  rw [ha] at h1
  rw [ha'] at h2
  cases h1
  cases h2
  refine agree_plain (call_agrees h m id f d g _ _ hd hg h3) ?_
  cases hb : g.type with
  | compound c => exact (hp c hb).elim
  | _ => rfl

/-- `total()` of two headers which differ in the offset -/
example : callFunction Demo.schema 3 0 0 ⟨[2], [.int 1, .int 99, .none, .arr [.int 10]], 0⟩ = .ok (.int 2) := by decide +kernel

/-! ## What is refused -/

/-- Offsets used as lengths, in functions, in expressions of other structures, and offsets which are used twice. -/
example : check Demo.lengthOffset = .error .offsetUsed ∧ check Demo.functionOffset = .error .offsetUsed ∧
    check Demo.nestedOffset = .error .offsetUsed ∧ check Demo.twiceOffset = .error .offsetDuplicated :=
  ⟨by decide +kernel, by decide +kernel, by decide +kernel, by decide +kernel⟩

theorem mem_refs {self id j : Nat} {e : XExpr} : (id, j) ∈ refs self e ↔ e.Mentions self id j := by
  induction e with
  | field i =>
    simp only [refs, XExpr.Mentions, List.mem_singleton, Prod.mk.injEq]
    constructor <;> rintro ⟨rfl, rfl⟩ <;> exact ⟨rfl, rfl⟩
  | dot e id' j' ih =>
    simp only [refs, XExpr.Mentions, List.mem_cons, Prod.mk.injEq, ih]
    constructor <;> rintro (⟨rfl, rfl⟩ | h) <;> first | exact .inl ⟨rfl, rfl⟩ | exact .inr h
  | op3 _ a b c iha ihb ihc => simp only [refs, XExpr.Mentions, List.mem_append, iha, ihb, ihc, or_assoc]
  | element a b iha ihb => simp only [refs, XExpr.Mentions, List.mem_append, iha, ihb]
  | op2 _ a b iha ihb => simp only [refs, XExpr.Mentions, List.mem_append, iha, ihb]
  | dotParam e _ _ ih => simpa only [refs, XExpr.Mentions] using ih
  | dotCall e _ _ ih => simpa only [refs, XExpr.Mentions] using ih
  | lengthof e ih => simpa only [refs, XExpr.Mentions] using ih
  | op1 _ e ih => simpa only [refs, XExpr.Mentions] using ih
  | _ => simp [refs, XExpr.Mentions]

/-- the field at the end of an offset's path is marked, be it of this structure or of another one -/
theorem used_of_names {S : XSchema} {id' j : Nat} {f' : XField} {a : XExpr} {id o : Nat} (hf' : S.FieldAt id' j f')
    (ho : f'.offset = some a ∨ f'.offset = some (.element a .index)) (hn : a.Names id' id o) : used S (id, o) = true := by
  obtain ⟨xs', fns', hd', hx'⟩ := hf'
  have hh : (refs id' a).head? = some (id, o) := by
    rcases hn with ⟨rfl, rfl⟩ | ⟨b, rfl⟩ <;> rfl
  rcases ho with ho | ho
  · exact used_of_offset hd' (List.mem_filterMap.2 ⟨f', List.mem_of_getElem? hx', ho⟩) hh
  · refine used_of_offset hd' (List.mem_filterMap.2 ⟨f', List.mem_of_getElem? hx', ho⟩) ?_
    simp only [refs, List.append_nil, hh]

/-- **C93.** A schema is refused if an expression of a field uses a field which is an offset, of this structure or of another one, no
matter in which structure it is used as an offset. -/
theorem C93_refused (S : XSchema) (id i : Nat) (f : XField) (hf : S.FieldAt id i f) (e : XExpr) (hu : f.Uses e)
    (id' j : Nat) (f' : XField) (hf' : S.FieldAt id' j f') (a : XExpr) (c o : Nat)
    (ho : f'.offset = some a ∨ f'.offset = some (.element a .index)) (hn : a.Names id' c o) (hr : e.Mentions id c o) :
    check S ≠ .ok () := by
  intro h
  obtain ⟨xs, fns, hd, hx⟩ := hf
  have hcf := checkFields_ok (checkDecl_struct (check_decl h hd)).1 hx
  rw [Nat.zero_add] at hcf
  obtain ⟨-, h1, h2⟩ := checkField_ok hcf
  have : ∃ scope, checkUse S id scope e = .ok () := by
    rcases hu with ⟨s, ht⟩ | ⟨id', args, ht, hm⟩ | ⟨p, ha⟩ | ho | hco
    · exact ⟨i, h1 e (by simp [XField.exprs, XType.exprs, ht])⟩
    · exact ⟨i, h1 e (by simp [XField.exprs, XType.exprs, ht, hm])⟩
    · exact ⟨i, h1 e (by simp [XField.exprs, ha])⟩
    · exact ⟨i, h1 e (by simp [XField.exprs, ho])⟩
    · exact ⟨i + 1, h2 e hco⟩
  obtain ⟨scope, hcu⟩ := this
  have h3 := checkOffsetFields_iff (checkUse_ok hcu).1 _ (mem_refs.mpr hr)
  rw [used_of_names hf' ho hn] at h3
  cases h3

/-- the clause which reads the offset of a nested structure -/
example : ∃ (f f' : XField) (e : XExpr), Demo.nestedOffset.FieldAt 1 1 f ∧ f.Uses e ∧ Demo.nestedOffset.FieldAt 0 1 f' ∧
    f'.offset = some (.field 0) ∧ e.Mentions 1 0 0 :=
  ⟨_, _, _, ⟨_, _, rfl, rfl⟩, Or.inr (Or.inr (Or.inr (Or.inl rfl))), ⟨_, _, rfl, rfl⟩, rfl, by simp [XExpr.Mentions]⟩

/-- **C93.** So is a schema in which the selector of a choice uses an offset. -/
theorem C93_selector (S : XSchema) (id : Nat) (selector : XExpr) (cases : List (List Int × Option XField))
    (default : Option (Option XField)) (fns : List XFunction) (hd : S[id]? = some ⟨.choice selector cases default, fns⟩)
    (id' j : Nat) (f' : XField) (hf' : S.FieldAt id' j f') (a : XExpr) (c o : Nat)
    (ho : f'.offset = some a ∨ f'.offset = some (.element a .index)) (hn : a.Names id' c o) (hr : selector.Mentions id c o) :
    check S ≠ .ok () := by
  intro h
  have hc := check_decl h hd
  unfold checkDecl at hc
  obtain ⟨-, h1⟩ := unit_bind_ok hc
  obtain ⟨h2, -⟩ := unit_bind_ok h1
  have h3 := checkOffsetFields_iff (checkUse_ok h2).1 _ (mem_refs.mpr hr)
  rw [used_of_names hf' ho hn] at h3
  cases h3

/-- `struct Offsets { uint32 off; }; struct Data { Offsets o; o.off: uint8 f; }; choice C(Offsets o) on o.off { case 1: uint8 x; };` -/
def Demo.selectorOffset : XSchema := [
  ⟨.struct [{ type := .int (.bitField 32) }], []⟩,
  ⟨.struct [{ type := .compound 0 [] }, { type := .int (.bitField 8), offset := some (.dot (.field 0) 0 0) }], []⟩,
  ⟨.choice (.dot (.param (.compound 0) 0) 0 0) [([1], some { type := .int (.bitField 8) })] none, []⟩]

example : check Demo.selectorOffset = .error .offsetUsed ∧ ∃ f', Demo.selectorOffset.FieldAt 1 1 f' ∧
    f'.offset = some (.dot (.field 0) 0 0) ∧ (XExpr.dot (.field 0) 0 0).Names 1 0 0 ∧
    (XExpr.dot (.param (.compound 0) 0) 0 0).Mentions 2 0 0 :=
  ⟨by decide +kernel, _, ⟨_, _, rfl, rfl⟩, rfl, .inr ⟨_, rfl⟩, .inl ⟨rfl, rfl⟩⟩

end Zserio.OffsetCheck
