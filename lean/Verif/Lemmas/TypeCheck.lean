import Verif.Spec.TypeCheck
import Verif.Lemmas.Expression
/-
Lemmas for Verif/Props/TypeCheck.lean.
-/
set_option linter.unusedSimpArgs false
set_option linter.unusedVariables false

namespace Zserio.TypeCheck

open Zserio.Expression

theorem bind_ok {α β : Type} {x : Except Problem α} {f : α → Except Problem β} {b : β} (h : (x >>= f) = .ok b) :
    ∃ a, x = .ok a ∧ f a = .ok b := by
  cases x with
  | error e => cases h
  | ok a => exact ⟨a, rfl, h⟩

theorem ok_bind_problem {α β : Type} (a : α) (f : α → Except Problem β) : ((Except.ok a : Except Problem α) >>= f) = f a := rfl

/-- The attributes say the type, and name a function or an array only if it is one. -/
def Exact (a : Attr) (t : Ty) : Prop :=
  a.Says t ∧ (∀ p, a.func = some p → t = .func p.1.ty) ∧ (∀ p, a.array = some p → t = .array p.ty)

theorem plain_says (t : Plain) (a : Attr) (h : a.kind = t.kind) (hz : a.ztype = some (.plain t)) : a.Says t.ty := by
  cases t <;> simp_all [Plain.ty, Attr.Says, Plain.kind]

theorem plain_exact (t : Plain) (k : Bool) : Exact { t.attr with known := k } t.ty :=
  ⟨plain_says t _ rfl rfl, fun _ h => (by cases h), fun _ h => (by cases h)⟩

theorem decl_exact (d : Decl) : Exact d.attr d.ty := by
  cases d with
  | field t => exact plain_exact t false
  | arrayField t => exact ⟨⟨rfl, t, rfl, rfl⟩, fun _ h => (by cases h), fun _ h => (by cases h; rfl)⟩
  | param t => exact plain_exact t false
  | function t k => exact ⟨⟨rfl, t, k, rfl, rfl⟩, fun _ h => (by cases h; rfl), fun _ h => (by cases h)⟩
  | const t k => exact plain_exact t k
  | item c => exact plain_exact (.enum c) false
  | value c => exact plain_exact (.bitmask c) false

theorem exact_of_says {k : Kind} {z : Option ZType} {n : Bool} {t : Ty} (h : Attr.Says { kind := k, ztype := z, known := n } t) :
    Exact { kind := k, ztype := z, known := n } t :=
  ⟨h, fun _ h => (by cases h), fun _ h => (by cases h)⟩

/-- the kinds of types -/
theorem Says_int {a : Attr} {t : Ty} (h : a.Says t) : a.kind = .integer ↔ t = .int := by cases t <;> simp_all [Attr.Says]
theorem Says_float {a : Attr} {t : Ty} (h : a.Says t) : a.kind = .float ↔ t = .float := by cases t <;> simp_all [Attr.Says]
theorem Says_bool {a : Attr} {t : Ty} (h : a.Says t) : a.kind = .boolean ↔ t = .bool := by cases t <;> simp_all [Attr.Says]
theorem Says_str {a : Attr} {t : Ty} (h : a.Says t) : a.kind = .string ↔ t = .str := by cases t <;> simp_all [Attr.Says]
theorem Says_bytes {a : Attr} {t : Ty} (h : a.Says t) : a.kind = .bytes ↔ t = .bytes := by cases t <;> simp_all [Attr.Says]
theorem Says_enum {a : Attr} {t : Ty} (h : a.Says t) : a.kind = .enumeration ↔ ∃ c, t = .enum c := by cases t <;> simp_all [Attr.Says]
theorem Says_bitmask {a : Attr} {t : Ty} (h : a.Says t) : a.kind = .bitmask ↔ ∃ c, t = .bitmask c := by
  cases t <;> simp_all [Attr.Says]
theorem Says_compound {a : Attr} {t : Ty} (h : a.Says t) : a.kind = .compound ↔ ∃ c, t = .compound c := by
  cases t <;> simp_all [Attr.Says]

/-! ### the operators -/

theorem unary_sound {op : UnOp} {a r : Attr} {t : Ty} (h : checkUnary op a = .ok r) (ha : a.Says t) :
    ∃ u, op.type t = some u ∧ Exact r u := by
  cases op <;> simp only [checkUnary] at h <;> split at h <;> first | (cases h; done) | skip
  all_goals
    simp only [Except.ok.injEq] at h
    subst h
    cases t <;> simp_all [Attr.Says, UnOp.type, Exact]

theorem arithmetic_sound {op : BinOp} {a b r : Attr} {t u : Ty} (hop : op = .mul ∨ op = .div ∨ op = .mod ∨ op = .add ∨ op = .sub)
    (h : checkArithmetic op a b = .ok r) (ha : a.Says t) (hb : b.Says u) (hm : op = .mod → t ≠ .float ∧ u ≠ .float) :
    ∃ v, op.type t u = some v ∧ Exact r v := by
  simp only [checkArithmetic] at h
  split at h
  · rename_i h1
    obtain ⟨rfl, h1, h2⟩ := h1
    split at h
    · cases h
      rw [Says_str ha] at h1
      rw [Says_str hb] at h2
      subst h1 h2
      exact ⟨.str, rfl, exact_of_says rfl⟩
    · cases h
  · rename_i h1
    split at h
    · cases h
    · rename_i h2
      simp only [ne_eq, Says_int ha, Says_float ha, Says_int hb, Says_float hb] at h2
      simp only [Says_str ha, Says_str hb] at h1
      simp only [Says_float ha, Says_float hb] at h
      have ht : t = .int ∨ t = .float := by tauto
      have hu : u = .int ∨ u = .float := by tauto
      rcases ht with rfl | rfl <;> rcases hu with rfl | rfl <;> rcases hop with rfl | rfl | rfl | rfl | rfl <;>
        simp_all [BinOp.type, Ty.numeric, Exact, Attr.Says] <;> subst h <;> simp

theorem bits_sound {op : BinOp} {a b r : Attr} {t u : Ty} (hop : op = .shl ∨ op = .shr ∨ op = .band ∨ op = .bxor ∨ op = .bor)
    (h : checkBits op a b = .ok r) (ha : a.Says t) (hb : b.Says u) (hm : op ∈ [BinOp.eq, .ne, .band, .bxor, .bor] → t = u) :
    ∃ v, op.type t u = some v ∧ Exact r v := by
  simp only [checkBits] at h
  split at h
  · cases h
  · rename_i h1
    split at h
    · cases h
    · rename_i h2
      simp only [Except.ok.injEq] at h
      subst h
      cases t <;> cases u <;> simp [Attr.Says] at ha hb <;> simp_all <;>
        rcases hop with rfl | rfl | rfl | rfl | rfl <;> simp_all [BinOp.type, Exact, Attr.Says]

theorem relation_sound {op : BinOp} {a b r : Attr} {t u : Ty}
    (hop : op = .lt ∨ op = .le ∨ op = .gt ∨ op = .ge ∨ op = .eq ∨ op = .ne)
    (h : checkRelation op a b = .ok r) (ha : a.Says t) (hb : b.Says u)
    (ho : op ∈ [BinOp.lt, .le, .gt, .ge] → t = .int ∨ t = .float)
    (hm : op ∈ [BinOp.eq, .ne, .band, .bxor, .bor] → t = u) : ∃ v, op.type t u = some v ∧ Exact r v := by
  simp only [checkRelation] at h
  split at h
  · cases h
  rename_i h1
  split at h
  · cases h
  rename_i h2
  split at h
  · cases h
  rename_i h3
  split at h
  · cases h
  rename_i h4
  simp only [Except.ok.injEq] at h
  subst h
  rw [Says_str ha] at h4
  rw [Says_float ha] at h2
  cases t <;> cases u <;> simp [Attr.Says] at ha hb <;> simp_all <;>
    rcases hop with rfl | rfl | rfl | rfl | rfl | rfl <;> simp_all [BinOp.type, Exact, Attr.Says, Ty.numeric]

theorem logical_sound {op : BinOp} {a b r : Attr} {t u : Ty} (hop : op = .land ∨ op = .lor)
    (h : checkLogical a b = .ok r) (ha : a.Says t) (hb : b.Says u) : ∃ v, op.type t u = some v ∧ Exact r v := by
  simp only [checkLogical] at h
  split at h
  · cases h
  rename_i h1
  simp only [ne_eq, Says_bool ha, Says_bool hb] at h1
  have ht : t = .bool := by tauto
  have hu : u = .bool := by tauto
  subst ht hu
  cases h
  rcases hop with rfl | rfl <;> exact ⟨.bool, rfl, exact_of_says rfl⟩

theorem binary_sound {op : BinOp} {a b r : Attr} {t u : Ty} (h : checkBinary op a b = .ok r) (ha : a.Says t) (hb : b.Says u)
    (ho : op ∈ [BinOp.lt, .le, .gt, .ge] → t = .int ∨ t = .float) (hd : op = .mod → t ≠ .float ∧ u ≠ .float)
    (hm : op ∈ [BinOp.eq, .ne, .band, .bxor, .bor] → t = u) : ∃ v, op.type t u = some v ∧ Exact r v := by
  cases op <;> simp only [checkBinary] at h
  all_goals first
    | exact arithmetic_sound (by decide) h ha hb hd
    | exact bits_sound (by decide) h ha hb hm
    | exact relation_sound (by decide) h ha hb ho hm
    | exact logical_sound (by decide) h ha hb

theorem check_exact {D : Decls} (e : Expression.Expr) : ∀ {a : Attr}, check D e = .ok a → Strict D.signature e →
    ∃ t, e.type D.signature = some t ∧ Exact a t := by
  induction e with
  | intLit => intro a h hs; cases h; exact ⟨.int, rfl, exact_of_says rfl⟩
  | floatLit => intro a h hs; cases h; exact ⟨.float, rfl, exact_of_says rfl⟩
  | strLit => intro a h hs; cases h; exact ⟨.str, rfl, exact_of_says rfl⟩
  | boolLit => intro a h hs; cases h; exact ⟨.bool, rfl, exact_of_says rfl⟩
  | index => intro a h hs; cases h; exact ⟨.int, rfl, exact_of_says rfl⟩
  | symbol id =>
    intro a h hs
    simp only [check] at h
    split at h
    · cases h
    · rename_i d hd
      cases h
      exact ⟨d.ty, by simp [Expr.type, Decls.signature, hd], decl_exact d⟩
  | paren e ih => intro a h hs; exact ih h hs
  | call e ih =>
    intro a h hs
    obtain ⟨b, hb, h⟩ := bind_ok h
    obtain ⟨t, ht, hx⟩ := ih hb hs
    simp only [checkCall] at h
    split at h
    · cases h
    · rename_i p k hf
      cases h
      have := hx.2.1 _ hf
      subst this
      exact ⟨p.ty, by simp [Expr.type, ht], plain_exact p k⟩
  | element e i ihe ihi =>
    intro a h hs
    obtain ⟨b, hb, h⟩ := bind_ok h
    obtain ⟨c, hc, h⟩ := bind_ok h
    obtain ⟨t, ht, hx⟩ := ihe hb hs.1
    obtain ⟨u, hu, hy⟩ := ihi hc hs.2
    simp only [checkElement] at h
    split at h
    · cases h
    · rename_i p hf
      split at h
      · cases h
      · rename_i hk
        cases h
        have := hx.2.2 _ hf
        subst this
        have : u = .int := (Says_int hy.1).mp (by simpa using hk)
        subst this
        exact ⟨p.ty, by simp [Expr.type, ht, hu], plain_exact p false⟩
  | member e id ih =>
    intro a h hs
    obtain ⟨b, hb, h⟩ := bind_ok h
    obtain ⟨t, ht, hx⟩ := ih hb hs.1
    obtain ⟨c, hc⟩ := hs.2
    rw [hc] at ht
    cases ht
    have hz := hx.1.2
    simp only [checkDot, hz] at h
    split at h
    all_goals first | (cases h; done) | skip
    all_goals
      rename_i hd
      cases h
      refine ⟨_, ?_, decl_exact _⟩
      simp only [Expr.type, hc]
      simp [Decls.signature, hd, Option.filter, Decl.isMember]
  | isset x y ihx ihy =>
    intro a h hs
    obtain ⟨b, hb, h⟩ := bind_ok h
    obtain ⟨c, hc, h⟩ := bind_ok h
    obtain ⟨t, ht, hx⟩ := ihx hb hs.1
    obtain ⟨u, hu, hy⟩ := ihy hc hs.2
    simp only [checkIsset] at h
    split at h
    · cases h
    rename_i h1
    split at h
    · cases h
    rename_i h2
    split at h
    · cases h
    rename_i h3
    cases h
    simp only [ne_eq, not_not] at h1 h2 h3
    obtain ⟨c1, rfl⟩ := (Says_bitmask hx.1).mp h1
    obtain ⟨c2, rfl⟩ := (Says_bitmask hy.1).mp h2
    have e1 := hx.1.2
    have e2 := hy.1.2
    rw [h3, e2] at e1
    cases e1
    exact ⟨.bool, by simp [Expr.type, ht, hu], exact_of_says rfl⟩
  | lengthof e ih =>
    intro a h hs
    obtain ⟨b, hb, h⟩ := bind_ok h
    obtain ⟨t, ht, hx⟩ := ih hb hs
    simp only [checkLengthof] at h
    split at h
    · rename_i hi
      cases h
      obtain ⟨p, hp⟩ := Option.isSome_iff_exists.mp hi
      have := hx.2.2 _ hp
      subst this
      exact ⟨.int, by simp [Expr.type, ht], exact_of_says rfl⟩
    split at h
    · rename_i hk
      cases h
      have := (Says_str hx.1).mp hk
      subst this
      exact ⟨.int, by simp [Expr.type, ht], exact_of_says rfl⟩
    split at h
    · rename_i hk
      cases h
      have := (Says_bytes hx.1).mp hk
      subst this
      exact ⟨.int, by simp [Expr.type, ht], exact_of_says rfl⟩
    · cases h
  | valueof e ih =>
    intro a h hs
    obtain ⟨b, hb, h⟩ := bind_ok h
    obtain ⟨t, ht, hx⟩ := ih hb hs
    simp only [checkValueof] at h
    split at h
    · cases h
    rename_i hk
    cases h
    rw [ne_eq, ne_eq, not_and_or, not_not, not_not, Says_enum hx.1, Says_bitmask hx.1] at hk
    rcases hk with ⟨c, rfl⟩ | ⟨c, rfl⟩
    · exact ⟨.int, by simp [Expr.type, ht], exact_of_says rfl⟩
    · exact ⟨.int, by simp [Expr.type, ht], exact_of_says rfl⟩
  | numbits e ih =>
    intro a h hs
    obtain ⟨b, hb, h⟩ := bind_ok h
    obtain ⟨t, ht, hx⟩ := ih hb hs
    simp only [checkNumbits] at h
    split at h
    · cases h
    rename_i hk
    cases h
    rw [ne_eq, not_not, Says_int hx.1] at hk
    subst hk
    exact ⟨.int, by simp [Expr.type, ht], exact_of_says rfl⟩
  | unary op e ih =>
    intro a h hs
    obtain ⟨b, hb, h⟩ := bind_ok h
    obtain ⟨t, ht, hx⟩ := ih hb hs
    obtain ⟨u, hu, hy⟩ := unary_sound h hx.1
    exact ⟨u, by simp [Expr.type, ht, hu], hy⟩
  | binary op x y ihx ihy =>
    intro a h hs
    obtain ⟨b, hb, h⟩ := bind_ok h
    obtain ⟨c, hc, h⟩ := bind_ok h
    obtain ⟨hs1, hs2, ho, hd, hm⟩ := hs
    obtain ⟨t, ht, hx⟩ := ihx hb hs1
    obtain ⟨u, hu, hy⟩ := ihy hc hs2
    rw [ht] at ho hm hd
    rw [hu] at hm hd
    obtain ⟨v, hv, hr⟩ := binary_sound h hx.1 hy.1 (by simpa using ho) (by simpa using hd) (by simpa using hm)
    exact ⟨v, by simp [Expr.type, ht, hu, hv], hr⟩
  | cond z x y ihz ihx ihy =>
    intro a h hs
    obtain ⟨w, hw, h⟩ := bind_ok h
    obtain ⟨b, hb, h⟩ := bind_ok h
    obtain ⟨c, hc, h⟩ := bind_ok h
    obtain ⟨k, hk, hkx⟩ := ihz hw hs.1
    obtain ⟨t, ht, hx⟩ := ihx hb hs.2.1
    obtain ⟨u, hu, hy⟩ := ihy hc hs.2.2
    simp only [checkConditional] at h
    split at h
    · cases h
    rename_i h1
    split at h
    · cases h
    rename_i h2
    split at h
    · cases h
    rename_i h3
    simp only [Except.ok.injEq] at h
    subst h
    rw [ne_eq, not_not, Says_bool hkx.1] at h1
    subst h1
    have htu : t = u := by
      have := hx.1
      have := hy.1
      cases t <;> cases u <;> simp_all [Attr.Says]
    subst htu
    refine ⟨t, by simp [Expr.type, hk, ht, hu], exact_of_says ?_⟩
    have := hx.1
    cases t <;> simp_all [Attr.Says]

/-! ### what is accepted -/

theorem unary_complete {op : UnOp} {a : Attr} {t u : Ty} (h : op.type t = some u) (ha : a.Says t) :
    ∃ r, checkUnary op a = .ok r ∧ r.Says u := by
  cases op <;> cases t <;> simp [UnOp.type] at h <;> subst h <;> simp_all [Attr.Says, checkUnary]

theorem arithmetic_complete {op : BinOp} {a b : Attr} {t u v : Ty} (hop : op = .mul ∨ op = .div ∨ op = .mod ∨ op = .add ∨ op = .sub)
    (h : op.type t u = some v) (ha : a.Says t) (hb : b.Says u) (hk : op = .add → t = .str → a.known = true ∧ b.known = true) :
    ∃ r, checkArithmetic op a b = .ok r ∧ r.Says v ∧ (v = .str → r.known = true) := by
  rcases hop with rfl | rfl | rfl | rfl | rfl <;> cases t <;> cases u <;> simp [BinOp.type, Ty.numeric] at h <;> subst h <;>
    simp_all [Attr.Says, checkArithmetic]

theorem bits_complete {op : BinOp} {a b : Attr} {t u v : Ty} (hop : op = .shl ∨ op = .shr ∨ op = .band ∨ op = .bxor ∨ op = .bor)
    (h : op.type t u = some v) (ha : a.Says t) (hb : b.Says u) : ∃ r, checkBits op a b = .ok r ∧ r.Says v := by
  rcases hop with rfl | rfl | rfl | rfl | rfl <;> cases t <;> cases u <;> simp [BinOp.type] at h <;>
    (try obtain ⟨rfl, h⟩ := h) <;> (try subst h) <;> simp_all [Attr.Says, checkBits]

theorem relation_complete {op : BinOp} {a b : Attr} {t u v : Ty}
    (hop : op = .lt ∨ op = .le ∨ op = .gt ∨ op = .ge ∨ op = .eq ∨ op = .ne)
    (h : op.type t u = some v) (ha : a.Says t) (hb : b.Says u) : ∃ r, checkRelation op a b = .ok r ∧ r.Says v := by
  rcases hop with rfl | rfl | rfl | rfl | rfl | rfl <;> cases t <;> cases u <;> simp [BinOp.type, Ty.numeric] at h <;>
    (try obtain ⟨rfl, h⟩ := h) <;> (try subst h) <;> simp_all [Attr.Says, checkRelation]

theorem logical_complete {op : BinOp} {a b : Attr} {t u v : Ty} (hop : op = .land ∨ op = .lor)
    (h : op.type t u = some v) (ha : a.Says t) (hb : b.Says u) : ∃ r, checkLogical a b = .ok r ∧ r.Says v := by
  rcases hop with rfl | rfl <;> cases t <;> cases u <;> simp [BinOp.type] at h <;> subst h <;> simp_all [Attr.Says, checkLogical]

theorem binary_complete {op : BinOp} {a b : Attr} {t u v : Ty} (h : op.type t u = some v) (ha : a.Says t) (hb : b.Says u)
    (hk : op = .add → t = .str → a.known = true ∧ b.known = true) :
    ∃ r, checkBinary op a b = .ok r ∧ r.Says v ∧ (op = .add → v = .str → r.known = true) := by
  cases op <;> simp only [checkBinary]
  case add => obtain ⟨r, h1, h2, h3⟩ := arithmetic_complete (by decide) h ha hb hk; exact ⟨r, h1, h2, fun _ => h3⟩
  case mul => obtain ⟨r, h1, h2, h3⟩ := arithmetic_complete (by decide) h ha hb hk; exact ⟨r, h1, h2, fun _ => h3⟩
  case div => obtain ⟨r, h1, h2, h3⟩ := arithmetic_complete (by decide) h ha hb hk; exact ⟨r, h1, h2, fun _ => h3⟩
  case mod => obtain ⟨r, h1, h2, h3⟩ := arithmetic_complete (by decide) h ha hb hk; exact ⟨r, h1, h2, fun _ => h3⟩
  case sub => obtain ⟨r, h1, h2, h3⟩ := arithmetic_complete (by decide) h ha hb hk; exact ⟨r, h1, h2, fun _ => h3⟩
  case land => obtain ⟨r, h1, h2⟩ := logical_complete (by decide) h ha hb; exact ⟨r, h1, h2, fun h => by cases h⟩
  case lor => obtain ⟨r, h1, h2⟩ := logical_complete (by decide) h ha hb; exact ⟨r, h1, h2, fun h => by cases h⟩
  all_goals first
    | (obtain ⟨r, h1, h2⟩ := bits_complete (by decide) h ha hb; exact ⟨r, h1, h2, fun h => by cases h⟩)
    | (obtain ⟨r, h1, h2⟩ := relation_complete (by decide) h ha hb; exact ⟨r, h1, h2, fun h => by cases h⟩)

theorem check_complete {D : Decls} (e : Expression.Expr) : ∀ {t : Ty}, e.type D.signature = some t → Supported D e →
    ∃ a, check D e = .ok a ∧ a.Says t ∧ (Constant D e → t = .str → a.known = true) := by
  induction e with
  | intLit => intro t h hs; cases h; exact ⟨_, rfl, rfl, fun h => h.elim⟩
  | floatLit => intro t h hs; cases h; exact ⟨_, rfl, rfl, fun h => h.elim⟩
  | strLit => intro t h hs; cases h; exact ⟨_, rfl, rfl, fun _ _ => rfl⟩
  | boolLit => intro t h hs; cases h; exact ⟨_, rfl, rfl, fun h => h.elim⟩
  | index => intro t h hs; cases h; exact ⟨_, rfl, rfl, fun h => h.elim⟩
  | symbol id =>
    intro t h hs
    simp only [Expr.type, Decls.signature, Option.map_eq_some_iff] at h
    obtain ⟨d, hd, rfl⟩ := h
    refine ⟨d.attr, by simp only [check, hd], (decl_exact d).1, ?_⟩
    rintro ⟨t, ht⟩ _
    rw [hd] at ht
    cases ht
    rfl
  | paren e ih => intro t h hs; exact ih h hs
  | call e ih =>
    intro t h hs
    simp only [Expr.type] at h
    split at h
    · rename_i u hu
      cases h
      obtain ⟨a, ha, hx, _⟩ := ih hu hs
      obtain ⟨_, p, k, hf, rfl⟩ := hx
      exact ⟨{ p.attr with known := k }, by simp only [check, ha, ok_bind_problem, checkCall, hf], (plain_exact p k).1, fun h => h.elim⟩
    · cases h
  | element e i ihe ihi =>
    intro t h hs
    simp only [Expr.type] at h
    split at h
    · rename_i u hu hi
      cases h
      obtain ⟨a, ha, hx, _⟩ := ihe hu hs.1
      obtain ⟨b, hb, hy, _⟩ := ihi hi hs.2
      obtain ⟨_, p, hf, rfl⟩ := hx
      have hk : b.kind = .integer := hy
      exact ⟨p.attr, by simp only [check, ha, hb, ok_bind_problem, checkElement, hf, hk, ne_eq, not_true, if_false],
        (plain_exact p false).1, fun h => h.elim⟩
    · cases h
  | member e id ih =>
    intro t h hs
    simp only [Expr.type] at h
    split at h
    · rename_i c hu
      obtain ⟨a, ha, hx, _⟩ := ih hu hs
      have hz := hx.2
      simp only [Decls.signature, Option.map_eq_some_iff, Option.filter_eq_some_iff] at h
      obtain ⟨d, ⟨hd, hm⟩, rfl⟩ := h
      refine ⟨d.attr, ?_, (decl_exact d).1, fun h => h.elim⟩
      simp only [check, ha, ok_bind_problem, checkDot, hz, hd]
      cases d <;> first | rfl | (simp [Decl.isMember] at hm)
    · cases h
  | isset x y ihx ihy =>
    intro t h hs
    simp only [Expr.type] at h
    split at h
    · rename_i c c' hu hv
      split at h
      · rename_i hc
        subst hc
        cases h
        obtain ⟨a, ha, hx, _⟩ := ihx hu hs.1
        obtain ⟨b, hb, hy, _⟩ := ihy hv hs.2
        exact ⟨{ kind := .boolean }, by simp only [check, ha, hb, ok_bind_problem, checkIsset, hx.1, hy.1, hx.2, hy.2, ne_eq, not_true, if_false],
          rfl, fun h => h.elim⟩
      · cases h
    · cases h
  | lengthof e ih =>
    intro t h hs
    simp only [Expr.type] at h
    split at h
    · rename_i u hu
      cases h
      obtain ⟨a, ha, hx, _⟩ := ih hu hs
      obtain ⟨_, p, hf, rfl⟩ := hx
      exact ⟨{ kind := .integer }, by simp only [check, ha, ok_bind_problem, checkLengthof, hf, Option.isSome_some, if_true], rfl, fun h => h.elim⟩
    · rename_i hu
      cases h
      obtain ⟨a, ha, hx, _⟩ := ih hu hs
      have hk : a.kind = .string := hx
      exact ⟨{ kind := .integer }, by simp only [check, ha, ok_bind_problem, checkLengthof, hk, if_true, ite_self], rfl, fun h => h.elim⟩
    · rename_i hu
      cases h
      obtain ⟨a, ha, hx, _⟩ := ih hu hs
      have hk : a.kind = .bytes := hx
      exact ⟨{ kind := .integer }, by simp only [check, ha, ok_bind_problem, checkLengthof, hk, if_true, ite_self], rfl, fun h => h.elim⟩
    · cases h
  | valueof e ih =>
    intro t h hs
    simp only [Expr.type] at h
    split at h
    · rename_i u hu
      cases h
      obtain ⟨a, ha, hx, _⟩ := ih hu hs
      exact ⟨{ kind := .integer }, by simp [check, ha, ok_bind_problem, checkValueof, hx.1], rfl, fun h => h.elim⟩
    · rename_i u hu
      cases h
      obtain ⟨a, ha, hx, _⟩ := ih hu hs
      exact ⟨{ kind := .integer }, by simp [check, ha, ok_bind_problem, checkValueof, hx.1], rfl, fun h => h.elim⟩
    · cases h
  | numbits e ih =>
    intro t h hs
    simp only [Expr.type] at h
    split at h
    · rename_i hu
      cases h
      obtain ⟨a, ha, hx, _⟩ := ih hu hs
      have hk : a.kind = .integer := hx
      exact ⟨{ kind := .integer }, by simp only [check, ha, ok_bind_problem, checkNumbits, hk, ne_eq, not_true, if_false], rfl, fun h => h.elim⟩
    · cases h
  | unary op e ih =>
    intro t h hs
    simp only [Expr.type, Option.bind_eq_bind, Option.bind_eq_some_iff] at h
    obtain ⟨u, hu, h⟩ := h
    obtain ⟨a, ha, hx, _⟩ := ih hu hs
    obtain ⟨r, hr, hy⟩ := unary_complete h hx
    exact ⟨r, by simp only [check, ha, ok_bind_problem, hr], hy, fun h => h.elim⟩
  | binary op x y ihx ihy =>
    intro t h hs
    simp only [Expr.type, Option.bind_eq_bind, Option.bind_eq_some_iff] at h
    obtain ⟨u, hu, v, hv, h⟩ := h
    obtain ⟨hs1, hs2, hk⟩ := hs
    obtain ⟨a, ha, hx, hkx⟩ := ihx hu hs1
    obtain ⟨b, hb, hy, hky⟩ := ihy hv hs2
    obtain ⟨r, hr, hz, hn⟩ := binary_complete h hx hy (fun ho hstr => by
      subst ho hstr
      have hv' : v = .str := by
        cases v <;> simp_all [BinOp.type, Ty.numeric]
      obtain ⟨h1, h2⟩ := hk rfl hu
      exact ⟨hkx h1 rfl, hky h2 hv'⟩)
    refine ⟨r, by simp only [check, ha, hb, ok_bind_problem, hr], hz, fun hc ht => ?_⟩
    cases op
    case add => exact hn rfl ht
    all_goals exact hc.elim
  | cond z x y ihz ihx ihy =>
    intro t h hs
    simp only [Expr.type] at h
    split at h
    · rename_i hc
      obtain ⟨a, ha, hx, _⟩ := ihz hc.1 hs.1
      obtain ⟨b, hb, hy, _⟩ := ihx h hs.2.1
      obtain ⟨c, hc', hw, _⟩ := ihy (hc.2 ▸ h) hs.2.2.1
      have h1 := hs.2.2.2.1
      have h2 := hs.2.2.2.2
      rw [h] at h1 h2
      have hk : a.kind = .boolean := hx
      refine ⟨{ kind := b.kind, ztype := b.ztype }, ?_, ?_, fun h => h.elim⟩
      · simp only [check, ha, hb, hc', ok_bind_problem, checkConditional, hk, ne_eq, not_true, if_false]
        cases t <;> first | exact absurd rfl (h1 _) | exact absurd rfl (h2 _) | (clear h1 h2; simp_all [Attr.Says])
      · cases t <;> first | exact absurd rfl (h1 _) | exact absurd rfl (h2 _) | (clear h1 h2; simp_all [Attr.Says])
    · cases h

/-! ### values -/

variable {O : Type} {T : O → Ty → Prop}

theorem mask_bits {W : World O} {c : Nat} {x y : Int} (hx : W.inMask c x = true) (hy : W.inMask c y = true) :
    W.inMask c (Int.land x y) = true ∧ W.inMask c (Int.xor x y) = true ∧ W.inMask c (Int.lor x y) = true := by
  simp only [World.inMask, Bool.and_eq_true, decide_eq_true_eq] at hx hy ⊢
  obtain ⟨m, rfl⟩ := Int.eq_ofNat_of_zero_le hx.1
  obtain ⟨n, rfl⟩ := Int.eq_ofNat_of_zero_le hy.1
  have hm : m < 2 ^ W.width c := by exact_mod_cast hx.2
  have hn : n < 2 ^ W.width c := by exact_mod_cast hy.2
  have e1 : Int.land (m : Int) (n : Int) = ((m &&& n : Nat) : Int) := rfl
  have e2 : Int.xor (m : Int) (n : Int) = ((m ^^^ n : Nat) : Int) := rfl
  have e3 : Int.lor (m : Int) (n : Int) = ((m ||| n : Nat) : Int) := rfl
  rw [e1, e2, e3]
  refine ⟨⟨Int.natCast_nonneg _, ?_⟩, ⟨Int.natCast_nonneg _, ?_⟩, ⟨Int.natCast_nonneg _, ?_⟩⟩
  · exact_mod_cast Nat.and_lt_two_pow m hn
  · exact_mod_cast Nat.xor_lt_two_pow hm hn
  · exact_mod_cast Nat.or_lt_two_pow hm hn

theorem apply_progress {W : World O} {d : Division} {op : BinOp} {ta tb t : Ty} {x y : Value O} (h1 : op ≠ .land) (h2 : op ≠ .lor)
    (ht : op.type ta tb = some t) (hx : x.HasType T ta) (hy : y.HasType T tb) (mx : InMask W x) (my : InMask W y)
    (hf : ¬ OperatorFault W op x y) : ∃ v, op.apply W d x y = some v ∧ InMask W v := by
  cases x <;> cases ta <;> simp only [Value.HasType] at hx <;> cases y <;> cases tb <;> simp only [Value.HasType] at hy <;> cases op <;>
    first
    | exact absurd rfl h1
    | exact absurd rfl h2
    | (simp [BinOp.type, Ty.numeric] at ht; done)
    | (simp [BinOp.apply, BinOp.compareInt, BinOp.arithInt, BinOp.equality, InMask]; done)
    | (simp_all [BinOp.type, BinOp.apply, BinOp.compareInt, BinOp.arithInt, BinOp.equality, InMask, OperatorFault, mask_bits]; done)
    | (obtain ⟨z, hz⟩ := Option.ne_none_iff_exists'.mp (by simpa [OperatorFault] using hf); simp [BinOp.apply, hz, InMask]; done)
    | (simp_all [BinOp.type, BinOp.apply, BinOp.compareInt, BinOp.arithInt, BinOp.equality, InMask, OperatorFault, mask_bits]; omega)

theorem unary_progress {W : World O} {op : UnOp} {ta t : Ty} {x : Value O} (ht : op.type ta = some t) (hx : x.HasType T ta)
    (mx : InMask W x) : ∃ v, op.apply W x = some v ∧ InMask W v := by
  cases x <;> cases ta <;> simp only [Value.HasType] at hx <;> cases op <;> first
    | (simp [UnOp.type] at ht; done)
    | (simp [UnOp.apply, InMask]; done)
    | skip
  rename_i c x c'
  have hm : W.inMask c x = true := mx
  refine ⟨.bitmask c (2 ^ W.width c - 1 - x), by simp only [UnOp.apply, hm, if_true], ?_⟩
  simp only [InMask, World.inMask, Bool.and_eq_true, decide_eq_true_eq] at hm ⊢
  omega

theorem eval_binary_eq {W : World O} {d : Division} {op : BinOp} {a b : Expression.Expr} {x y : Value O} (h1 : op ≠ .land)
    (h2 : op ≠ .lor) (ha : a.eval W d = some x) (hb : b.eval W d = some y) : (Expr.binary op a b).eval W d = op.apply W d x y := by
  cases op
  case land => exact absurd rfl h1
  case lor => exact absurd rfl h2
  all_goals simp only [Expr.eval, ha, hb]

theorem faults_binary {W : World O} {d : Division} {op : BinOp} {a b : Expression.Expr} (h1 : op ≠ .land) (h2 : op ≠ .lor) :
    Faults W d (.binary op a b) ↔
      (Faults W d a ∨ Faults W d b ∨ ∃ x y, a.eval W d = some x ∧ b.eval W d = some y ∧ OperatorFault W op x y) := by
  cases op
  case land => exact absurd rfl h1
  case lor => exact absurd rfl h2
  all_goals simp only [Faults]

theorem eval_progress {W : World O} {Γ : Signature} (hW : W.Typed Γ T) (hC : Complete W Γ T) (d : Division) (e : Expression.Expr) :
    ∀ {t : Ty}, e.type Γ = some t → ¬ Faults W d e → ∃ v, e.eval W d = some v ∧ v.HasType T t ∧ InMask W v := by
  suffices H : ∀ {t : Ty}, e.type Γ = some t → ¬ Faults W d e → ∃ v, e.eval W d = some v ∧ InMask W v by
    intro t ht hf
    obtain ⟨v, hv, hm⟩ := H ht hf
    exact ⟨v, hv, type_sound hW d e ht hv, hm⟩
  induction e with
  | intLit => intro t ht hf; exact ⟨_, rfl, trivial⟩
  | floatLit => intro t ht hf; exact ⟨_, rfl, trivial⟩
  | strLit => intro t ht hf; exact ⟨_, rfl, trivial⟩
  | boolLit => intro t ht hf; exact ⟨_, rfl, trivial⟩
  | index =>
    intro t ht hf
    obtain ⟨i, hi⟩ := hC.index
    exact ⟨.int i, by simp only [Expr.eval, hi, Option.map_some], trivial⟩
  | symbol id => intro t ht hf; exact hC.symbol id t ht
  | paren e ih => intro t ht hf; exact ih ht hf
  | call e ih =>
    intro t ht hf
    simp only [Expr.type] at ht
    split at ht
    · rename_i u hu
      obtain ⟨v, hv, _⟩ := ih hu hf
      have hty := type_sound hW d e hu hv
      cases v <;> simp only [Value.HasType] at hty
      rename_i o _
      obtain ⟨r, hr, hm⟩ := hC.result o u hty
      exact ⟨r, by simp only [Expr.eval, hv, hr], hm⟩
    · cases ht
  | element e i ihe ihi =>
    intro t ht hf
    simp only [Faults, not_or] at hf
    simp only [Expr.type] at ht
    split at ht
    · rename_i u hu hi
      obtain ⟨v, hv, _⟩ := ihe hu hf.1
      obtain ⟨k, hk, _⟩ := ihi hi hf.2.1
      obtain ⟨o, rfl, ho⟩ := hasType_array (type_sound hW d e hu hv)
      obtain ⟨k, rfl⟩ := hasType_int (type_sound hW d i hi hk)
      obtain ⟨n, hn⟩ := hC.length o u ho
      have hb : ¬ (k < 0 ∨ (n : Int) ≤ k) := fun hb => hf.2.2 ⟨o, n, k, hv, hn, hk, hb⟩
      rw [not_or] at hb
      obtain ⟨r, hr, hm⟩ := hC.element o u n k.toNat ho hn (by omega)
      exact ⟨r, by simp only [Expr.eval, hv, hk, hb.1, if_false, hr], hm⟩
    · cases ht
  | member e id ih =>
    intro t ht hf
    simp only [Expr.type] at ht
    split at ht
    · rename_i c hu
      obtain ⟨v, hv, _⟩ := ih hu hf
      have hty := type_sound hW d e hu hv
      cases v <;> simp only [Value.HasType] at hty
      rename_i o _
      obtain ⟨r, hr, hm⟩ := hC.member o c id t hty ht
      exact ⟨r, by simp only [Expr.eval, hv, hr], hm⟩
    · cases ht
  | isset x y ihx ihy =>
    intro t ht hf
    simp only [Faults, not_or] at hf
    simp only [Expr.type] at ht
    split at ht
    · rename_i c c' hu hv
      split at ht
      · rename_i hc
        subst hc
        obtain ⟨v, hv1, hm1⟩ := ihx hu hf.1
        obtain ⟨w, hw1, hm2⟩ := ihy hv hf.2
        obtain ⟨a, rfl⟩ := hasType_bitmask (type_sound hW d x hu hv1)
        obtain ⟨b, rfl⟩ := hasType_bitmask (type_sound hW d y hv hw1)
        have h1 : W.inMask c a = true := hm1
        have h2 : W.inMask c b = true := hm2
        exact ⟨.bool (Int.land a b = b), by simp only [Expr.eval, hv1, hw1, h1, h2, and_self, if_true], trivial⟩
      · cases ht
    · cases ht
  | lengthof e ih =>
    intro t ht hf
    simp only [Faults, not_or] at hf
    simp only [Expr.type] at ht
    split at ht
    · rename_i u hu
      obtain ⟨v, hv, _⟩ := ih hu hf.1
      obtain ⟨o, rfl, ho⟩ := hasType_array (type_sound hW d e hu hv)
      obtain ⟨n, hn⟩ := hC.length o u ho
      exact ⟨.int n, by simp only [Expr.eval, hv, hn, Option.map_some], trivial⟩
    · rename_i hu
      obtain ⟨v, hv, _⟩ := ih hu hf.1
      obtain ⟨s, rfl⟩ := hasType_str (type_sound hW d e hu hv)
      cases he : utf8Encode s with
      | error err => exact absurd ⟨s, err, hv, he⟩ hf.2
      | ok bs => exact ⟨.int bs.length, by simp only [Expr.eval, hv, he], trivial⟩
    · rename_i hu
      obtain ⟨v, hv, _⟩ := ih hu hf.1
      obtain ⟨bs, rfl⟩ := hasType_bytes (type_sound hW d e hu hv)
      exact ⟨.int bs.length, by simp only [Expr.eval, hv], trivial⟩
    · cases ht
  | valueof e ih =>
    intro t ht hf
    simp only [Expr.type] at ht
    split at ht
    · rename_i c hu
      obtain ⟨v, hv, _⟩ := ih hu hf
      obtain ⟨x, rfl⟩ := hasType_enum (type_sound hW d e hu hv)
      exact ⟨.int x, by simp only [Expr.eval, hv], trivial⟩
    · rename_i c hu
      obtain ⟨v, hv, _⟩ := ih hu hf
      obtain ⟨x, rfl⟩ := hasType_bitmask (type_sound hW d e hu hv)
      exact ⟨.int x, by simp only [Expr.eval, hv], trivial⟩
    · cases ht
  | numbits e ih =>
    intro t ht hf
    simp only [Faults, not_or] at hf
    simp only [Expr.type] at ht
    split at ht
    · rename_i hu
      obtain ⟨v, hv, _⟩ := ih hu hf.1
      obtain ⟨x, rfl⟩ := hasType_int (type_sound hW d e hu hv)
      have hx : ¬ x < 0 := fun hx => hf.2 ⟨x, hv, hx⟩
      exact ⟨.int (numBits x.toNat), by simp only [Expr.eval, hv, hx, if_false], trivial⟩
    · cases ht
  | unary op e ih =>
    intro t ht hf
    simp only [Expr.type, Option.bind_eq_bind, Option.bind_eq_some_iff] at ht
    obtain ⟨u, hu, ht⟩ := ht
    obtain ⟨v, hv, hm⟩ := ih hu hf
    obtain ⟨r, hr, hm⟩ := unary_progress ht (type_sound hW d e hu hv) hm
    exact ⟨r, by simp only [Expr.eval, hv, hr], hm⟩
  | binary op a b iha ihb =>
    intro t ht hf
    simp only [Expr.type, Option.bind_eq_bind, Option.bind_eq_some_iff] at ht
    obtain ⟨ta, hta, tb, htb, ht⟩ := ht
    by_cases h1 : op = .land
    · subst h1
      have : ta = .bool ∧ tb = .bool := by cases ta <;> cases tb <;> simp_all [BinOp.type]
      obtain ⟨rfl, rfl⟩ := this
      simp only [Faults, not_or] at hf
      obtain ⟨v, hv, _⟩ := iha hta hf.1
      obtain ⟨x, rfl⟩ := hasType_bool (type_sound hW d a hta hv)
      cases x with
      | false => exact ⟨.bool false, by simp only [Expr.eval, hv], trivial⟩
      | true =>
        obtain ⟨w, hw, _⟩ := ihb htb (fun hb => hf.2 ⟨hv, hb⟩)
        obtain ⟨y, rfl⟩ := hasType_bool (type_sound hW d b htb hw)
        exact ⟨.bool y, by simp only [Expr.eval, hv, hw], trivial⟩
    by_cases h2 : op = .lor
    · subst h2
      have : ta = .bool ∧ tb = .bool := by cases ta <;> cases tb <;> simp_all [BinOp.type]
      obtain ⟨rfl, rfl⟩ := this
      simp only [Faults, not_or] at hf
      obtain ⟨v, hv, _⟩ := iha hta hf.1
      obtain ⟨x, rfl⟩ := hasType_bool (type_sound hW d a hta hv)
      cases x with
      | true => exact ⟨.bool true, by simp only [Expr.eval, hv], trivial⟩
      | false =>
        obtain ⟨w, hw, _⟩ := ihb htb (fun hb => hf.2 ⟨hv, hb⟩)
        obtain ⟨y, rfl⟩ := hasType_bool (type_sound hW d b htb hw)
        exact ⟨.bool y, by simp only [Expr.eval, hv, hw], trivial⟩
    rw [faults_binary h1 h2, not_or, not_or] at hf
    obtain ⟨x, hx, mx⟩ := iha hta hf.1
    obtain ⟨y, hy, my⟩ := ihb htb hf.2.1
    obtain ⟨v, hv, hm⟩ := apply_progress (d := d) h1 h2 ht (type_sound hW d a hta hx) (type_sound hW d b htb hy) mx my
      (fun h => hf.2.2 ⟨x, y, hx, hy, h⟩)
    exact ⟨v, by rw [eval_binary_eq h1 h2 hx hy, hv], hm⟩
  | cond c a b ihc iha ihb =>
    intro t ht hf
    simp only [Faults, not_or] at hf
    simp only [Expr.type] at ht
    split at ht
    · rename_i hc
      obtain ⟨v, hv, _⟩ := ihc hc.1 hf.1
      obtain ⟨x, rfl⟩ := hasType_bool (type_sound hW d c hc.1 hv)
      cases x with
      | true =>
        obtain ⟨w, hw, hm⟩ := iha ht (fun h => hf.2.1 ⟨hv, h⟩)
        exact ⟨w, by simp only [Expr.eval, hv, hw], hm⟩
      | false =>
        obtain ⟨w, hw, hm⟩ := ihb (hc.2 ▸ ht) (fun h => hf.2.2 ⟨hv, h⟩)
        exact ⟨w, by simp only [Expr.eval, hv, hw], hm⟩
    · cases ht

end Zserio.TypeCheck
