import Verif.Lemmas.CompoundPlain
import Verif.Lemmas.CompoundSafe
set_option linter.unusedSimpArgs false
/-
Helper lemmas: where the values of the fields of a structure are in the output, and that packing contexts do not matter outside
of packed arrays.
-/
namespace Zserio
open Writer Ctx Array'

/-! ### Contexts do not matter without packing -/

/-- the context is passed through and does not influence the effect -/
def Neutral (g : Ctx → M Writer Ctx) : Prop := ∀ c w,
  g c w = match g Ctx.empty w with
    | (.ok _, w') => (.ok c, w')
    | (.error e, w') => (.error e, w')

theorem neutral_pure : Neutral (fun c => pure c) := fun c w => by simp

theorem neutral_throw (e : Err) : Neutral (fun _ => M.throw e) := fun c w => by simp

theorem neutral_bind {β : Type} {m : M Writer β} {g : β → Ctx → M Writer Ctx} (h : ∀ b, Neutral (g b)) :
    Neutral (fun c => m >>= fun b => g b c) := by
  intro c w
  rcases hm : m w with ⟨_ | b, w1⟩
  · simp only [M.bind_error hm]
  · simp only [M.bind_ok hm]
    exact h b c w1

theorem Neutral.seq {g h : Ctx → M Writer Ctx} (hg : Neutral g) (hh : Neutral h) : Neutral (fun c => g c >>= h) := by
  intro c w
  have h1 := hg c w
  rcases hm : g Ctx.empty w with ⟨_ | c0, w1⟩
  · rw [hm] at h1
    simp only [M.bind_error hm, M.bind_error h1]
  · rw [hm] at h1
    simp only [M.bind_ok hm, M.bind_ok h1]
    rw [hh c w1, hh c0 w1]
    rcases h Ctx.empty w1 with ⟨_ | _, _⟩ <;> rfl

theorem neutral_ite {b : Prop} [Decidable b] {g h : Ctx → M Writer Ctx} (hg : Neutral g) (hh : Neutral h) :
    Neutral (fun c => if b then g c else h c) := by
  by_cases hb : b
  · simpa [hb] using hg
  · simpa [hb] using hh

/-- a successful write does the same with another context -/
theorem Neutral.ok {g : Ctx → M Writer Ctx} (h : Neutral g) {c c' : Ctx} {w w' : Writer} (hg : g c w = (.ok c', w')) (d : Ctx) :
    c' = c ∧ g d w = (.ok d, w') := by
  have h1 := h c w
  have h2 := h d w
  rw [hg] at h1
  rcases hm : g Ctx.empty w with ⟨_ | c0, w1⟩
  · rw [hm] at h1; simp at h1
  · rw [hm] at h1 h2
    simp only [Prod.mk.injEq, Except.ok.injEq] at h1
    exact ⟨h1.1, by rw [h2, h1.2]⟩

variable {codecs : Nat → Codec}

theorem neutral_methods (hk : ∀ id x, Neutral (fun c => (codecs id).write none c x)) {ty : ElemType} {env : Env} {m : Methods}
    (h : ty.methods codecs env = .ok m) (x : Val) : Neutral (fun c => m.write none c x) := by
  have hint : ∀ k x, Neutral (fun c => intWrite k none c x) := fun k x => neutral_bind fun _ => neutral_pure
  cases ty with
  | int k => obtain rfl := Except.ok.inj h; exact neutral_bind fun x => hint k x
  | other b => obtain rfl := Except.ok.inj h; exact neutral_bind fun x => neutral_bind fun _ => neutral_pure
  | dynBits s e =>
    simp only [ElemType.methods] at h
    obtain ⟨n, _, h⟩ := except_bind_ok h
    obtain ⟨k, _, h⟩ := except_bind_ok h
    obtain rfl := Except.ok.inj h
    exact neutral_bind fun x => hint k x
  | enum e =>
    obtain rfl := Except.ok.inj h
    refine neutral_bind fun x => ?_
    by_cases hx : x ∈ e.removed
    · simpa [hx] using neutral_throw _
    · simpa [hx] using hint _ _
  | bitmask k => obtain rfl := Except.ok.inj h; exact neutral_bind fun x => hint k x
  | compound id args => obtain rfl := Except.ok.inj h; exact hk id x

theorem neutral_value (hk : ∀ id x, Neutral (fun c => (codecs id).write none c x)) (f : FieldDef) (env : Env) (slot : Nat) (v : Val) :
    Neutral (fun c => f.writeValue codecs env slot none c v) := by
  unfold FieldDef.writeValue
  intro c w
  rcases hm : f.type.methods codecs env with e | m
  · simp only [M.bind_error (M.lift_apply _ _)]
  · simp only [M.bind_ok (M.lift_apply _ _)]
    rcases f.array with _ | a
    · exact neutral_methods hk hm v c w
    · exact neutral_bind (fun xs => neutral_bind fun _ => neutral_pure) c w

theorem neutral_field (hk : ∀ id x, Neutral (fun c => (codecs id).write none c x)) (f : FieldDef) (env : Env) (slot : Nat)
    (present : Bool) (v : Val) : Neutral (fun c => f.write codecs env slot present none c v) := by
  have hopt : Neutral (fun c => f.writeOptional codecs env slot none c v) := by
    refine neutral_bind fun used => neutral_bind fun _ => ?_
    cases used with
    | false => exact neutral_pure
    | true => exact neutral_bind fun _ => neutral_bind fun _ => neutral_bind fun _ => neutral_value hk f env slot v
  unfold FieldDef.write
  cases f.extended with
  | false => exact hopt
  | true =>
    cases present with
    | false => exact neutral_pure
    | true => exact neutral_bind fun _ => hopt

theorem neutral_struct (hk : ∀ id x, Neutral (fun c => (codecs id).write none c x)) (ps : List Int) (k base : Nat) :
    ∀ (fs : List FieldDef) (prior vs : List Val), Neutral (fun c => Struct.write codecs ps k base none fs prior vs c)
  | [], prior, [] => by simpa only [Struct.write] using neutral_pure
  | [], prior, v :: vs => by simpa only [Struct.write] using neutral_throw _
  | f :: fs, prior, [] => by simpa only [Struct.write] using neutral_throw _
  | f :: fs, prior, v :: vs => by
    simp only [Struct.write]
    exact (neutral_field hk f _ _ _ v).seq (neutral_struct hk ps k base fs _ vs)

theorem neutral_branch (hk : ∀ id x, Neutral (fun c => (codecs id).write none c x)) (f : Option FieldDef) (ps : List Int) (slot : Nat)
    (v : Val) : Neutral (fun c => Branch.write codecs f ps slot none c v) := by
  cases f with
  | none => exact neutral_pure
  | some f => exact neutral_field hk f _ _ _ v

theorem Schema.neutral (defs : Schema) : ∀ n id x, Neutral (fun c => (defs.codec n id).write none c x)
  | 0, _, x => neutral_throw _
  | n + 1, id, x => by
    have hk := defs.neutral n
    show Neutral (fun c => ((defs id).codec (defs.codec n)).write none c x)
    cases defs id with
    | struct fs =>
      cases x with
      | obj ps k tag vs => exact neutral_struct hk ps k _ fs [] vs
      | _ => exact neutral_throw _
    | union fs =>
      match x with
      | .obj ps k tag [v] =>
        exact Neutral.seq (g := fun c => intWrite (.var .varsize) (Union.tagMode none) c tag)
          (neutral_bind fun _ => neutral_pure) (neutral_bind fun f => neutral_branch hk (some f) ps _ v)
      | .obj _ _ _ [] | .obj _ _ _ (_ :: _ :: _) | .none | .unset | .int _ | .bool _ | .float _ | .str _ | .bytes _ | .bitBuffer _
      | .arr _ => exact neutral_throw _
    | choice s cs d =>
      match x with
      | .obj ps k tag [v] => exact neutral_bind fun f => neutral_branch hk f.1 ps f.2 v
      | .obj _ _ _ [] | .obj _ _ _ (_ :: _ :: _) | .none | .unset | .int _ | .bool _ | .float _ | .str _ | .bytes _ | .bitBuffer _
      | .arr _ => exact neutral_throw _

/-! ### Fields of a structure one by one -/

namespace Struct

theorem write_split (ps : List Int) (k base : Nat) (mode : Mode) : ∀ (fs : List FieldDef) (prior vs : List Val) (c c' : Ctx) (w w' : Writer),
    write codecs ps k base mode fs prior vs c w = (.ok c', w') → ∀ i (f : FieldDef), fs[i]? = some f →
    ∃ v c1 c2 w1 w2, vs[i]? = some v ∧ write codecs ps k base mode (fs.take i) prior (vs.take i) c w = (.ok c1, w1) ∧
      f.write codecs ⟨ps, prior ++ vs.take i, 0⟩ (prior.length + i + 1) (isPresent k base (prior.length + i)) mode c1 v w1 = (.ok c2, w2) ∧
      write codecs ps k base mode (fs.drop (i + 1)) (prior ++ vs.take (i + 1)) (vs.drop (i + 1)) c2 w2 = (.ok c', w')
  | [], _, _, _, _, _, _, _, i, f, hf => by simp at hf
  | g :: fs, prior, [], c, c', w, w', h, i, f, hf => by simp [write] at h
  | g :: fs, prior, v :: vs, c, c', w, w', h, i, f, hf => by
    simp only [write] at h
    obtain ⟨c1, w1, h1, h2⟩ := M.bind_inv h
    rcases i with _ | i
    · simp only [List.getElem?_cons_zero, Option.some.injEq] at hf
      subst hf
      exact ⟨v, c, c1, w, w1, rfl, by simp [write], by simpa using h1, by simpa using h2⟩
    · simp only [List.getElem?_cons_succ] at hf
      obtain ⟨v', d1, d2, u1, u2, e1, e2, e3, e4⟩ := write_split ps k base mode fs (prior ++ [v]) vs c1 c' w1 w' h2 i f hf
      refine ⟨v', d1, d2, u1, u2, by simpa using e1, ?_, ?_, ?_⟩
      · simp only [List.take_succ_cons, write]
        rw [M.bind_ok h1]
        exact e2
      · simpa [Nat.add_assoc, Nat.add_comm 1] using e3
      · simpa using e4

end Struct

namespace FieldDef
variable {stored : Nat → Val → Val → Prop} {closed : Nat → Bool}

/-- where the value of a used field is written -/
theorem write_at {f : FieldDef} {env : Env} {slot : Nat} {present : Bool} {mode : Mode} {c c' : Ctx} {v : Val} {b0 : List Bool} {w' : Writer}
    (h : f.write codecs env slot present mode c v (ofBits b0) = (.ok c', w')) (hp : f.extended = true → present = true)
    (hu : f.isUsed env v = .ok true) :
    ∃ b1, (∀ o, f.ownOffset = some o → Zserio.checkOffset o env.fields (b0 ++ b1).length = .ok ()) ∧ f.writeChecks env v = .ok () ∧
      f.writeValue codecs env slot mode c v (ofBits (b0 ++ b1)) = (.ok c', w') := by
  have hinner : ∀ b, f.writeInner codecs env slot mode c v (ofBits b) = (.ok c', w') →
      ∃ b1, (∀ o, f.ownOffset = some o → Zserio.checkOffset o env.fields (b ++ b1).length = .ok ()) ∧ f.writeChecks env v = .ok () ∧
        f.writeValue codecs env slot mode c v (ofBits (b ++ b1)) = (.ok c', w') := by
    intro b h
    unfold writeInner at h
    obtain ⟨_, w1, ha, h⟩ := Writer.bind_inv h
    obtain ⟨g1, rfl, -, -⟩ := writeAlign_inv ha
    obtain ⟨_, w2, ho, h⟩ := Writer.bind_inv h
    obtain ⟨g2, hw2, ho1, -⟩ := writeOffset_inv ho
    obtain ⟨_, hc, h⟩ := lift_inv h
    subst hw2
    refine ⟨zeros g1 ++ zeros g2, ?_, hc, by simpa using h⟩
    intro o hown
    unfold writeOffset at ho
    rw [hown] at ho
    simp only at ho
    have := emits_alignto 8 (b ++ zeros g1).length (by omega) (b ++ zeros g1) rfl
    rw [M.bind_ok this, M.bind_ok (M.get_apply _), M.lift_apply] at ho
    simp only [Prod.mk.injEq] at ho
    have h2 := ho.1
    have hl : (ofBits (b ++ zeros g1 ++ zeros (alignGap 8 (b ++ zeros g1).length))).pos = (b ++ (zeros g1 ++ zeros g2)).length := by
      rw [ho.2]; simp [ofBits]
    rw [hl] at h2
    exact h2
  have hopt : ∀ b, f.writeOptional codecs env slot mode c v (ofBits b) = (.ok c', w') →
      ∃ b1, (∀ o, f.ownOffset = some o → Zserio.checkOffset o env.fields (b ++ b1).length = .ok ()) ∧ f.writeChecks env v = .ok () ∧
        f.writeValue codecs env slot mode c v (ofBits (b ++ b1)) = (.ok c', w') := by
    intro b h
    unfold writeOptional at h
    rw [hu, M.bind_ok (M.lift_apply _ _)] at h
    obtain ⟨_, w1, ha, h⟩ := Writer.bind_inv h
    simp only [if_true] at h
    unfold writeAutoBit at ha
    rcases ho : f.optional with _ | _ | e
    · rw [ho] at ha
      simp only [M.pure_apply, Prod.mk.injEq, true_and] at ha
      subst ha
      exact hinner b h
    · rw [ho] at ha
      simp only at ha
      rw [(emits_writeBool true b.length) b rfl] at ha
      simp only [Prod.mk.injEq, true_and] at ha
      subst ha
      obtain ⟨b1, h1, h2, h3⟩ := hinner _ h
      exact ⟨[true] ++ b1, by simpa using h1, h2, by simpa using h3⟩
    · rw [ho] at ha
      simp only [M.pure_apply, Prod.mk.injEq, true_and] at ha
      subst ha
      exact hinner b h
  unfold FieldDef.write at h
  cases hx : f.extended with
  | false =>
    rw [hx] at h
    exact hopt b0 h
  | true =>
    rw [hx, hp hx] at h
    simp only [if_true] at h
    obtain ⟨_, w1, ha, h⟩ := Writer.bind_inv h
    rw [emits_alignto 8 b0.length (by omega) b0 rfl] at ha
    simp only [Prod.mk.injEq, true_and] at ha
    subst ha
    obtain ⟨b1, h1, h2, h3⟩ := hopt _ h
    exact ⟨zeros (alignGap 8 b0.length) ++ b1, by simpa using h1, h2, by simpa using h3⟩

end FieldDef

/-- **Where the value of a field of a structure is in the output.** -/
theorem Struct.field_at (defs : Schema) {closed : Nat → Bool} (hl : defs.Layout closed) (n : Nat) {fs : List FieldDef}
    (hok : ∀ f ∈ fs, f.ArrayOk closed) {ps : List Int} {k base : Nat} {vs : List Val} {c' : Ctx} {b0 : List Bool} {w' : Writer}
    (h : Struct.write (defs.codec n) ps k base none fs [] vs Ctx.empty (ofBits b0) = (.ok c', w')) {i : Nat} {f : FieldDef}
    (hf : fs[i]? = some f) {v : Val} (hv : vs[i]? = some v) (hp : f.extended = true → Struct.isPresent k base i = true)
    (hu : f.isUsed ⟨ps, vs.take i, 0⟩ v = .ok true) :
    ∃ b1 b2 b3, w' = ofBits (b0 ++ b1 ++ b2 ++ b3) ∧
      (∀ o, f.ownOffset = some o → checkOffset o (vs.take i) (b0 ++ b1).length = .ok ()) ∧
      f.writeChecks ⟨ps, vs.take i, 0⟩ v = .ok () ∧
      f.writeValue (defs.codec n) ⟨ps, vs.take i, 0⟩ (i + 1) none Ctx.empty v (ofBits (b0 ++ b1)) = (.ok Ctx.empty, ofBits (b0 ++ b1 ++ b2)) := by
  have hk := defs.neutral n
  have hlaw := defs.lawful closed hl n
  have hP : ∀ id x x', defs.StoredAs n id x x' → ∃ ps, x.params = .ok ps := fun id x x' => defs.storedAs_params n id
  obtain ⟨v', c1, c2, w1, w2, e1, e2, e3, e4⟩ := write_split ps k base none fs [] vs _ _ _ _ h i f hf
  rw [hv] at e1
  obtain rfl := Option.some.inj e1
  obtain ⟨rfl, -⟩ := (neutral_struct hk ps k base _ _ _).ok e2 Ctx.empty
  obtain ⟨rfl, -⟩ := (neutral_field hk f _ _ _ v).ok e3 Ctx.empty
  have hsub : ∀ {gs : List FieldDef}, gs.Sublist fs → ∀ f ∈ gs, f.ArrayOk closed := fun hs f hf => hok f (hs.subset hf)
  obtain ⟨es, f1, -, f3⟩ := fields_passes hlaw hP ps k base none _ (hsub (List.take_sublist i fs)) [] (vs.take i)
  obtain rfl := f1 rfl
  obtain ⟨bs1, cs1, cr1, rfl, -, -, -, -⟩ := f3 [] Ctx.empty Ctx.empty Ctx.empty (by simpa using allSync_empty) _ _ _ e2
  simp only [List.nil_append, List.length_nil, Nat.zero_add] at e3
  obtain ⟨b1, h1, h2, h3⟩ := FieldDef.write_at e3 hp hu
  obtain ⟨es, f1, -, -, f3⟩ := FieldDef.value_passes hlaw hP f (hok f (List.mem_of_getElem? hf)) ⟨ps, vs.take i, 0⟩ (i + 1) none v
  obtain rfl := f1 rfl
  obtain ⟨bs2, cs2, cr2, rfl, -, -, -⟩ := f3 [] Ctx.empty Ctx.empty Ctx.empty (by simpa using allSync_empty)
    (FieldDef.writeChecks_inv h2).2 _ _ _ h3
  obtain ⟨es, f1, -, f3⟩ := fields_passes hlaw hP ps k base none _ (hsub (List.drop_sublist (i + 1) fs)) ([] ++ vs.take (i + 1)) (vs.drop (i + 1))
  obtain rfl := f1 rfl
  obtain ⟨bs3, cs3, cr3, rfl, -, -, -, -⟩ := f3 [] Ctx.empty Ctx.empty Ctx.empty (by simpa using allSync_empty) _ _ _ e4
  refine ⟨bs1 ++ b1, bs2, bs3, by simp, by simpa using h1, h2, by simpa using h3⟩

/-- where the elements of an array with indexed offsets are -/
theorem writeLoop_at {σ α : Type} {tr : Traits α} {chk : Nat → Nat → σ → Except Err Unit} {s : σ} (ha : ∀ x, Appends (tr.write x)) :
    ∀ (xs : List α) (i : Nat) (b0 : List Bool) (w' : Writer), writeLoop tr (some chk) s i xs (ofBits b0) = (.ok (), w') →
    ∀ (j : Nat) (x : α), xs[j]? = some x → ∃ b1 b2 b3, w' = ofBits (b0 ++ b1 ++ b2 ++ b3) ∧ chk (i + j) (b0 ++ b1).length s = .ok () ∧
      tr.write x (ofBits (b0 ++ b1)) = (.ok (), ofBits (b0 ++ b1 ++ b2))
  | [], _, _, _, _, j, x, hj => by simp at hj
  | y :: ys, i, b0, w', h, j, x, hj => by
    simp only [writeLoop] at h
    obtain ⟨_, w1, h1, h⟩ := Writer.bind_inv h
    obtain ⟨g, rfl⟩ := appends_writeCheck _ _ _ _ _ _ h1
    obtain ⟨hg, hc⟩ := writeCheck_inv (chk := some chk) (bs := g) h1
    obtain ⟨_, w2, h2, h⟩ := Writer.bind_inv h
    obtain ⟨bs, rfl⟩ := ha y _ _ _ h2
    rcases j with _ | j
    · simp only [List.getElem?_cons_zero, Option.some.injEq] at hj
      subst hj
      obtain ⟨b3, rfl⟩ := appends_writeLoop (some chk) s ys (fun z _ => ha z) (i + 1) _ _ _ h
      refine ⟨g, bs, b3, rfl, ?_, h2⟩
      rw [Nat.add_zero, List.length_append, hg, length_zeros]
      exact hc chk rfl
    · obtain ⟨c1, c2, c3, e1, e2, e3⟩ := writeLoop_at ha ys (i + 1) _ _ h j x (by simpa using hj)
      refine ⟨g ++ bs ++ c1, c2, c3, by simpa using e1, ?_, by simpa using e3⟩
      rw [show i + (j + 1) = i + 1 + j by omega]
      simpa using e2

/-! ### Reading -/

namespace Struct
open Reader

theorem read_split (ps : List Int) (mode : Mode) : ∀ (fs : List FieldDef) (prior : List Val) (k : Nat) (c : Ctx) (r r' : Reader)
    (vs : List Val) (k' : Nat) (c' : Ctx), read codecs ps mode fs prior k c r = (.ok (vs, k', c'), r') →
    vs.length = prior.length + fs.length ∧ vs.take prior.length = prior ∧ ∀ (i : Nat) (f : FieldDef), fs[i]? = some f →
    ∃ v k1 k2 c1 c2 r1 r2, vs[prior.length + i]? = some v ∧
      (∃ k3 c3, read codecs ps mode (fs.take i) prior k c r = (.ok (vs.take (prior.length + i), k3, c3), r1)) ∧
      readField codecs f ⟨ps, vs.take (prior.length + i), 0⟩ (prior.length + i + 1) mode k1 c1 r1 = (.ok (v, k2, c2), r2)
  | [], prior, k, c, r, r', vs, k', c', h => by
    simp only [read, M.pure_apply, Prod.mk.injEq, Except.ok.injEq] at h
    obtain ⟨⟨rfl, rfl, rfl⟩, rfl⟩ := h
    exact ⟨by simp, by simp, by simp⟩
  | g :: fs, prior, k, c, r, r', vs, k', c', h => by
    simp only [read] at h
    obtain ⟨⟨v, k1, c1⟩, r1, h1, h2⟩ := M.bind_inv h
    obtain ⟨e1, e2, e3⟩ := read_split ps mode fs (prior ++ [v]) k1 c1 r1 r' vs k' c' h2
    simp only [List.length_append, List.length_singleton] at e1 e2 e3
    have htake : vs.take prior.length = prior := by
      have := congrArg (List.take prior.length) e2
      rw [List.take_take, Nat.min_eq_left (by omega)] at this
      simpa using this
    refine ⟨by simp; omega, htake, ?_⟩
    intro i f hf
    rcases i with _ | i
    · simp only [List.getElem?_cons_zero, Option.some.injEq] at hf
      subst hf
      refine ⟨v, k, k1, c, c1, r, r1, ?_, ⟨k, c, by simp [read, htake]⟩, by simpa [htake] using h1⟩
      have := congrArg (fun l => l[prior.length]?) e2
      simpa using this
    · simp only [List.getElem?_cons_succ] at hf
      obtain ⟨v', a1, a2, a3, a4, a5, a6, g1, ⟨k3, c3, g2⟩, g3⟩ := e3 i f hf
      have : prior.length + (i + 1) = prior.length + 1 + i := by omega
      refine ⟨v', a1, a2, a3, a4, a5, a6, by rw [this]; exact g1, ⟨k3, c3, ?_⟩, by rw [this]; exact g3⟩
      simp only [List.take_succ_cons, read]
      rw [M.bind_ok h1, this]
      exact g2

end Struct

end Zserio
