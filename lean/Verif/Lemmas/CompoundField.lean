import Verif.Lemmas.CompoundArray
import Verif.Props.Position
set_option linter.unusedSimpArgs false
/-
Helper lemmas on generated compounds: fields.
-/
namespace Zserio
open Writer Array' Ctx

namespace Reader

/-- a step that reads nothing -/
theorem Parses.lift_bind {α β : Type} {x : Except Err α} {a : α} (h : x = .ok a) {f : α → M Reader β} {p : Nat}
    {bs s : List Bool} {b : β} (h' : Parses (f a) p bs s b) : Parses (M.lift x >>= f) p bs s b := by
  intro r hr hp hrest
  rw [M.bind_ok (show M.lift x r = (.ok a, r) by simp [h]), h' r hr hp hrest]

end Reader

namespace Array'

theorem readLoop_congr {σ α : Type} {tr : Traits α} {chk : Option (Nat → Nat → σ → Except Err Unit)} {s s' : σ}
    (h : ∀ c, chk = some c → ∀ i p, c i p s' = c i p s) : ∀ (n i : Nat), readLoop tr chk s' i n = readLoop tr chk s i n
  | 0, _ => rfl
  | n + 1, i => by
    have : readCheck chk i s' = readCheck chk i s := by
      unfold readCheck
      cases chk with
      | none => rfl
      | some c => simp only [h c rfl]
    simp only [readLoop, this, readLoop_congr h n]

theorem readPackedLoop_congr {σ κ α : Type} {pt : PackedTraits κ α} {chk : Option (Nat → Nat → σ → Except Err Unit)} {s s' : σ}
    (h : ∀ c, chk = some c → ∀ i p, c i p s' = c i p s) :
    ∀ (n i : Nat) (c : κ), readPackedLoop pt chk s' c i n = readPackedLoop pt chk s c i n
  | 0, _, _ => rfl
  | n + 1, i, c => by
    have : readCheck chk i s' = readCheck chk i s := by
      unfold readCheck
      cases chk with
      | none => rfl
      | some c => simp only [h c rfl]
    simp only [readPackedLoop, this, readPackedLoop_congr h n]

theorem read_congr {σ α : Type} {tr : Traits α} {cfg : ArrayCfg σ} {s s' : σ} (size : Nat)
    (h : ∀ c, cfg.checkOffset = some c → ∀ i p, c i p s' = c i p s) : read tr cfg s' size = read tr cfg s size := by
  unfold read
  simp only [readLoop_congr h, readLoop_congr (s := s) (s' := s') (chk := none) (tr := tr) (by simp)]

theorem readPacked_congr {σ κ α : Type} {pt : PackedTraits κ α} {cfg : ArrayCfg σ} {s s' : σ} (size : Nat)
    (h : ∀ c, cfg.checkOffset = some c → ∀ i p, c i p s' = c i p s) :
    readPacked pt cfg s' size = readPacked pt cfg s size := by
  unfold readPacked
  simp only [readPackedLoop_congr h]

end Array'

/-- The methods do not depend on which of the two environments the expressions look at. -/
theorem ElemType.Agree.methods {env env' : Env} {ty : ElemType} (h : ty.Agree env env') (codecs : Nat → Codec) :
    ty.methods codecs env' = ty.methods codecs env := by
  cases ty with
  | dynBits signed len => simp only [ElemType.Agree] at h; simp only [ElemType.methods, h]
  | compound id args =>
    simp only [ElemType.Agree] at h
    simp only [ElemType.methods, compoundMethods, h]
  | _ => rfl

namespace FieldDef
variable {codecs : Nat → Codec} {stored : Nat → Val → Val → Prop} {closed : Nat → Bool}

theorem arrayCfg_congr {f : FieldDef} {a : ArrayDef} {fields fields' : List Val}
    (h : ∀ o, f.offset = some o → fields'[o.field]? = fields[o.field]?) :
    ∀ c, (f.arrayCfg a).checkOffset = some c → ∀ i p, c i p fields' = c i p fields := by
  intro c hc i p
  rcases ho : f.offset with _ | ⟨o, _ | _⟩
  · simp [arrayCfg, ho] at hc
  · simp [arrayCfg, ho] at hc
  · simp only [arrayCfg, ho, if_true, Option.some.injEq] at hc
    subst hc
    unfold checkOffsetAt
    rw [h _ ho]

/-- Reading the value does not depend on which of the two environments the expressions look at. -/
theorem Agree.readValue {f : FieldDef} {env env' : Env} {v v' : Val} (h : f.Agree env env' v v') (slot : Nat) (mode : Mode)
    (c : Ctx) : f.readValue codecs env' slot mode c = f.readValue codecs env slot mode c := by
  unfold FieldDef.readValue
  rw [h.type.methods]
  congr 1
  funext m
  rcases ha : f.array with _ | a
  · rfl
  · simp only
    have h1 : arraySize a env' = arraySize a env := by
      unfold arraySize
      rcases a with ⟨_ | _ | len, pk⟩
      · rfl
      · rfl
      · simp only [h.length len pk ha]
    have h2 : ∀ size, f.readArray a m mode env'.fields size = f.readArray a m mode env.fields size := by
      intro size
      unfold readArray
      rw [read_congr size (arrayCfg_congr h.offset), readPacked_congr size (arrayCfg_congr h.offset)]
    rw [h1]
    simp only [h2]

theorem Agree.readOffset {f : FieldDef} {env env' : Env} {v v' : Val} (h : f.Agree env env' v v') :
    f.readOffset env' = f.readOffset env := by
  unfold FieldDef.readOffset
  rcases ho : f.offset with _ | ⟨o, _ | _⟩
  · simp [ownOffset, ho]
  · simp only [ownOffset, ho, Bool.false_eq_true, if_false, Zserio.checkOffset, h.offset _ ho]
  · simp [ownOffset, ho]

/-! ### The value of a field -/

theorem fieldMode_none {f : FieldDef} {slot : Nat} {mode : Mode} (h : mode = none) : f.fieldMode slot mode = none := by
  subst h; rfl

/-- what is known about a value that is written: its length has been checked -/
theorem fixedSize_const {ty : ElemType} {env : Env} {m : Methods} (h : ty.methods codecs env = .ok m) (hf : ty.FixedSize) :
    ∃ n, m.constSize = some n ∧ 0 < n := by
  cases ty with
  | int k =>
    simp only [ElemType.methods, Except.ok.injEq] at h
    subst h
    cases k with
    | bitField n => exact ⟨n, rfl, hf⟩
    | signedBitField n => exact ⟨n, rfl, hf⟩
    | var t => exact hf.elim
  | other b =>
    simp only [ElemType.methods, Except.ok.injEq] at h
    subst h
    exact hf
  | dynBits signed len =>
    simp only [ElemType.methods] at h
    obtain ⟨n, hn, h⟩ := except_bind_ok h
    obtain ⟨k, hk, h⟩ := except_bind_ok h
    simp only [Except.ok.injEq] at h
    subst h
    have := hf env n hn
    unfold dynKind at hk
    rw [if_neg (by omega)] at hk
    simp only [Except.ok.injEq] at hk
    subst hk
    refine ⟨n.toNat, ?_, by omega⟩
    cases signed <;> rfl
  | enum e => exact hf.elim
  | bitmask k => exact hf.elim
  | compound id args => exact hf.elim

theorem value_passes (hk : ∀ id, (codecs id).Lawful (stored id) (closed id))
    (hP : ∀ id x x', stored id x x' → ∃ ps, x.params = .ok ps) (f : FieldDef) (hok : f.ArrayOk closed)
    (env : Env) (slot : Nat) (mode : Mode) (v : Val) : ∃ es : List Evt, (mode = none → es = []) ∧
    (∀ path, mode = some path → ∀ c c', f.initPackingInner codecs env slot path c v = .ok c' → Ctx.initAll c es = .ok c') ∧
    ((f.packable && f.array.isNone) = false → es = []) ∧
    ∀ rest cw cs cr, AllSync (es ++ rest) cw cs cr → f.checkLength env v = .ok () → ∀ b0 cw' w',
    f.writeValue codecs env slot mode cw v (ofBits b0) = (.ok cw', w') →
    ∃ bs cs' cr', w' = ofBits (b0 ++ bs) ∧ f.bitsizeofValue codecs env slot mode cs b0.length v = .ok (bs.length, cs') ∧
      (∀ v', f.StoredValue stored env v v' → ∀ s, (f.Closed closed ∨ (mode = none ∧ s = [])) →
        Reader.Parses (f.readValue codecs env slot mode cr) b0.length bs s (v', cr')) ∧
      AllSync rest cw' cs' cr' := by
  rcases hm : f.type.methods codecs env with e | m
  · refine ⟨[], fun _ => rfl, ?_, fun _ => rfl, ?_⟩
    · intro path _ c c' h
      unfold initPackingInner at h
      split at h
      · rw [hm] at h; cases h
      · simpa [Ctx.initAll] using h
    · intro rest cw cs cr _ _ b0 cw' w' h
      unfold writeValue at h
      rw [hm, M.bind_error (M.lift_apply _ _)] at h
      simp at h
  have hlaw := lawful_elem hk hP hm
  rcases ha : f.array with _ | a
  · -- a single value
    obtain ⟨es, h1, h2, h3⟩ := hlaw (f.fieldMode slot mode) v
    refine ⟨es, fun hn => h1 (fieldMode_none hn), ?_, fun hn => h1 ?_, ?_⟩
    · rintro path rfl c c' h
      unfold initPackingInner at h
      rw [ha] at h
      rcases hq : f.fieldMode slot (some path) with _ | q
      · rw [hq] at h
        rw [h1 hq]
        simpa [Ctx.initAll] using h
      · rw [hq] at h
        simp only [hm, ok_bind] at h
        exact h2 q hq c c' h
    · simp only [ha, Option.isNone_none, Bool.and_true] at hn
      rcases mode with _ | path <;> simp [fieldMode, hn]
    · intro rest cw cs cr hsync _ b0 cw' w' h
      unfold writeValue at h
      rw [hm, M.bind_ok (M.lift_apply _ _), ha] at h
      obtain ⟨bs, cs', cr', g1, g2, _, g4, g5⟩ := h3 rest cw cs cr hsync b0 cw' w' h
      refine ⟨bs, cs', cr', g1, ?_, ?_, g5⟩
      · unfold bitsizeofValue
        rw [hm, ok_bind, ha]
        exact g2
      · intro v' hv s hs
        unfold StoredValue at hv
        rw [ha] at hv
        unfold readValue
        refine Reader.Parses.lift_bind hm ?_
        rw [ha]
        refine g4 0 v' hv s ?_
        rcases hs with hs | ⟨rfl, rfl⟩
        · left
          unfold Closed at hs
          rw [ha] at hs
          cases hty : f.type <;> simp_all [ElemType.IsClosed]
        · right; exact ⟨rfl, rfl⟩
  · -- an array
    obtain ⟨hel, himp⟩ := hok a ha
    have hcl : f.type.IsClosed closed = true := by
      unfold ElemType.IsClosed
      split
      · next id args hty => exact hel id args hty
      · rfl
    rw [hcl] at hlaw
    refine ⟨[], fun _ => rfl, ?_, fun _ => rfl, ?_⟩
    · intro path _ c c' h
      unfold initPackingInner at h
      rw [ha] at h
      simpa [Ctx.initAll] using h
    · intro rest cw cs cr hsync hlen b0 cw' w' h
      unfold writeValue at h
      rw [hm, M.bind_ok (M.lift_apply _ _), ha] at h
      simp only at h
      obtain ⟨xs, hxs, hw⟩ := lift_inv h
      have hv : v = .arr xs := by cases v <;> simp_all [Val.asArr]
      subst hv
      obtain ⟨_, w1, h3, h4⟩ := Writer.bind_inv hw
      simp only [M.pure_apply, Prod.mk.injEq, Except.ok.injEq] at h4
      obtain ⟨rfl, rfl⟩ := h4
      obtain ⟨bs, rfl, g2, g3⟩ := array_passes hlaw f a mode env.fields xs h3
      refine ⟨bs, cs, cr, rfl, ?_, ?_, by simpa using hsync⟩
      · unfold bitsizeofValue
        rw [hm, ok_bind, ha]
        simp only [hxs, ok_bind, g2]
      · intro v' hv s hs
        unfold StoredValue at hv
        rw [ha] at hv
        obtain ⟨ys, xs', hy, rfl, hrel⟩ := hv
        simp only [Val.arr.injEq] at hy
        subst hy
        have hsz : ∃ size, arraySize a env = .ok size ∧
            ((f.arrayCfg a).isImplicit = false → (f.arrayCfg a).isAuto = false → size = xs.length) := by
          unfold checkLength at hlen
          rcases a with ⟨_ | _ | len, pk⟩
          · exact ⟨0, rfl, by simp [arrayCfg]⟩
          · exact ⟨0, rfl, by simp [arrayCfg]⟩
          · rw [ha] at hlen
            simp only [hxs, ok_bind] at hlen
            obtain ⟨n, hn, hlen⟩ := except_bind_ok hlen
            refine ⟨n.toNat, by simp only [arraySize, hn, ok_bind], ?_⟩
            intro _ _
            split at hlen
            · cases hlen
            · omega
        obtain ⟨size, hsz, hsize⟩ := hsz
        unfold readValue
        refine Reader.Parses.lift_bind hm ?_
        rw [ha]
        refine Reader.Parses.lift_bind hsz ?_
        refine Reader.Parses.map (f := fun xs => (Val.arr xs, cr)) (g3 xs' hrel size s hsize ?_)
        intro hi
        rcases a with ⟨_ | _ | len, pk⟩
        · cases hi
        · obtain ⟨hf, rfl, hoff⟩ := himp pk rfl
          have hmode : mode = none ∧ s = [] := by
            rcases hs with hs | hs
            · unfold Closed at hs
              rw [ha] at hs
              exact hs.elim
            · exact hs
          obtain ⟨rfl, rfl⟩ := hmode
          refine ⟨by simp [arrayPacked], ?_, rfl, fixedSize_const hm hf, rfl⟩
          simp only [arrayCfg]
          rcases ho : f.offset with _ | o
          · rfl
          · simp [hoff o ho]
        · cases hi

end FieldDef
end Zserio
