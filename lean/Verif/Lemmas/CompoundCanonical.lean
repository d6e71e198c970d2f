import Verif.Lemmas.Compound
set_option linter.unusedSimpArgs false
/-
Helper lemmas: canonical objects are read back as they are.
-/
namespace Zserio

theorem ElemType.agree_refl (env : Env) (ty : ElemType) : ty.Agree env env := by
  cases ty <;> simp [ElemType.Agree]

theorem FieldDef.agree_refl (f : FieldDef) (env : Env) (v : Val) : f.Agree env env v v :=
  ⟨f.type.agree_refl env, fun _ _ _ => rfl, fun _ _ h => h, fun _ _ => rfl⟩

variable {codecs : Nat → Codec} {stored : Nat → Val → Val → Prop} {canonical : Nat → Val → Prop}

theorem Builtin.proj_inj (b : Builtin) (v : Val) (x : b.Elem) (h : b.proj v = .ok x) : v = b.inj x := by
  unfold Builtin.proj at h
  split at h
  case h_10 y =>
    split at h
    · have := Except.ok.inj h; subst this; rfl
    · cases h
  all_goals first
    | (have := Except.ok.inj h; subst this; rfl)
    | cases h

theorem ElemType.Canonical.isStored (h : ∀ id x, canonical id x → stored id x x) {env : Env} {i : Nat} {ty : ElemType} {v : Val}
    (hc : ty.Canonical canonical env i v) : ty.Stored stored env i v v := by
  cases ty with
  | other b =>
    obtain ⟨x, h1, h2⟩ := hc
    refine ⟨x, h1, ?_⟩
    rw [h2]
    exact Builtin.proj_inj b v x h1
  | compound id args => exact ⟨h _ _ hc.1, hc.2⟩
  | _ => rfl

theorem AllIndexed.elementwise {P : Nat → Val → Prop} {Q : Nat → Val → Val → Prop} (h : ∀ i x, P i x → Q i x x) :
    ∀ {i : Nat} {xs : List Val}, AllIndexed P i xs → Elementwise Q i xs xs
  | _, [], _ => trivial
  | _, _ :: _, hx => ⟨h _ _ hx.1, AllIndexed.elementwise h hx.2⟩

theorem FieldDef.Canonical.isStored (h : ∀ id x, canonical id x → stored id x x) {f : FieldDef} {env : Env} {present : Bool}
    {v : Val} (hc : f.Canonical canonical env present v) : f.Stored stored env env present v v := by
  unfold FieldDef.Canonical at hc
  unfold FieldDef.Stored
  split
  · next he => rw [if_pos he] at hc; exact hc
  · next he =>
    rw [if_neg he] at hc
    refine ⟨fun _ _ => rfl, fun hu => ⟨f.agree_refl env v, ?_⟩, hc.2⟩
    have := hc.1 hu
    unfold FieldDef.CanonicalValue at this
    unfold FieldDef.StoredValue
    rcases ha : f.array with _ | a
    · rw [ha] at this; exact ElemType.Canonical.isStored h this
    · rw [ha] at this
      obtain ⟨xs, rfl, hx⟩ := this
      exact ⟨xs, xs, rfl, rfl, AllIndexed.elementwise (fun i x hx => ElemType.Canonical.isStored h hx) hx⟩

theorem Struct.Canonical.isStored (h : ∀ id x, canonical id x → stored id x x) {params : List Int} {numExt base : Nat} :
    ∀ {fs : List FieldDef} {prior vs : List Val}, Struct.Canonical codecs canonical params numExt base fs prior vs →
      Struct.Stored codecs stored params numExt base fs prior prior vs vs
  | [], _, [], _ => trivial
  | _ :: _, _, _ :: _, hc => ⟨FieldDef.Canonical.isStored h hc.1, hc.2.1, Struct.Canonical.isStored h hc.2.2⟩

theorem CompoundDef.Canonical.isStored (h : ∀ id x, canonical id x → stored id x x) {d : CompoundDef} {x : Val}
    (hc : d.Canonical codecs canonical x) : d.Stored codecs stored x x := by
  match d, x, hc with
  | .struct fs, .obj ps k tag vs, hc =>
    exact ⟨rfl, by have := hc.1; omega, hc.2.1, Struct.Canonical.isStored h hc.2.2⟩
  | .union fs, .obj ps k tag [v], hc =>
    obtain ⟨f, hf, hv⟩ := hc.2
    refine ⟨rfl, hc.1, rfl, fun g hg => ?_⟩
    obtain rfl := Except.ok.inj (hf.symm.trans hg)
    exact FieldDef.Canonical.isStored h hv
  | .choice selector cases default, .obj ps k tag [v], hc =>
    obtain ⟨g, slot', hg, this⟩ := hc.2.2
    refine ⟨rfl, hc.1, hc.2.1, fun f slot hf => ?_⟩
    obtain ⟨rfl, rfl⟩ := Prod.mk.inj (Except.ok.inj (hg.symm.trans hf))
    cases g with
    | none => exact this
    | some f => exact FieldDef.Canonical.isStored h this

theorem Schema.Canonical.isStored (defs : Schema) : ∀ {n id : Nat} {x : Val}, defs.Canonical n id x → defs.StoredAs n id x x
  | 0, _, _, h => h.elim
  | _ + 1, _, _, h => CompoundDef.Canonical.isStored (fun _ _ hx => Schema.Canonical.isStored defs hx) h

end Zserio
