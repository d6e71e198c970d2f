import Verif.Lemmas.CompoundInner
set_option linter.unusedSimpArgs false
/-
Helper lemmas on generated compounds: structures, unions and choices, and schemas by induction on the depth of nesting.
-/
namespace Zserio
open Writer Array' Ctx

variable {codecs : Nat → Codec} {stored : Nat → Val → Val → Prop} {closed : Nat → Bool}

namespace Struct

/-- the number of extended fields that are read back -/
def count (numExt base : Nat) : List FieldDef → Nat → Nat
  | [], _ => 0
  | f :: fs, n => f.adds (isPresent numExt base n) + count numExt base fs (n + 1)

theorem count_eq (numExt base : Nat) : ∀ (fs : List FieldDef) (n : Nat),
    (∀ i f, fs[i]? = some f → (f.extended = true ↔ base ≤ n + i)) →
    count numExt base fs n + min numExt (n - base) = min numExt (n + fs.length - base)
  | [], n, _ => by simp [count]
  | f :: fs, n, h => by
    have ih := count_eq numExt base fs (n + 1) (fun i g hg => by
      rw [h (i + 1) g (by simpa using hg)]; omega)
    have h0 := h 0 f rfl
    simp only [Nat.add_zero] at h0
    simp only [count, List.length_cons, FieldDef.adds, isPresent]
    by_cases hb : base ≤ n
    · rw [h0.mpr hb]
      by_cases hn : numExt > n - base
      · simp only [hn, decide_true, Bool.and_self, if_true]; omega
      · simp only [hn, decide_false, Bool.and_false, Bool.false_eq_true, if_false]; omega
    · have : f.extended = false := by
        cases hx : f.extended
        · rfl
        · exact absurd (h0.mp hx) hb
      simp only [this, Bool.false_and, Bool.false_eq_true, if_false]; omega

theorem fields_passes (hk : ∀ id, (codecs id).Lawful (stored id) (closed id))
    (hP : ∀ id x x', stored id x x' → ∃ ps, x.params = .ok ps) (params : List Int) (numExt base : Nat) (mode : Mode) :
    ∀ (fs : List FieldDef), (∀ f ∈ fs, f.ArrayOk closed) → ∀ (prior vs : List Val),
    ∃ es : List Evt, (mode = none → es = []) ∧
    (∀ path, mode = some path → ∀ c c', initPacking codecs params numExt base path fs prior vs c = .ok c' →
      Ctx.initAll c es = .ok c') ∧
    ∀ rest cw cs cr, AllSync (es ++ rest) cw cs cr → ∀ b0 cw' w',
    write codecs params numExt base mode fs prior vs cw (ofBits b0) = (.ok cw', w') →
    ∃ bs cs' cr', w' = ofBits (b0 ++ bs) ∧
      bitsizeof codecs params numExt base mode fs prior vs cs b0.length = .ok (b0.length + bs.length, cs') ∧
      ((∀ i f, fs[i]? = some f → (f.extended && !isPresent numExt base (prior.length + i)) = true) → bs = []) ∧
      (∀ prior' vs', prior'.length = prior.length → Struct.Stored codecs stored params numExt base fs prior prior' vs vs' →
        (∀ f ∈ fs.dropLast, f.Closed closed) →
        (∀ i f, fs[i]? = some f → (f.extended = true ↔ base ≤ prior.length + i)) →
        ∀ k s, ((∀ f ∈ fs, f.Closed closed) ∨ (mode = none ∧ s = [])) →
        (∀ i f, fs[i]? = some f → f.extended = true →
          mode = none ∧ (isPresent numExt base (prior.length + i) = false → s = [])) →
        Reader.Parses (read codecs params mode fs prior' k cr) b0.length bs s
          (prior' ++ vs', k + count numExt base fs prior.length, cr')) ∧
      AllSync rest cw' cs' cr'
  | [], _, prior, vs => by
    refine ⟨[], fun _ => rfl, ?_, ?_⟩
    · intro path _ c c' h
      cases vs with
      | nil => simpa [initPacking, Ctx.initAll] using h
      | cons v vs => simp [initPacking] at h
    · intro rest cw cs cr hsync b0 cw' w' h
      cases vs with
      | cons v vs => simp [write] at h
      | nil =>
        simp only [write, M.pure_apply, Prod.mk.injEq, Except.ok.injEq] at h
        obtain ⟨rfl, rfl⟩ := h
        refine ⟨[], cs, cr, by simp, by simp [bitsizeof], fun _ => rfl, ?_, by simpa using hsync⟩
        intro prior' vs' _ hst _ _ k s _ _
        cases vs' with
        | cons v vs => exact hst.elim
        | nil => simpa [read, count] using Reader.parses_pure _ _ _
  | f :: fs, hok, prior, [] => by
    refine ⟨[], fun _ => rfl, ?_, ?_⟩
    · intro path _ c c' h
      simp [initPacking] at h
    · intro rest cw cs cr hsync b0 cw' w' h
      simp [write] at h
  | f :: fs, hok, prior, v :: vs => by
    obtain ⟨es1, a1, a2, a3⟩ := FieldDef.field_passes hk hP f (hok f (by simp)) ⟨params, prior, 0⟩ (prior.length + 1)
      (isPresent numExt base prior.length) mode v
    obtain ⟨es2, b1, b2, b3⟩ := fields_passes hk hP params numExt base mode fs (fun g hg => hok g (by simp [hg]))
      (prior ++ [v]) vs
    refine ⟨es1 ++ es2, fun hn => by simp [a1 hn, b1 hn], ?_, ?_⟩
    · intro path hp c c' h
      simp only [initPacking] at h
      obtain ⟨c1, h1, h⟩ := except_bind_ok h
      rw [initAll_append, a2 path hp c c1 h1, ok_bind]
      exact b2 path hp c1 c' h
    · intro rest cw cs cr hsync b0 cw' w' h
      simp only [write] at h
      obtain ⟨c1, w1, h1, h⟩ := Writer.bind_inv h
      obtain ⟨bs1, cs1, cr1, rfl, x2, x3, x4, x5⟩ := a3 (es2 ++ rest) cw cs cr (by simpa using hsync) b0 c1 w1 h1
      obtain ⟨bs2, cs2, cr2, rfl, y2, y3, y4, y5⟩ := b3 rest c1 cs1 cr1 x5 _ cw' w' h
      simp only [List.length_append] at y2 y4
      refine ⟨bs1 ++ bs2, cs2, cr2, by simp, ?_, ?_, ?_, y5⟩
      · simp only [bitsizeof, x2, ok_bind, y2]
        simp [Nat.add_assoc]
      · intro hab
        have h1 := x3 (by simpa using hab 0 f rfl)
        have h2 := y3 (fun i g hg => by
          have := hab (i + 1) g (by simpa using hg)
          simpa [Nat.add_assoc, Nat.add_comm 1] using this)
        simp [h1, h2]
      · intro prior' vs' hlen hst hcl hext k s hs hse
        cases vs' with
        | nil => exact hst.elim
        | cons v' vs' =>
        obtain ⟨s1, s2, s3⟩ := hst
        have hrest : fs = [] ∨ f.Closed closed := by
          cases fs with
          | nil => left; rfl
          | cons g gs => right; exact hcl f (by simp)
        have hext' : ∀ i g, fs[i]? = some g → (g.extended = true ↔ base ≤ (prior ++ [v]).length + i) := by
          intro i g hg
          rw [hext (i + 1) g (by simpa using hg)]
          simp only [List.length_append, List.length_singleton]
          omega
        have hf := x4 ⟨params, prior', 0⟩ v' s1 s2 k (bs2 ++ s) ?_ ?_
        · rw [read]
          refine Reader.Parses.bind (by rw [hlen]; exact hf) ?_
          have hr := y4 (prior' ++ [v']) vs' (by simp [hlen]) s3 (fun g hg => hcl g ?_) (by simpa using hext')
            (k + f.adds (isPresent numExt base prior.length)) s ?_ ?_
          · simpa [count, Nat.add_assoc] using hr
          · cases fs with
            | nil => simp at hg
            | cons g' gs => simp [List.dropLast_cons_of_ne_nil, hg]
          · exact hs.imp (fun h g hg => h g (by simp [hg])) id
          · intro i g hg hx
            have := hse (i + 1) g (by simpa using hg) hx
            simpa [Nat.add_assoc, Nat.add_comm 1] using this
        · rcases hrest with rfl | h
          · rcases hs with hs | ⟨rfl, rfl⟩
            · exact .inl (hs f (by simp))
            · have : bs2 = [] := y3 (by simp)
              exact .inr ⟨rfl, by simp [this]⟩
          · exact .inl h
        · intro hx
          obtain ⟨hm, hs2⟩ := hse 0 f rfl hx
          · refine ⟨hm, fun hpr => ?_⟩
            rw [hs2 hpr, List.append_nil]
            apply y3
            intro i g hg
            have h0 := (hext 0 f rfl).mp hx
            have hgx := (hext' i g hg).mpr (by simp only [List.length_append, List.length_singleton]; omega)
            simp only [isPresent, decide_eq_false_iff_not] at hpr
            simp only [hgx, isPresent, Bool.true_and, Bool.not_eq_true', decide_eq_false_iff_not, List.length_append,
              List.length_singleton]
            omega

theorem lawful (hk : ∀ id, (codecs id).Lawful (stored id) (closed id))
    (hP : ∀ id x x', stored id x x' → ∃ ps, x.params = .ok ps) (fs : List FieldDef) (isClosed : Bool)
    (hl : (CompoundDef.struct fs).Layout closed isClosed) :
    (codec codecs fs).Lawful ((CompoundDef.struct fs).Stored codecs stored) isClosed := by
  obtain ⟨l1, l2, l3, l4⟩ := hl
  intro mode x
  by_cases hx : ∃ ps k tag vs, x = .obj ps k tag vs
  · obtain ⟨ps, k, tag, vs, rfl⟩ := hx
    obtain ⟨es, h1, h2, h3⟩ := fields_passes hk hP ps k (base fs) mode fs l1 [] vs
    refine ⟨es, h1, h2, ?_⟩
    intro rest cw cs cr hsync b0 cw' w' hw
    obtain ⟨bs, cs', cr', rfl, g2, -, g4, g5⟩ := h3 rest cw cs cr hsync b0 cw' w' hw
    refine ⟨bs, cs', cr', rfl, ?_, ?_, g5⟩
    · simp only [codec, g2, ok_bind]
      simp
    · intro ps' x' hst hps s hs
      simp only [Val.params, Except.ok.injEq] at hps
      subst hps
      cases x' with
      | obj ps' k' tag' vs' =>
        obtain ⟨rfl, rfl, rfl, hst⟩ := hst
        have := g4 [] vs' rfl hst l2 (by simpa using l4) 0 s (hs.imp (fun h f hf => (l3 h f hf).2) id) (by
          intro i f hf hx
          rcases hs with hs | ⟨hm, hs⟩
          · have := (l3 hs f (List.mem_of_getElem? hf)).1
            rw [hx] at this; cases this
          · exact ⟨hm, fun _ => hs⟩)
        simp only [codec]
        have hc := count_eq k (base fs) fs 0 (by simpa using l4)
        have hn : numExtended fs ≤ fs.length := List.length_filter_le _ _
        have hc : count k (base fs) fs 0 = min k (numExtended fs) := by
          have : base fs = fs.length - numExtended fs := rfl
          simp only [Nat.zero_sub, Nat.min_zero, Nat.zero_add, Nat.add_zero] at hc
          rw [hc]; congr 1; omega
        refine Reader.Parses.map (f := fun (y : List Val × Nat × Ctx) => (Val.obj ps' y.2.1 0 y.1, y.2.2)) (a := (vs', _, cr')) ?_
        simpa [hc] using this
      | _ => exact hst.elim
  · refine ⟨[], fun _ => rfl, ?_, ?_⟩
    · intro path _ c c' h
      simp only [codec] at h
      split at h
      · exact absurd ⟨_, _, _, _, rfl⟩ hx
      · cases h
    · intro rest cw cs cr hsync b0 cw' w' hw
      simp only [codec] at hw
      split at hw
      · exact absurd ⟨_, _, _, _, rfl⟩ hx
      · simp at hw

end Struct

namespace Branch

/-- what is read back for the selected member -/
def Stored (stored : Nat → Val → Val → Prop) (f : Option FieldDef) (params : List Int) (v v' : Val) : Prop :=
  match f with
  | some f => f.Stored stored ⟨params, [], 0⟩ ⟨params, [], 0⟩ true v v'
  | none => v' = .unset

theorem passes (hk : ∀ id, (codecs id).Lawful (stored id) (closed id))
    (hP : ∀ id x x', stored id x x' → ∃ ps, x.params = .ok ps) (f : Option FieldDef)
    (hok : ∀ g, f = some g → g.ArrayOk closed ∧ g.extended = false)
    (params : List Int) (slot : Nat) (mode : Mode) (v : Val) : ∃ es : List Evt, (mode = none → es = []) ∧
    (∀ path, mode = some path → ∀ c c', initPacking codecs f params slot path c v = .ok c' → Ctx.initAll c es = .ok c') ∧
    ∀ rest cw cs cr, AllSync (es ++ rest) cw cs cr → ∀ b0 cw' w',
    write codecs f params slot mode cw v (ofBits b0) = (.ok cw', w') →
    ∃ bs cs' cr', w' = ofBits (b0 ++ bs) ∧
      bitsizeof codecs f params slot mode cs b0.length v = .ok (b0.length + bs.length, cs') ∧
      (∀ v', Stored stored f params v v' → ∀ s, ((∀ g, f = some g → g.Closed closed) ∨ (mode = none ∧ s = [])) →
        Reader.Parses (read codecs f params slot mode cr) b0.length bs s (v', cr')) ∧
      AllSync rest cw' cs' cr' := by
  cases f with
  | none =>
    refine ⟨[], fun _ => rfl, ?_, ?_⟩
    · intro path _ c c' h
      simpa [initPacking, Ctx.initAll] using h
    · intro rest cw cs cr hsync b0 cw' w' h
      simp only [write, M.pure_apply, Prod.mk.injEq, Except.ok.injEq] at h
      obtain ⟨rfl, rfl⟩ := h
      refine ⟨[], cs, cr, by simp, by simp [bitsizeof], ?_, by simpa using hsync⟩
      rintro v' rfl s _
      exact Reader.parses_pure _ _ _
  | some f =>
    obtain ⟨ho, hx⟩ := hok f rfl
    obtain ⟨es, h1, h2, h0, h3⟩ := FieldDef.optional_passes hk hP f ho ⟨params, [], 0⟩ slot mode v
    refine ⟨es, h1, ?_, ?_⟩
    · intro path hp c c' h
      simp only [initPacking, FieldDef.initPacking] at h
      by_cases hpk : (f.packable && f.array.isNone) = true
      · rw [if_pos hpk, if_neg (by simp)] at h
        exact h2 path hp c c' h
      · rw [if_neg hpk] at h
        rw [h0 (Bool.not_eq_true _ ▸ hpk)]
        simpa [Ctx.initAll] using h
    · intro rest cw cs cr hsync b0 cw' w' h
      simp only [write, FieldDef.write] at h
      rw [if_neg (by simp [hx])] at h
      obtain ⟨bs, cs', cr', rfl, k2, k3, k4⟩ := h3 rest cw cs cr hsync b0 cw' w' h
      refine ⟨bs, cs', cr', rfl, ?_, ?_, k4⟩
      · simp only [bitsizeof, FieldDef.bitsizeof]
        rw [if_neg (by simp [hx]), k2]
      · intro v' hst s hs
        simp only [Stored, FieldDef.Stored, Bool.not_true, Bool.and_false, Bool.false_eq_true, if_false] at hst
        obtain ⟨g1, g2, g3⟩ := hst
        exact k3 _ v' (fun _ _ => rfl) g2 g3 s (hs.imp (fun h => h f rfl) id)

end Branch

namespace Union

theorem lawful (hk : ∀ id, (codecs id).Lawful (stored id) (closed id))
    (hP : ∀ id x x', stored id x x' → ∃ ps, x.params = .ok ps) (fs : List FieldDef) (isClosed : Bool)
    (hl : (CompoundDef.union fs).Layout closed isClosed) :
    (codec codecs fs).Lawful ((CompoundDef.union fs).Stored codecs stored) isClosed := by
  intro mode x
  by_cases hx : ∃ ps k tag v, x = .obj ps k tag [v]
  · obtain ⟨ps, k, tag, v, rfl⟩ := hx
    obtain ⟨es1, a1, a2, a3⟩ := int_passes (.var .varsize) (tagMode mode) tag
    rcases hsel : select fs tag with e | f
    · refine ⟨es1, fun h => a1 (by rw [h]; rfl), ?_, ?_⟩
      · intro path hp c c' h
        simp only [codec, hsel] at h
        obtain ⟨_, _, h⟩ := except_bind_ok h
        cases h
      · intro rest cw cs cr hsync b0 cw' w' hw
        simp only [codec] at hw
        obtain ⟨_, _, _, hw⟩ := Writer.bind_inv hw
        rw [hsel, M.bind_error (M.lift_apply _ _)] at hw
        simp at hw
    · have hmem : f ∈ fs := by
        unfold select at hsel
        split at hsel
        · cases hsel
        · split at hsel
          · next g hg => cases hsel; exact List.mem_of_getElem? hg
          · cases hsel
      obtain ⟨o1, o2, o3⟩ := hl f hmem
      obtain ⟨es2, b1, b2, b3⟩ := Branch.passes hk hP (some f) (by rintro g ⟨⟩; exact ⟨o1, o2⟩) ps (slot tag) mode v
      refine ⟨es1 ++ es2, fun h => by rw [a1 (by rw [h]; rfl), b1 h]; rfl, ?_, ?_⟩
      · intro path hp c c' h
        simp only [codec, hsel] at h
        obtain ⟨c1, h1, h⟩ := except_bind_ok h
        rw [initAll_append, a2 (path ++ [0]) (by rw [hp]; rfl) c c1 h1, ok_bind]
        exact b2 path hp c1 c' h
      · intro rest cw cs cr hsync b0 cw' w' hw
        simp only [codec] at hw
        obtain ⟨c1, w1, hw1, hw⟩ := Writer.bind_inv hw
        rw [hsel, M.bind_ok (M.lift_apply _ _)] at hw
        obtain ⟨bs1, cs1, cr1, rfl, x2, -, x4, x5⟩ := a3 (es2 ++ rest) cw cs cr (by simpa using hsync) b0 c1 w1 hw1
        obtain ⟨bs2, cs2, cr2, rfl, y2, y3, y4⟩ := b3 rest c1 cs1 cr1 x5 _ cw' w' hw
        refine ⟨bs1 ++ bs2, cs2, cr2, by simp, ?_, ?_, y4⟩
        · simp only [codec, x2, ok_bind, hsel]
          simp only [List.length_append] at y2 ⊢
          rw [y2, ok_bind]
          congr 2; omega
        · intro ps' x' hst hps s hs
          simp only [Val.params, Except.ok.injEq] at hps
          subst hps
          obtain ⟨ps', k', tag', v', rfl⟩ : ∃ ps' k' tag' v', x' = .obj ps' k' tag' [v'] := by
            match x', hst with
            | .obj ps' k' tag' [v'], _ => exact ⟨_, _, _, _, rfl⟩
          obtain ⟨rfl, rfl, rfl, hst⟩ := hst
          simp only [codec]
          refine Reader.Parses.bind (x4 _) ?_
          refine Reader.Parses.lift_bind hsel ?_
          refine Reader.Parses.map (f := fun (y : Val × Ctx) => (Val.obj ps' 0 tag' [y.1], y.2)) (a := (v', cr2)) ?_
          have := y3 v' (hst f hsel) s (hs.imp (fun h g hg => by cases hg; exact o3 h) id)
          simpa using this
  · refine ⟨[], fun _ => rfl, ?_, ?_⟩
    · intro path _ c c' h
      simp only [codec] at h
      split at h
      · exact absurd ⟨_, _, _, _, rfl⟩ hx
      · cases h
    · intro rest cw cs cr hsync b0 cw' w' hw
      simp only [codec] at hw
      split at hw
      · exact absurd ⟨_, _, _, _, rfl⟩ hx
      · simp at hw

end Union

namespace Choice

theorem selectCase_mem {cases : List CaseDef} {default : Option (Option FieldDef)} {n slot : Nat} {sel : Int}
    {f : Option FieldDef} (h : selectCase cases default n sel = .ok (f, slot)) :
    (∃ k ∈ cases, k.field = f) ∨ default = some f := by
  induction cases generalizing n with
  | nil =>
    rcases default with _ | d
    · cases h
    · simp only [selectCase, Except.ok.injEq, Prod.mk.injEq] at h
      right; rw [h.1]
  | cons k ks ih =>
    simp only [selectCase] at h
    split at h
    · simp only [Except.ok.injEq, Prod.mk.injEq] at h
      left; exact ⟨k, by simp, h.1⟩
    · rcases ih h with ⟨k', hm, he⟩ | hd
      · left; exact ⟨k', by simp [hm], he⟩
      · right; exact hd

theorem lawful (hk : ∀ id, (codecs id).Lawful (stored id) (closed id))
    (hP : ∀ id x x', stored id x x' → ∃ ps, x.params = .ok ps) (selector : Expr Int) (cases : List CaseDef)
    (default : Option (Option FieldDef)) (isClosed : Bool) (hl : (CompoundDef.choice selector cases default).Layout closed isClosed) :
    (codec codecs selector cases default).Lawful ((CompoundDef.choice selector cases default).Stored codecs stored) isClosed := by
  intro mode x
  by_cases hx : ∃ ps k tag v, x = .obj ps k tag [v]
  · obtain ⟨ps, k, tag, v, rfl⟩ := hx
    rcases hsel : select selector cases default ps with e | ⟨f, slot⟩
    · refine ⟨[], fun _ => rfl, ?_, ?_⟩
      · intro path hp c c' h
        simp only [codec, hsel] at h
        cases h
      · intro rest cw cs cr hsync b0 cw' w' hw
        simp only [codec] at hw
        rw [hsel, M.bind_error (M.lift_apply _ _)] at hw
        simp at hw
    · have hfd : ∀ g, f = some g → g.ArrayOk closed ∧ g.extended = false ∧ (isClosed = true → g.Closed closed) := by
        rintro g rfl
        unfold select at hsel
        obtain ⟨sv, _, hsel⟩ := except_bind_ok hsel
        rcases selectCase_mem hsel with ⟨c, hm, he⟩ | hd
        · exact hl.1 c hm g he
        · exact hl.2 g hd
      obtain ⟨es, b1, b2, b3⟩ := Branch.passes hk hP f (fun g hg => ⟨(hfd g hg).1, (hfd g hg).2.1⟩) ps slot mode v
      refine ⟨es, b1, ?_, ?_⟩
      · intro path hp c c' h
        simp only [codec, hsel, ok_bind] at h
        exact b2 path hp c c' h
      · intro rest cw cs cr hsync b0 cw' w' hw
        simp only [codec] at hw
        rw [hsel, M.bind_ok (M.lift_apply _ _)] at hw
        obtain ⟨bs, cs', cr', rfl, y2, y3, y4⟩ := b3 rest cw cs cr hsync b0 cw' w' hw
        refine ⟨bs, cs', cr', rfl, ?_, ?_, y4⟩
        · simp only [codec, hsel, ok_bind, y2]
          simp
        · intro ps' x' hst hps s hs
          simp only [Val.params, Except.ok.injEq] at hps
          subst hps
          obtain ⟨ps', k', tag', v', rfl⟩ : ∃ ps' k' tag' v', x' = .obj ps' k' tag' [v'] := by
            match x', hst with
            | .obj ps' k' tag' [v'], _ => exact ⟨_, _, _, _, rfl⟩
          obtain ⟨rfl, rfl, rfl, hst⟩ := hst
          have hst := hst f slot hsel
          simp only [codec]
          refine Reader.Parses.lift_bind hsel ?_
          refine Reader.Parses.map (f := fun (y : Val × Ctx) => (Val.obj ps' 0 0 [y.1], y.2)) (a := (v', cr')) ?_
          refine y3 v' ?_ s (hs.imp (fun h g hg => (hfd g hg).2.2 h) id)
          cases f <;> exact hst
  · refine ⟨[], fun _ => rfl, ?_, ?_⟩
    · intro path _ c c' h
      simp only [codec] at h
      split at h
      · exact absurd ⟨_, _, _, _, rfl⟩ hx
      · cases h
    · intro rest cw cs cr hsync b0 cw' w' hw
      simp only [codec] at hw
      split at hw
      · exact absurd ⟨_, _, _, _, rfl⟩ hx
      · simp at hw

end Choice

theorem CompoundDef.lawful (hk : ∀ id, (codecs id).Lawful (stored id) (closed id))
    (hP : ∀ id x x', stored id x x' → ∃ ps, x.params = .ok ps) (d : CompoundDef) (isClosed : Bool)
    (hl : d.Layout closed isClosed) : (d.codec codecs).Lawful (d.Stored codecs stored) isClosed := by
  cases d with
  | struct fs => exact Struct.lawful hk hP fs isClosed hl
  | union fs => exact Union.lawful hk hP fs isClosed hl
  | choice selector cases default => exact Choice.lawful hk hP selector cases default isClosed hl

theorem CompoundDef.stored_params (d : CompoundDef) {x x' : Val} (h : d.Stored codecs stored x x') :
    ∃ ps, x.params = .ok ps := by
  match d, x, x', h with
  | .struct fs, .obj ps k t vs, .obj _ _ _ _, _ => exact ⟨ps, rfl⟩
  | .union fs, .obj ps k t [v], .obj _ _ _ [_], _ => exact ⟨ps, rfl⟩
  | .choice _ _ _, .obj ps k t [v], .obj _ _ _ [_], _ => exact ⟨ps, rfl⟩

theorem Schema.storedAs_params (defs : Schema) (n id : Nat) {x x' : Val} (h : defs.StoredAs n id x x') :
    ∃ ps, x.params = .ok ps := by
  cases n with
  | zero => exact h.elim
  | succ n => exact CompoundDef.stored_params _ h

/-- The methods of every compound of a schema that satisfies the layout rules are lawful. -/
theorem Schema.lawful (defs : Schema) (closed : Nat → Bool) (hl : defs.Layout closed) :
    ∀ n id, (defs.codec n id).Lawful (defs.StoredAs n id) (closed id)
  | 0, id => by
    intro mode x
    refine ⟨[], fun _ => rfl, ?_, ?_⟩
    · intro path _ c c' h
      cases h
    · intro rest cw cs cr hsync b0 cw' w' hw
      simp [Schema.codec, Codec.limit] at hw
  | n + 1, id =>
    CompoundDef.lawful (fun id => Schema.lawful defs closed hl n id) (fun id _ _ h => defs.storedAs_params n id h) (defs id)
      (closed id) (hl id)

end Zserio
