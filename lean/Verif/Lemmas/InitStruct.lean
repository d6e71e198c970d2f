import Verif.Lemmas.InitField
set_option linter.unusedSimpArgs false
/-
Helper lemmas for `initialize_offsets`: compounds and schemas.
-/
namespace Zserio
open Writer Array'

namespace Struct
variable {codecs : Nat → Codec} {same : Nat → Val → Val → Prop} {all : List FieldDef}

theorem mem_targets {fs : List FieldDef} {j : Nat} : j ∈ targets fs ↔ ∃ g ∈ fs, ∃ o, g.offset = some o ∧ o.field = j := by
  simp only [targets, List.mem_filterMap, Option.map_eq_some_iff]

theorem targets_append (fs fs' : List FieldDef) : targets (fs ++ fs') = targets fs ++ targets fs' := by simp [targets]

theorem targets_cons_some {f : FieldDef} {o : OffsetRef} (h : f.offset = some o) (fs : List FieldDef) :
    targets (f :: fs) = o.field :: targets fs := by simp [targets, h]

theorem targets_cons_none {f : FieldDef} (h : f.offset = none) (fs : List FieldDef) : targets (f :: fs) = targets fs := by
  simp [targets, h]

theorem getElem?_done {done fs : List FieldDef} (h : all = done ++ fs) (i : Nat) : all[done.length + i]? = fs[i]? := by
  rw [h, List.getElem?_append_right (by omega)]
  congr 1
  omega

/-- a field used as an offset can be used as one -/
theorem offsetField_of_target (hr : (CompoundDef.struct all).OffsetRules same) {j : Nat} {g : FieldDef} (hj : j ∈ targets all)
    (hg : all[j]? = some g) : ∃ b, g.OffsetField b := by
  obtain ⟨f, hf, o, ho, rfl⟩ := mem_targets.1 hj
  obtain ⟨i, hi⟩ := List.getElem?_of_mem hf
  obtain ⟨_, g', hg', hb⟩ := hr.2.1 i f o hi ho
  rw [hg] at hg'
  obtain rfl := Option.some.inj hg'
  exact ⟨_, hb⟩

theorem sameFields_left {vs vs' prior prior' : List Val} {ts : List Nat} (h : SameFields same ts all (prior ++ vs) (prior' ++ vs'))
    (hl : prior'.length = prior.length) : SameFields same ts all prior prior' := by
  refine ⟨hl, ?_⟩
  intro i f v v' hf hv hv'
  have h1 : i < prior.length := by
    rcases Nat.lt_or_ge i prior.length with h | h
    · exact h
    · rw [List.getElem?_eq_none h] at hv; simp at hv
  refine h.2 i f v v' hf ?_ ?_
  · rw [List.getElem?_append_left h1]; exact hv
  · rw [List.getElem?_append_left (by omega)]; exact hv'

/-! ### Packing contexts do not depend on offsets -/

theorem field_packing (hk : ∀ id, (codecs id).InitLaw (same id)) {f : FieldDef} {ts : List Nat} (hr : f.OffsetRules same ts all)
    {target : Bool} (ht : target = true → f.packable = false) {params : List Int} {prior prior' : List Val} {v v' : Val}
    (hs : SameFields same ts all prior prior') (hv : f.Same same target v v') (slot : Nat) (present : Bool) (path : List Nat) (c : Ctx) :
    f.initPacking codecs ⟨params, prior', 0⟩ slot present path c v' = f.initPacking codecs ⟨params, prior, 0⟩ slot present path c v := by
  unfold FieldDef.initPacking
  by_cases hp : (f.packable && f.array.isNone) = true
  · rw [if_pos hp, if_pos hp]
    simp only [Bool.and_eq_true, Option.isNone_iff_eq_none] at hp
    obtain ⟨hp1, hp2⟩ := hp
    have htf : target = false := by
      cases target with
      | false => rfl
      | true => rw [ht rfl] at hp1; simp at hp1
    subst htf
    split
    · rfl
    · have hu : f.isUsed ⟨params, prior', 0⟩ v' = f.isUsed ⟨params, prior, 0⟩ v := by
        unfold FieldDef.isUsed
        rcases hopt : f.optional with _ | _ | e
        · rfl
        · simp only
          rw [FieldDef.same_isNone hk hv]
        · exact (hr.clause e hopt).1 _ _ _ _ hs
      rw [hu]
      congr 1
      funext used
      cases used with
      | false => rfl
      | true =>
        simp only [if_true]
        unfold FieldDef.initPackingInner
        rw [hp2]
        rcases f.fieldMode slot (some path) with _ | q
        · rfl
        · simp only
          rw [(hr.agree (params := params) (index := 0) hs).methods codecs]
          rcases hm : f.type.methods codecs ⟨params, prior, 0⟩ with _ | m
          · rfl
          · simp only [ok_bind]
            rcases hv with rfl | hv
            · rfl
            · rw [hp2] at hv
              exact (initLaw_elem hk hm).packing _ _ _ _ hv
  · rw [if_neg hp, if_neg hp]

theorem struct_packing (hk : ∀ id, (codecs id).InitLaw (same id)) (hr : (CompoundDef.struct all).OffsetRules same) (params : List Int)
    (k base : Nat) (path : List Nat) : ∀ fs done, all = done ++ fs → ∀ prior prior' vs vs' c, prior.length = done.length →
      prior'.length = prior.length → SameFields same (targets all) all (prior ++ vs) (prior' ++ vs') →
      initPacking codecs params k base path fs prior' vs' c = initPacking codecs params k base path fs prior vs c
  | [], done, _, prior, prior', vs, vs', c, _, hl, hs => by
    have : vs'.length = vs.length := by have := hs.1; simp at this; omega
    rcases vs with _ | ⟨v, vs⟩ <;> rcases vs' with _ | ⟨v', vs'⟩
    · rfl
    · simp at this
    · simp at this
    · rfl
  | f :: fs, done, hall, prior, prior', vs, vs', c, hd, hl, hs => by
    have hlen : vs'.length = vs.length := by have := hs.1; simp at this; omega
    rcases vs with _ | ⟨v, vs⟩ <;> rcases vs' with _ | ⟨v', vs'⟩
    · rfl
    · simp at hlen
    · simp at hlen
    · simp only [initPacking]
      have hf : all[prior.length]? = some f := by
        have := getElem?_done hall 0
        rw [hd]; simpa using this
      have hv : f.Same same (decide (prior.length ∈ targets all)) v v' := by
        refine hs.2 _ _ _ _ hf ?_ ?_
        · simp
        · rw [← hl]; simp
      have ht : decide (prior.length ∈ targets all) = true → f.packable = false := by
        intro h
        obtain ⟨b, hb⟩ := offsetField_of_target hr (of_decide_eq_true h) hf
        exact hb.2.2.2.1
      rw [hl, field_packing hk (hr.1 f (by rw [hall]; simp)) ht (sameFields_left hs hl) hv]
      congr 1
      funext c
      refine struct_packing hk hr params k base path fs (done ++ [f]) (by simpa using hall) (prior ++ [v]) (prior' ++ [v']) vs vs' c
        (by simpa using hd) (by simpa using hl) ?_
      simpa using hs

/-! ### Structures -/

theorem struct_init (hk : ∀ id, (codecs id).InitLaw (same id)) (hr : (CompoundDef.struct all).OffsetRules same) (params : List Int)
    (k base : Nat) (mode : Mode) : ∀ fs done, all = done ++ fs → ∀ prior vs c p e final c1, prior.length = done.length →
      initOffsets codecs params k base mode fs prior vs c p = .ok (e, final, c1) →
      final.length = all.length ∧ vs.length = fs.length ∧
      (∀ j, j < prior.length → j ∉ targets fs → final[j]? = prior[j]?) ∧
      (∀ j g y, all[j]? = some g → prior[j]? = some y → j ∈ targets fs → ∃ y', final[j]? = some y' ∧ g.Same same true y y') ∧
      (∀ i g y, fs[i]? = some g → vs[i]? = some y → ∃ y', final[prior.length + i]? = some y' ∧
        g.Same same (decide (prior.length + i ∈ targets all)) y y') ∧
      ∀ cw, Ctx.Alike cw c → Ends (write codecs params k base mode fs (final.take prior.length) (final.drop prior.length) cw) p e
        (fun r => Ctx.Alike r c1)
  | [], done, hall, prior, vs, c, p, e, final, c1, hd, h => by
    rcases vs with _ | ⟨v, vs⟩
    · simp only [initOffsets, Except.ok.injEq, Prod.mk.injEq] at h
      obtain ⟨rfl, rfl, rfl⟩ := h
      refine ⟨by rw [hall]; simpa using hd, rfl, fun _ _ _ => rfl, ?_, by simp, ?_⟩
      · intro j g y _ _ hj
        simp [targets] at hj
      · intro cw hc
        simp only [List.drop_length, write]
        exact ends_pure (by exact hc) _
    · simp [initOffsets] at h
  | f :: fs, done, hall, prior, vs, c, p, e, final, c1, hd, h => by
    rcases vs with _ | ⟨v, vs⟩
    · simp [initOffsets] at h
    simp only [initOffsets] at h
    obtain ⟨⟨p2, prior2, v1, c2⟩, h1, h2⟩ := except_bind_ok h
    have hfn : all[prior.length]? = some f := by
      have := getElem?_done hall 0
      rw [hd]; simpa using this
    have hrule := hr.2.1 prior.length f
    have hF := FieldDef.field_init (targets := targets all) (fs := all) hk (hr.1 f (by rw [hall]; simp)) (by
      intro o ho hi
      obtain ⟨_, g, hg, hb⟩ := hrule o hfn ho
      refine ⟨mem_targets.2 ⟨f, by rw [hall]; simp, o, ho, rfl⟩, g, hg, ?_⟩
      have := hb.2.2.2.2
      rw [hi] at this
      simpa using this) h1
    have hlen2 := hF.length
    simp only at h2
    obtain ⟨i1, i2, i3, i4, i5, i6⟩ := struct_init hk hr params k base mode fs (done ++ [f]) (by simpa using hall) (prior2 ++ [v1]) vs c2 p2
      e final c1 (by simp; omega) h2
    have hn : (prior2 ++ [v1]).length = prior.length + 1 := by simp; omega
    rw [hn] at i3 i5 i6
    have hallLen : prior.length < all.length := by
      rcases Nat.lt_or_ge prior.length all.length with h | h
      · exact h
      · rw [List.getElem?_eq_none h] at hfn; simp at hfn
    -- the offset of `f` is not used again
    have hnotin : ∀ o, f.offset = some o → o.field ∉ targets fs := by
      intro o ho hmem
      have := hr.2.2
      rw [hall, targets_append, targets_cons_some ho] at this
      have := (List.nodup_append.1 this).2.1
      rw [List.nodup_cons] at this
      exact this.1 hmem
    have hlow : ∀ o, f.offset = some o → o.field < prior.length := fun o ho => (hrule o hfn ho).1
    -- the field itself
    have hself : prior.length ∈ targets all → prior.length ∈ targets fs := by
      intro hmem
      obtain ⟨g, hg, o, ho, hof⟩ := mem_targets.1 hmem
      obtain ⟨i, hi⟩ := List.getElem?_of_mem hg
      have hlt := (hr.2.1 i g o hi ho).1
      rw [hof] at hlt
      obtain ⟨m, rfl⟩ : ∃ m, i = done.length + 1 + m := ⟨i - (done.length + 1), by omega⟩
      have : fs[m]? = some g := by
        have h3 := getElem?_done hall (1 + m)
        rw [← Nat.add_assoc, hi] at h3
        rw [Nat.add_comm 1 m] at h3
        simpa using h3.symm
      exact mem_targets.2 ⟨g, List.mem_of_getElem? this, o, ho, hof⟩
    have hsub : ∀ j, j ∈ targets fs → j ∈ targets all := by
      intro j hj
      rw [hall, targets_append]
      obtain ⟨g, hg, o, ho, hof⟩ := mem_targets.1 hj
      exact List.mem_append_right _ (mem_targets.2 ⟨g, by simp [hg], o, ho, hof⟩)
    have hget : (prior2 ++ [v1])[prior.length]? = some v1 := by rw [← hlen2]; simp
    have hgetlt : ∀ j, j < prior.length → (prior2 ++ [v1])[j]? = prior2[j]? := by
      intro j hj
      rw [List.getElem?_append_left (by omega)]
    -- the value of the field when it is written
    obtain ⟨v', hv', hv'1, hv'2⟩ : ∃ v', final[prior.length]? = some v' ∧
        f.Same same (decide (prior.length ∈ targets all)) v v' ∧ (v' = v1 ∨ (∃ b, f.OffsetField b) ∧ f.Same same true v1 v') := by
      by_cases hmem : prior.length ∈ targets fs
      · obtain ⟨y', hy', hsame⟩ := i4 _ _ _ hfn hget hmem
        obtain ⟨b, hb⟩ := offsetField_of_target hr (hsub _ hmem) hfn
        refine ⟨y', hy', ?_, .inr ⟨⟨b, hb⟩, hsame⟩⟩
        rw [← hF.target b hb, decide_eq_true (hsub _ hmem)]
        exact hsame
      · refine ⟨v1, ?_, ?_, .inl rfl⟩
        · rw [i3 _ (by omega) hmem, hget]
        · rw [decide_eq_false (fun h => hmem (hself h))]
          exact hF.changed
    have j3 : ∀ j, j < prior.length → j ∉ targets (f :: fs) → final[j]? = prior[j]? := by
      intro j hj hnot
      have hno : ∀ o, f.offset = some o → o.field ≠ j := by
        intro o ho hof
        exact hnot (by rw [targets_cons_some ho, hof]; simp)
      have hno2 : j ∉ targets fs := by
        intro hmem
        obtain ⟨g, hg, o, ho, hof⟩ := mem_targets.1 hmem
        exact hnot (mem_targets.2 ⟨g, by simp [hg], o, ho, hof⟩)
      rw [i3 j (by omega) hno2, hgetlt j hj, hF.kept j hno]
    have j4 : ∀ j g y, all[j]? = some g → prior[j]? = some y → j ∈ targets (f :: fs) →
        ∃ y', final[j]? = some y' ∧ g.Same same true y y' := by
      intro j g y hg hy hmem
      have hj : j < prior.length := by
        rcases Nat.lt_or_ge j prior.length with h | h
        · exact h
        · rw [List.getElem?_eq_none h] at hy; simp at hy
      by_cases hex : ∃ o, f.offset = some o ∧ o.field = j
      · obtain ⟨o, ho, rfl⟩ := hex
        rw [i3 _ (by omega) (hnotin o ho), hgetlt _ hj]
        obtain ⟨_, g', hg', hb⟩ := hrule o hfn ho
        rw [hg] at hg'
        obtain rfl := Option.some.inj hg'
        have harr := hb.2.2.2.2
        cases hi : o.indexed with
        | true =>
          rw [hi] at harr
          obtain ⟨y', hy', hsame⟩ := hF.offsets o y ho hi hy
          refine ⟨y', hy', ?_⟩
          rcases hsame with rfl | ⟨os, os1, rfl, rfl, hl⟩
          · exact .inl rfl
          · right
            rcases hga : g.array with _ | a
            · rw [hga] at harr; simp at harr
            · exact ⟨os, os1, rfl, rfl, by simpa using hl⟩
        | false =>
          rw [hi] at harr
          obtain ⟨y', hy'⟩ : ∃ y', prior2[o.field]? = some y' := ⟨prior2[o.field]'(by omega), by simp⟩
          refine ⟨y', hy', .inr ?_⟩
          rcases hga : g.array with _ | a
          · simp
          · rw [hga] at harr; simp at harr
      · have hmem' : j ∈ targets fs := by
          obtain ⟨g', hg', o, ho, hof⟩ := mem_targets.1 hmem
          rcases List.mem_cons.1 hg' with rfl | hg'
          · exact absurd ⟨o, ho, hof⟩ hex
          · exact mem_targets.2 ⟨g', hg', o, ho, hof⟩
        refine i4 j g y hg ?_ hmem'
        rw [hgetlt j hj, hF.kept j (fun o ho hof => hex ⟨o, ho, hof⟩), hy]
    refine ⟨i1, by simpa using i2, j3, j4, ?_, ?_⟩
    · intro i g y hg hy
      rcases i with _ | i
      · simp only [List.getElem?_cons_zero, Option.some.injEq] at hg hy
        subst hg hy
        exact ⟨v', hv', hv'1⟩
      · simp only [List.getElem?_cons_succ] at hg hy
        obtain ⟨y', hy', hs⟩ := i5 i g y hg hy
        have : prior.length + (i + 1) = prior.length + 1 + i := by omega
        rw [this]
        exact ⟨y', hy', hs⟩
    · intro cw hc
      have hfl : prior.length < final.length := by omega
      have hdrop : final.drop prior.length = v' :: final.drop (prior.length + 1) := by
        rw [List.drop_eq_getElem_cons hfl]
        congr 1
        rw [List.getElem?_eq_getElem hfl] at hv'
        exact Option.some.inj hv'
      have htake : final.take (prior.length + 1) = final.take prior.length ++ [v'] := by
        rw [List.take_add_one, hv']; rfl
      have hlt : (final.take prior.length).length = prior.length := by simp; omega
      rw [hdrop]
      simp only [write]
      rw [hlt]
      have hsf : SameFields same (targets all) all prior (final.take prior.length) := by
        refine ⟨hlt, ?_⟩
        intro i g y y' hg hy hy'
        have hi : i < prior.length := by
          rcases Nat.lt_or_ge i prior.length with h | h
          · exact h
          · rw [List.getElem?_eq_none h] at hy; simp at hy
        rw [List.getElem?_take, if_pos hi] at hy'
        by_cases hmem : i ∈ targets (f :: fs)
        · obtain ⟨y2, hy2, hs2⟩ := j4 i g y hg hy hmem
          rw [hy'] at hy2
          obtain rfl := Option.some.inj hy2
          have : i ∈ targets all := by rw [hall, targets_append]; exact List.mem_append_right _ hmem
          rw [decide_eq_true this]
          exact hs2
        · left
          rw [j3 i hi hmem, hy] at hy'
          exact (Option.some.inj hy').symm
      refine (hF.ends (final.take prior.length) v' cw hsf hv'2 ?_ hc).bind fun r hrr => ?_
      · intro o ho
        have := hlow o ho
        rw [List.getElem?_take, if_pos this, i3 _ (by omega) (hnotin o ho), hgetlt _ this]
      · have := i6 r hrr
        rw [htake] at this
        exact this

theorem codec_init (hk : ∀ id, (codecs id).InitLaw (same id)) (hr : (CompoundDef.struct all).OffsetRules same) :
    (Struct.codec codecs all).InitLaw ((CompoundDef.struct all).Same same) := by
  refine ⟨?_, ?_, ?_⟩
  · intro x x' h
    cases x <;> cases x' <;> simp_all [CompoundDef.Same, Val.isNone]
  · intro path c x x' h
    cases x <;> cases x' <;> try (simp [CompoundDef.Same] at h)
    obtain ⟨rfl, rfl, rfl, h⟩ := h
    exact struct_packing hk hr _ _ _ path all [] rfl [] [] _ _ c rfl rfl h
  · intro mode c p x e x1 c1 h
    cases x <;> simp only [codec] at h <;> try (simp at h)
    rename_i ps k tag vs
    obtain ⟨⟨e', final, c'⟩, h1, h⟩ := except_bind_ok h
    simp only [Except.ok.injEq, Prod.mk.injEq] at h
    obtain ⟨rfl, rfl, rfl⟩ := h
    obtain ⟨g1, g2, g3, g4, g5, g6⟩ := struct_init hk hr ps k (base all) mode all [] rfl [] vs c p _ _ _ rfl h1
    refine ⟨⟨rfl, rfl, rfl, by omega, ?_⟩, ?_⟩
    · intro i f v v' hf hv hv'
      obtain ⟨y', hy', hs⟩ := g5 i f v hf hv
      simp only [List.length_nil, Nat.zero_add] at hy' hs
      rw [hv'] at hy'
      obtain rfl := Option.some.inj hy'
      exact hs
    · intro cw hc
      have := g6 cw hc
      simpa [codec] using this

end Struct

/-! ### Unions and choices -/

section
variable {codecs : Nat → Codec} {same : Nat → Val → Val → Prop}

theorem sameFields_nil (ts : List Nat) : Struct.SameFields same ts [] [] [] := ⟨rfl, by simp⟩

theorem branch_init (hk : ∀ id, (codecs id).InitLaw (same id)) {f : FieldDef} (ho : f.offset = none) (hr : f.OffsetRules same [] [])
    {params : List Int} {slot : Nat} {mode : Mode} {c : Ctx} {p e : Nat} {v v1 : Val} {c1 : Ctx}
    (h : Branch.initOffsets codecs (some f) params slot mode c p v = .ok (e, v1, c1)) :
    f.Same same false v v1 ∧ ∀ cw, Ctx.Alike cw c → Ends (Branch.write codecs (some f) params slot mode cw v1) p e (fun r => Ctx.Alike r c1) := by
  simp only [Branch.initOffsets] at h
  obtain ⟨⟨p2, s2, v2, c2⟩, h1, h⟩ := except_bind_ok h
  simp only [Except.ok.injEq, Prod.mk.injEq] at h
  obtain ⟨rfl, rfl, rfl⟩ := h
  have hF := FieldDef.field_init hk hr (by simp [ho]) h1
  exact ⟨hF.changed, fun cw hc => hF.ends [] v2 cw (sameFields_nil _) (.inl rfl) (by simp [ho]) hc⟩

theorem branch_packing (hk : ∀ id, (codecs id).InitLaw (same id)) {f : FieldDef} (hr : f.OffsetRules same [] []) {v v' : Val}
    (hv : f.Same same false v v') (params : List Int) (slot : Nat) (path : List Nat) (c : Ctx) :
    Branch.initPacking codecs (some f) params slot path c v' = Branch.initPacking codecs (some f) params slot path c v :=
  Struct.field_packing hk hr (by simp) (sameFields_nil _) hv slot true path c

theorem quietE_select (fs : List FieldDef) (tag : Int) : QuietE (Union.select fs tag) := by
  unfold Union.select
  refine quietE_ite (quietE_error (by simp)) ?_
  rcases fs[tag.toNat]? with _ | f
  · exact quietE_error (by simp)
  · exact quietE_ok _

theorem select_mem {fs : List FieldDef} {tag : Int} {f : FieldDef} (h : Union.select fs tag = .ok f) : f ∈ fs := by
  unfold Union.select at h
  split at h
  · simp at h
  · rcases hg : fs[tag.toNat]? with _ | g
    · rw [hg] at h; simp at h
    · rw [hg] at h
      obtain rfl := Except.ok.inj h
      exact List.mem_of_getElem? hg

theorem union_init (hk : ∀ id, (codecs id).InitLaw (same id)) {fs : List FieldDef} (hr : (CompoundDef.union fs).OffsetRules same) :
    (Union.codec codecs fs).InitLaw ((CompoundDef.union fs).Same same) := by
  refine ⟨?_, ?_, ?_⟩
  · rintro (_ | _ | _ | _ | _ | _ | _ | _ | _ | ⟨ps, k, tag, vs⟩) (_ | _ | _ | _ | _ | _ | _ | _ | _ | ⟨ps', k', tag', vs'⟩) h <;>
      first | rfl | (simp [CompoundDef.Same] at h; done)
  · intro path c x x' h
    match x, x', h with
    | .obj ps k tag [v], .obj ps' k' tag' [v'], h =>
      obtain ⟨rfl, rfl, rfl, h⟩ := h
      simp only [Union.codec]
      congr 1
      funext c
      rcases hs : Union.select fs tag' with _ | f
      · rfl
      · simp only [ok_bind]
        exact branch_packing hk (hr f (select_mem hs)).2 (h f hs) _ _ _ _
  · intro mode c p x e x1 c1 h
    match x, h with
    | .obj ps k tag [v], h =>
      simp only [Union.codec] at h
      obtain ⟨⟨n, c2⟩, h1, h⟩ := except_bind_ok h
      obtain ⟨f, hf, h⟩ := except_bind_ok h
      obtain ⟨⟨e', v1, c3⟩, h2, h⟩ := except_bind_ok h
      simp only [Except.ok.injEq, Prod.mk.injEq] at h
      obtain ⟨rfl, rfl, rfl⟩ := h
      have hrf := hr f (select_mem hf)
      obtain ⟨g1, g2⟩ := branch_init hk hrf.1 hrf.2 h2
      refine ⟨⟨rfl, rfl, rfl, ?_⟩, ?_⟩
      · intro f' hf'
        rw [hf] at hf'
        obtain rfl := Except.ok.inj hf'
        exact g1
      · intro cw hc
        simp only [Union.codec]
        refine (ends_intWrite _ _ _ h1 hc).bind fun r hrr => ?_
        rw [hf]
        refine (ends_lift (quietE_ok f) _).bind fun f' hf' => ?_
        obtain rfl := Except.ok.inj hf'
        exact g2 r hrr
    | .obj _ _ _ [], h => simp [Union.codec] at h
    | .obj _ _ _ (_ :: _ :: _), h => simp [Union.codec] at h
    | .none, h | .unset, h | .int _, h | .bool _, h | .float _, h | .str _, h | .bytes _, h | .bitBuffer _, h | .arr _, h =>
      simp [Union.codec] at h

theorem selectCase_rules {cases : List CaseDef} {default : Option (Option FieldDef)} {n slot : Nat} {s : Int} {f : FieldDef}
    (h : Choice.selectCase cases default n s = .ok (some f, slot)) :
    (∃ k ∈ cases, k.field = some f) ∨ default = some (some f) := by
  induction cases generalizing n with
  | nil =>
    rcases default with _ | d
    · simp [Choice.selectCase] at h
    · simp only [Choice.selectCase, Except.ok.injEq, Prod.mk.injEq] at h
      exact .inr (by rw [h.1])
  | cons k ks ih =>
    simp only [Choice.selectCase] at h
    split at h
    · simp only [Except.ok.injEq, Prod.mk.injEq] at h
      exact .inl ⟨k, by simp, h.1⟩
    · rcases ih h with ⟨k', hk', hf⟩ | hd
      · exact .inl ⟨k', by simp [hk'], hf⟩
      · exact .inr hd

theorem choice_init (hk : ∀ id, (codecs id).InitLaw (same id)) {selector : Expr Int} {cases : List CaseDef}
    {default : Option (Option FieldDef)} (hr : (CompoundDef.choice selector cases default).OffsetRules same) :
    (Choice.codec codecs selector cases default).InitLaw ((CompoundDef.choice selector cases default).Same same) := by
  have hrules : ∀ {ps f slot}, Choice.select selector cases default ps = .ok (some f, slot) → f.offset = none ∧ f.OffsetRules same [] [] := by
    intro ps f slot h
    unfold Choice.select at h
    obtain ⟨s, _, h⟩ := except_bind_ok h
    rcases selectCase_rules h with ⟨k, hk, hf⟩ | hd
    · exact hr.2.1 k hk f hf
    · exact hr.2.2 f hd
  refine ⟨?_, ?_, ?_⟩
  · rintro (_ | _ | _ | _ | _ | _ | _ | _ | _ | ⟨ps, k, tag, vs⟩) (_ | _ | _ | _ | _ | _ | _ | _ | _ | ⟨ps', k', tag', vs'⟩) h <;>
      first | rfl | (simp [CompoundDef.Same] at h; done)
  · intro path c x x' h
    match x, x', h with
    | .obj ps k tag [v], .obj ps' k' tag' [v'], h =>
      obtain ⟨rfl, rfl, rfl, h⟩ := h
      simp only [Choice.codec]
      rcases hs : Choice.select selector cases default ps' with _ | ⟨f, slot⟩
      · rfl
      · simp only [ok_bind]
        have := h f slot hs
        rcases f with _ | f
        · rfl
        · exact branch_packing hk (hrules hs).2 this _ _ _ _
  · intro mode c p x e x1 c1 h
    match x, h with
    | .obj ps k tag [v], h =>
      simp only [Choice.codec] at h
      obtain ⟨⟨f, slot⟩, hf, h⟩ := except_bind_ok h
      obtain ⟨⟨e', v1, c3⟩, h2, h⟩ := except_bind_ok h
      simp only [Except.ok.injEq, Prod.mk.injEq] at h
      obtain ⟨rfl, rfl, rfl⟩ := h
      have key : (match (generalizing := false) f with | some f => f.Same same false v v1 | none => v1 = v) ∧
          ∀ cw, Ctx.Alike cw c → Ends (Branch.write codecs f ps slot mode cw v1) p e' (fun r => Ctx.Alike r c3) := by
        rcases f with _ | f
        · simp only [Branch.initOffsets, Except.ok.injEq, Prod.mk.injEq] at h2
          obtain ⟨rfl, rfl, rfl⟩ := h2
          exact ⟨rfl, fun cw hc => ends_pure (by exact hc) _⟩
        · exact branch_init hk (hrules hf).1 (hrules hf).2 h2
      refine ⟨⟨rfl, rfl, rfl, ?_⟩, ?_⟩
      · intro f' slot' hf'
        rw [hf] at hf'
        simp only [Except.ok.injEq, Prod.mk.injEq] at hf'
        obtain ⟨rfl, rfl⟩ := hf'
        exact key.1
      · intro cw hc
        simp only [Choice.codec]
        rw [hf]
        refine (ends_lift (quietE_ok (f, slot)) _).bind fun f' hf' => ?_
        obtain rfl := Except.ok.inj hf'
        exact key.2 cw hc
    | .obj _ _ _ [], h => simp [Choice.codec] at h
    | .obj _ _ _ (_ :: _ :: _), h => simp [Choice.codec] at h
    | .none, h | .unset, h | .int _, h | .bool _, h | .float _, h | .str _, h | .bytes _, h | .bitBuffer _, h | .arr _, h =>
      simp [Choice.codec] at h

end

theorem schema_init {defs : Schema} (h : defs.OffsetRules) : ∀ n id, (defs.codec n id).InitLaw (defs.Same n id)
  | 0, id => by
    refine ⟨by intro x x' h; exact h.elim, by intro _ _ x x' h; exact h.elim, ?_⟩
    intro mode c p x e x1 c1 h
    simp [Schema.codec, Codec.limit] at h
  | n + 1, id => by
    have hk := schema_init h n
    have hr := h n id
    show ((defs id).codec (defs.codec n)).InitLaw ((defs id).Same (defs.Same n))
    cases hd : defs id with
    | struct fs => rw [hd] at hr; exact Struct.codec_init hk hr
    | union fs => rw [hd] at hr; exact union_init hk hr
    | choice s cs d => rw [hd] at hr; exact choice_init hk hr

end Zserio
