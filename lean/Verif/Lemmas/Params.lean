import Verif.Spec.Params
set_option linter.unusedSimpArgs false
/-
Lemmas for C90: expressions have the same result when objects are added and fields are set which were not set.
-/
namespace Zserio.Params

theorem bind_ok {α β : Type} {x : Except Err α} {f : α → Except Err β} {r : β} (h : (x >>= f) = .ok r) :
    ∃ a, x = .ok a ∧ f a = .ok r := by
  cases x with
  | error e => cases h
  | ok a => exact ⟨a, rfl, h⟩

/-- the same object, perhaps with more fields -/
def Obj.Grows (o o' : Obj) : Prop := o' = o ∨ ∃ ps fs gs, o = .inst ps fs ∧ o' = .inst ps (fs ++ gs)

/-- all objects still exist -/
def Grows (h h' : Heap) : Prop := ∀ (a : Nat) (o : Obj), h[a]? = some o → ∃ o' : Obj, h'[a]? = some o' ∧ o.Grows o'

theorem Obj.Grows.trans {a b c : Obj} (h1 : a.Grows b) (h2 : b.Grows c) : a.Grows c := by
  rcases h1 with rfl | ⟨ps, fs, gs, rfl, rfl⟩
  · exact h2
  · rcases h2 with rfl | ⟨ps', fs', gs', h, rfl⟩
    · exact .inr ⟨ps, fs, gs, rfl, rfl⟩
    · cases h; exact .inr ⟨ps, fs, gs ++ gs', rfl, by rw [List.append_assoc]⟩

theorem Grows.refl (h : Heap) : Grows h h := fun _ o ho => ⟨o, ho, .inl rfl⟩

theorem Grows.trans {a b c : Heap} (h1 : Grows a b) (h2 : Grows b c) : Grows a c := by
  intro x o ho
  obtain ⟨o1, ho1, g1⟩ := h1 x o ho
  obtain ⟨o2, ho2, g2⟩ := h2 x o1 ho1
  exact ⟨o2, ho2, g1.trans g2⟩

theorem Grows.add (h extra : Heap) : Grows h (h ++ extra) := by
  intro a o ho
  refine ⟨o, ?_, .inl rfl⟩
  have : a < h.length := by
    by_contra hc
    rw [List.getElem?_eq_none (by omega)] at ho
    cases ho
  rw [List.getElem?_append_left this]
  exact ho

theorem inst_ok {h : Heap} {a : Nat} {o : List Value × List Value} : h.inst a = .ok o ↔ h[a]? = some (.inst o.1 o.2) := by
  unfold Heap.inst
  split
  · rename_i ps fs hp
    rw [hp]
    simp only [Except.ok.injEq, Option.some.injEq, Obj.inst.injEq]
    constructor
    · rintro rfl; exact ⟨rfl, rfl⟩
    · rintro ⟨rfl, rfl⟩; rfl
  · rename_i hn
    constructor
    · intro h; cases h
    · intro hp; exact absurd hp (hn _ _)

theorem inst_grows {h h' : Heap} (g : Grows h h') {a : Nat} {o : List Value × List Value} (ho : h.inst a = .ok o) :
    ∃ gs, h'.inst a = .ok (o.1, o.2 ++ gs) := by
  obtain ⟨o', ho', go⟩ := g a _ (inst_ok.1 ho)
  rcases go with rfl | ⟨ps, fs, gs, h1, rfl⟩
  · exact ⟨[], inst_ok.2 (by simpa using ho')⟩
  · cases h1; exact ⟨gs, inst_ok.2 ho'⟩

theorem attr_grows {vs gs : List Value} {i : Nat} {r : Result} (h : attr vs i = .ok r) : attr (vs ++ gs) i = .ok r := by
  unfold attr at h ⊢
  split at h
  · rename_i v hv
    have : i < vs.length := by
      by_contra hc
      rw [List.getElem?_eq_none (by omega)] at hv
      cases hv
    rw [List.getElem?_append_left this, hv]
    exact h
  · cases h

theorem mask_grows {h h' : Heap} (g : Grows h h') {r : Result} {v : Int} (hr : r.mask h = .ok v) : r.mask h' = .ok v := by
  cases r with
  | fresh m => exact hr
  | value w =>
    cases w with
    | atom a => cases hr
    | ref a =>
      simp only [Result.mask] at hr ⊢
      split at hr
      · rename_i u hu
        obtain ⟨o', ho', go⟩ := g a _ hu
        rcases go with rfl | ⟨_, _, _, h1, _⟩
        · rw [ho']; exact hr
        · cases h1
      · cases hr

theorem atom_grows {h h' : Heap} (g : Grows h h') {r : Result} {a : Atom} (hr : r.atom h = .ok a) : r.atom h' = .ok a := by
  cases r with
  | value w =>
    cases w with
    | atom b => exact hr
    | ref b =>
      obtain ⟨m, h1, h2⟩ := bind_ok hr
      simp only [Result.atom, mask_grows g h1]
      exact h2
  | fresh m =>
    obtain ⟨m', h1, h2⟩ := bind_ok hr
    simp only [Result.atom, mask_grows g h1]
    exact h2

theorem element_grows {h h' : Heap} (g : Grows h h') {r r' : Result} {i : Atom} (hr : element h r i = .ok r') :
    element h' r i = .ok r' := by
  unfold element at hr ⊢
  obtain ⟨a, h1, h2⟩ := bind_ok hr
  rw [h1]
  simp only [bind, Except.bind]
  split at h2
  · rename_i vs n hl
    obtain ⟨o', ho', go⟩ := g a _ hl
    rcases go with rfl | ⟨_, _, _, h1, _⟩
    · rw [ho']; exact h2
    · cases h1
  · cases h2

theorem eval_grows {h h' : Heap} (g : Grows h h') : ∀ (e : Arg) {self : Nat} {r : Result}, e.eval h self = .ok r → e.eval h' self = .ok r
  | .atom a, self, r, hr => by simpa only [Arg.eval] using hr
  | .known a, self, r, hr => by simpa only [Arg.eval] using hr
  | .param i, self, r, hr => by
    simp only [Arg.eval] at hr ⊢
    obtain ⟨o, h1, h2⟩ := bind_ok hr
    obtain ⟨gs, h3⟩ := inst_grows g h1
    rw [h3]; exact h2
  | .field i, self, r, hr => by
    simp only [Arg.eval] at hr ⊢
    obtain ⟨o, h1, h2⟩ := bind_ok hr
    obtain ⟨gs, h3⟩ := inst_grows g h1
    rw [h3]; exact attr_grows h2
  | .dot x i, self, r, hr => by
    simp only [Arg.eval] at hr ⊢
    obtain ⟨v, h1, hr⟩ := bind_ok hr
    obtain ⟨a, h2, hr⟩ := bind_ok hr
    obtain ⟨o, h3, hr⟩ := bind_ok hr
    obtain ⟨gs, h4⟩ := inst_grows g h3
    simp only [eval_grows g x h1, h2, h4, bind, Except.bind]; exact attr_grows hr
  | .dotParam x i, self, r, hr => by
    simp only [Arg.eval] at hr ⊢
    obtain ⟨v, h1, hr⟩ := bind_ok hr
    obtain ⟨a, h2, hr⟩ := bind_ok hr
    obtain ⟨o, h3, hr⟩ := bind_ok hr
    obtain ⟨gs, h4⟩ := inst_grows g h3
    simp only [eval_grows g x h1, h2, h4, bind, Except.bind]; exact hr
  | .elem x i, self, r, hr => by
    simp only [Arg.eval] at hr ⊢
    obtain ⟨v, h1, hr⟩ := bind_ok hr
    obtain ⟨u, h2, hr⟩ := bind_ok hr
    obtain ⟨n, h3, hr⟩ := bind_ok hr
    simp only [eval_grows g x h1, eval_grows g i h2, atom_grows g h3, bind, Except.bind]; exact element_grows g hr
  | .cond c x y, self, r, hr => by
    simp only [Arg.eval] at hr ⊢
    obtain ⟨u, h1, hr⟩ := bind_ok hr
    obtain ⟨b, h2, hr⟩ := bind_ok hr
    simp only [eval_grows g c h1, atom_grows g h2, bind, Except.bind]
    split at hr
    · exact eval_grows g x hr
    · exact eval_grows g y hr
    · cases hr
  | .op f x y, self, r, hr => by
    simp only [Arg.eval] at hr ⊢
    obtain ⟨u, h1, hr⟩ := bind_ok hr
    obtain ⟨a, h2, hr⟩ := bind_ok hr
    obtain ⟨v, h3, hr⟩ := bind_ok hr
    obtain ⟨b, h4, hr⟩ := bind_ok hr
    simp only [eval_grows g x h1, eval_grows g y h3, atom_grows g h2, atom_grows g h4, bind, Except.bind]; exact hr
  | .mask f x y, self, r, hr => by
    simp only [Arg.eval] at hr ⊢
    obtain ⟨u, h1, hr⟩ := bind_ok hr
    obtain ⟨a, h2, hr⟩ := bind_ok hr
    obtain ⟨v, h3, hr⟩ := bind_ok hr
    obtain ⟨b, h4, hr⟩ := bind_ok hr
    simp only [eval_grows g x h1, eval_grows g y h3, mask_grows g h2, mask_grows g h4, bind, Except.bind]; exact hr
  | .call none body, self, r, hr => by
    simp only [Arg.eval] at hr ⊢
    exact eval_grows g body hr
  | .call (some x) body, self, r, hr => by
    simp only [Arg.eval] at hr ⊢
    obtain ⟨u, h1, hr⟩ := bind_ok hr
    obtain ⟨a, h2, hr⟩ := bind_ok hr
    simp only [eval_grows g x h1, h2, bind, Except.bind]; exact eval_grows g body hr

theorem eval_refers {h : Heap} : ∀ (e : Arg) {self : Nat} {r : Result}, e.Refers → e.eval h self = .ok r → ∃ v, r = .value v
  | .atom a, self, r, _, hr => by simp only [Arg.eval, Except.ok.injEq] at hr; exact ⟨_, hr.symm⟩
  | .known a, self, r, _, hr => by simp only [Arg.eval, Except.ok.injEq] at hr; exact ⟨_, hr.symm⟩
  | .param i, self, r, _, hr => by
    simp only [Arg.eval] at hr
    obtain ⟨o, -, h2⟩ := bind_ok hr
    unfold attr at h2; split at h2 <;> simp only [Except.ok.injEq, reduceCtorEq] at h2; exact ⟨_, h2.symm⟩
  | .field i, self, r, _, hr => by
    simp only [Arg.eval] at hr
    obtain ⟨o, -, h2⟩ := bind_ok hr
    unfold attr at h2; split at h2 <;> simp only [Except.ok.injEq, reduceCtorEq] at h2; exact ⟨_, h2.symm⟩
  | .dot x i, self, r, _, hr => by
    simp only [Arg.eval] at hr
    obtain ⟨v, -, hr⟩ := bind_ok hr
    obtain ⟨a, -, hr⟩ := bind_ok hr
    obtain ⟨o, -, h2⟩ := bind_ok hr
    unfold attr at h2; split at h2 <;> simp only [Except.ok.injEq, reduceCtorEq] at h2; exact ⟨_, h2.symm⟩
  | .dotParam x i, self, r, _, hr => by
    simp only [Arg.eval] at hr
    obtain ⟨v, -, hr⟩ := bind_ok hr
    obtain ⟨a, -, hr⟩ := bind_ok hr
    obtain ⟨o, -, h2⟩ := bind_ok hr
    unfold attr at h2; split at h2 <;> simp only [Except.ok.injEq, reduceCtorEq] at h2; exact ⟨_, h2.symm⟩
  | .elem x i, self, r, _, hr => by
    simp only [Arg.eval] at hr
    obtain ⟨v, -, hr⟩ := bind_ok hr
    obtain ⟨u, -, hr⟩ := bind_ok hr
    obtain ⟨n, -, hr⟩ := bind_ok hr
    obtain ⟨a, -, hr⟩ := bind_ok hr
    split at hr
    · split at hr
      · cases hr
      · split at hr <;> simp only [Except.ok.injEq, reduceCtorEq] at hr; exact ⟨_, hr.symm⟩
    · cases hr
  | .cond c x y, self, r, hs, hr => by
    simp only [Arg.eval] at hr
    obtain ⟨u, -, hr⟩ := bind_ok hr
    obtain ⟨b, -, hr⟩ := bind_ok hr
    split at hr
    · exact eval_refers x hs.1 hr
    · exact eval_refers y hs.2 hr
    · cases hr
  | .op f x y, self, r, _, hr => by
    simp only [Arg.eval] at hr
    obtain ⟨u, -, hr⟩ := bind_ok hr
    obtain ⟨a, -, hr⟩ := bind_ok hr
    obtain ⟨v, -, hr⟩ := bind_ok hr
    obtain ⟨b, -, hr⟩ := bind_ok hr
    obtain ⟨w, -, hr⟩ := bind_ok hr
    simp only [Except.ok.injEq] at hr; exact ⟨_, hr.symm⟩
  | .mask f x y, self, r, hs, hr => by exact absurd hs (by simp [Arg.Refers])
  | .call none body, self, r, hs, hr => by
    simp only [Arg.eval] at hr
    exact eval_refers body hs hr
  | .call (some x) body, self, r, hs, hr => by
    simp only [Arg.eval] at hr
    obtain ⟨u, -, hr⟩ := bind_ok hr
    obtain ⟨a, -, hr⟩ := bind_ok hr
    exact eval_refers body hs hr

theorem eval_computes {h : Heap} : ∀ (e : Arg) {self : Nat} {r : Result}, e.Computes → e.eval h self = .ok r → ∃ m, r = .fresh m
  | .mask f x y, self, r, hs, hr => by
    simp only [Arg.eval] at hr
    obtain ⟨u, -, hr⟩ := bind_ok hr
    obtain ⟨a, -, hr⟩ := bind_ok hr
    obtain ⟨v, -, hr⟩ := bind_ok hr
    obtain ⟨b, -, hr⟩ := bind_ok hr
    obtain ⟨w, -, hr⟩ := bind_ok hr
    simp only [Except.ok.injEq] at hr; exact ⟨_, hr.symm⟩
  | .cond c x y, self, r, hs, hr => by
    simp only [Arg.eval] at hr
    obtain ⟨u, -, hr⟩ := bind_ok hr
    obtain ⟨b, -, hr⟩ := bind_ok hr
    split at hr
    · exact eval_computes x hs.1 hr
    · exact eval_computes y hs.2 hr
    · cases hr
  | .call none body, self, r, hs, hr => by
    simp only [Arg.eval] at hr
    exact eval_computes body hs hr
  | .call (some x) body, self, r, hs, hr => by
    simp only [Arg.eval] at hr
    obtain ⟨u, -, hr⟩ := bind_ok hr
    obtain ⟨a, -, hr⟩ := bind_ok hr
    exact eval_computes body hs hr
  | .atom _, _, _, hs, _ => by exact absurd hs (by simp [Arg.Computes])
  | .known _, _, _, hs, _ => by exact absurd hs (by simp [Arg.Computes])
  | .param _, _, _, hs, _ => by exact absurd hs (by simp [Arg.Computes])
  | .field _, _, _, hs, _ => by exact absurd hs (by simp [Arg.Computes])
  | .dot _ _, _, _, hs, _ => by exact absurd hs (by simp [Arg.Computes])
  | .dotParam _ _, _, _, hs, _ => by exact absurd hs (by simp [Arg.Computes])
  | .elem _ _, _, _, hs, _ => by exact absurd hs (by simp [Arg.Computes])
  | .op _ _ _, _, _, hs, _ => by exact absurd hs (by simp [Arg.Computes])

theorem used_grows {h h' : Heap} (g : Grows h h') {f : Field} {self : Nat} {b : Bool} (hu : f.used h self = .ok b) :
    f.used h' self = .ok b := by
  unfold Field.used at hu ⊢
  split at hu
  · exact hu
  · obtain ⟨r, h1, hu⟩ := bind_ok hu
    obtain ⟨a, h2, hu⟩ := bind_ok hu
    simp only [eval_grows g _ h1, atom_grows g h2, bind, Except.bind]
    exact hu

theorem append_grows {h h' : Heap} {self : Nat} {v : Value} (ha : h.append self v = .ok h') :
    Grows h h' ∧ ∃ o, h.inst self = .ok o ∧ h'.inst self = .ok (o.1, o.2 ++ [v]) := by
  unfold Heap.append at ha
  obtain ⟨o, h1, h2⟩ := bind_ok ha
  simp only [Except.ok.injEq] at h2
  subst h2
  have hs := inst_ok.1 h1
  have hlt : self < h.length := by
    by_contra hc
    rw [List.getElem?_eq_none (by omega)] at hs
    cases hs
  refine ⟨fun a o' ho' => ?_, o, h1, inst_ok.2 (by simp [hlt])⟩
  by_cases hc : self = a
  · subst hc
    rw [hs] at ho'
    cases ho'
    exact ⟨_, by simp [hlt], .inr ⟨o.1, o.2, [v], rfl, rfl⟩⟩
  · exact ⟨o', by rw [List.getElem?_set_ne hc]; exact ho', .inl rfl⟩

/-- all arguments are evaluated, in heaps which grow -/
theorem evalArgs_ok {self : Nat} : ∀ {args : List (Kind × Arg)} {h : Heap} {r : List Value × Heap}, evalArgs self args h = .ok r →
    Grows h r.2 ∧ r.1.length = args.length ∧ ∀ (j : Nat) (p : Kind × Arg), args[j]? = some p → ∃ q res h1, r.1[j]? = some q ∧ Grows h h1 ∧ Grows h1 r.2 ∧
      p.2.eval h1 self = .ok res ∧ (∀ v, res = .value v → q = v)
  | [], h, r, he => by
    simp only [evalArgs, Except.ok.injEq] at he
    subst he
    exact ⟨Grows.refl h, rfl, fun j p hp => by simp at hp⟩
  | a :: as, h, r, he => by
    simp only [evalArgs] at he
    obtain ⟨res, h1, he⟩ := bind_ok he
    split at he
    · rename_i v
      obtain ⟨r1, h2, he⟩ := bind_ok he
      simp only [Except.ok.injEq] at he
      subst he
      obtain ⟨g, hl, hall⟩ := evalArgs_ok h2
      refine ⟨g, by simp [hl], fun j p hp => ?_⟩
      cases j with
      | zero =>
        simp only [List.getElem?_cons_zero, Option.some.injEq] at hp
        subst hp
        exact ⟨v, _, h, rfl, Grows.refl h, g, h1, fun w hw => by cases hw; rfl⟩
      | succ j => exact hall j p (by simpa using hp)
    · rename_i m
      obtain ⟨r1, h2, he⟩ := bind_ok he
      simp only [Except.ok.injEq] at he
      subst he
      obtain ⟨g, hl, hall⟩ := evalArgs_ok h2
      have g0 := Grows.add h [.item m]
      refine ⟨g0.trans g, by simp [hl], fun j p hp => ?_⟩
      cases j with
      | zero =>
        simp only [List.getElem?_cons_zero, Option.some.injEq] at hp
        subst hp
        exact ⟨_, _, h, rfl, Grows.refl h, g0.trans g, h1, fun w hw => by cases hw⟩
      | succ j =>
        obtain ⟨q, res, h3, h4, h5, h6, h7, h8⟩ := hall j p (by simpa using hp)
        exact ⟨q, res, h3, h4, g0.trans h5, h6, h7, h8⟩

theorem atom_eq_iff {a b : Atom} : a.eq b = true ↔ a.Equal b := by
  by_cases hf : ∃ x y, a = .float x ∧ b = .float y
  · obtain ⟨x, y, rfl, rfl⟩ := hf
    simp only [Atom.eq, pyFloatEq, Atom.Equal, Atom.NotNaN, Atom.float.injEq]
    split
    · rename_i h
      simp only [Bool.false_eq_true, false_iff, not_or, not_and, not_exists]
      refine ⟨?_, ?_⟩
      · rintro rfl hn
        have := hn x rfl
        omega
      · rintro x' y' rfl rfl h1 h2
        omega
    · rename_i h
      split
      · rename_i h0
        simp only [true_iff]
        exact .inr ⟨x, y, rfl, rfl, h0.1, h0.2⟩
      · rename_i h0
        rw [beq_iff_eq]
        constructor
        · rintro rfl
          exact .inl ⟨rfl, fun z hz => by rw [← hz]; omega⟩
        · rintro (⟨rfl, _⟩ | ⟨x', y', rfl, rfl, h1, h2⟩)
          · rfl
          · exact absurd ⟨h1, h2⟩ h0
  · have h1 : a.eq b = decide (a = b) := by
      cases a <;> cases b <;> first | rfl | exact absurd ⟨_, _, rfl, rfl⟩ hf
    rw [h1, decide_eq_true_eq]
    constructor
    · rintro rfl
      exact .inl ⟨rfl, fun x hx => absurd ⟨x, x, hx, hx⟩ hf⟩
    · rintro (⟨h, _⟩ | ⟨x, y, h, h', _⟩)
      · exact h
      · exact absurd ⟨x, y, h, h'⟩ hf

theorem differs_false {k : Kind} {q : Value} {r : Result} : differs k q r = false ↔ Same k q r := by
  cases k with
  | builtin =>
    cases q with
    | ref a => simp [differs, Same]
    | atom a =>
      cases r with
      | fresh m => simp [differs, Same]
      | value v =>
        cases v with
        | ref b => simp [differs, Same]
        | atom b => simp [differs, Same, atom_eq_iff]
  | object =>
    cases r with
    | fresh m => simp [differs, Same]
    | value v =>
      simp only [differs, Same, Result.value.injEq]
      simp only [ne_eq, decide_not, Bool.not_eq_eq_eq_not, Bool.not_false, decide_eq_true_eq]
      exact eq_comm

theorem checkParams_ok {h : Heap} {self : Nat} : ∀ {args : List (Kind × Arg)} {ps : List Value},
    checkParams h self args ps = .ok () ↔ args.length ≤ ps.length ∧ ∀ (j : Nat) (p : Kind × Arg), args[j]? = some p → ∃ q r, ps[j]? = some q ∧
      p.2.eval h self = .ok r ∧ Same p.1 q r
  | [], ps => by simp [checkParams]
  | a :: as, [] => by simp [checkParams]
  | a :: as, q :: ps => by
    simp only [checkParams]
    constructor
    · intro hc
      obtain ⟨r, h1, hc⟩ := bind_ok hc
      split at hc
      · cases hc
      · rename_i hd
        obtain ⟨hl, hall⟩ := checkParams_ok.1 hc
        refine ⟨by simpa using hl, fun j p hp => ?_⟩
        cases j with
        | zero =>
          simp only [List.getElem?_cons_zero, Option.some.injEq] at hp
          subst hp
          exact ⟨q, r, rfl, h1, differs_false.1 (by simpa using hd)⟩
        | succ j => exact hall j p (by simpa using hp)
    · rintro ⟨hl, hall⟩
      obtain ⟨q', r, hq, h1, hs⟩ := hall 0 a rfl
      simp only [List.getElem?_cons_zero, Option.some.injEq] at hq
      subst hq
      have ih : checkParams h self as ps = .ok () :=
        checkParams_ok.2 ⟨by simpa using hl, fun j p hp => hall (j + 1) p (by simpa using hp)⟩
      simp only [h1, bind, Except.bind, differs_false.2 hs]
      exact ih

theorem inst_add {h : Heap} {a : Nat} {o : List Value × List Value} (ho : h.inst a = .ok o) (extra : Heap) :
    Heap.inst (h ++ extra) a = .ok o := by
  have hs := inst_ok.1 ho
  have hlt : a < h.length := by
    by_contra hc
    rw [List.getElem?_eq_none (by omega)] at hs
    cases hs
  exact inst_ok.2 (by rw [List.getElem?_append_left hlt]; exact hs)

theorem evalArgs_add {self : Nat} : ∀ {args : List (Kind × Arg)} {h : Heap} {r : List Value × Heap}, evalArgs self args h = .ok r →
    ∃ extra, r.2 = h ++ extra
  | [], h, r, he => by
    simp only [evalArgs, Except.ok.injEq] at he
    subst he
    exact ⟨[], by simp⟩
  | a :: as, h, r, he => by
    simp only [evalArgs] at he
    obtain ⟨res, h1, he⟩ := bind_ok he
    split at he
    · obtain ⟨r1, h2, he⟩ := bind_ok he
      simp only [Except.ok.injEq] at he
      subst he
      obtain ⟨e, he⟩ := evalArgs_add h2
      exact ⟨e, he⟩
    · obtain ⟨r1, h2, he⟩ := bind_ok he
      simp only [Except.ok.injEq] at he
      subst he
      obtain ⟨e, he⟩ := evalArgs_add h2
      exact ⟨_, by rw [he, List.append_assoc]⟩

/-- the heap after the content of a field has been read, and the check of its parameters -/
theorem content_check {c : Content} {h : Heap} {self : Nat} {r : Value × Heap} (hc : c.read h self = .ok r) :
    (∃ extra, r.2 = h ++ extra) ∧ ∀ args read, c = .compound args read → (∀ p ∈ args, p.1 = .object → p.2.Refers) →
      ∃ a, r.1 = .ref a ∧ ∀ h'', Grows r.2 h'' →
        (∀ p ∈ args, p.1 = .builtin → ∀ r, p.2.eval h'' self = .ok r → ∃ a, r = .value (.atom a) ∧ a.NotNaN) →
        ∃ o, h''.inst a = .ok o ∧ checkParams h'' self args o.1 = .ok () := by
  unfold Content.read at hc
  split at hc
  · obtain ⟨r', -, hc⟩ := bind_ok hc
    simp only [Except.ok.injEq] at hc
    subst hc
    exact ⟨⟨_, rfl⟩, fun _ _ hx => by cases hx⟩
  · rename_i args read
    obtain ⟨as, he, hc⟩ := bind_ok hc
    obtain ⟨r', -, hc⟩ := bind_ok hc
    simp only [Except.ok.injEq] at hc
    subst hc
    obtain ⟨e, hadd⟩ := evalArgs_add he
    obtain ⟨-, hl, hall⟩ := evalArgs_ok he
    refine ⟨⟨_, by rw [hadd, List.append_assoc, List.append_assoc]⟩, ?_⟩
    intro args' read' hx hobj
    cases hx
    refine ⟨_, rfl, fun h'' g hat => ?_⟩
    have hi : Heap.inst (as.2 ++ r'.2 ++ [Obj.inst as.1 r'.1]) (as.2 ++ r'.2).length = .ok (as.1, r'.1) := inst_ok.2 (by simp)
    obtain ⟨gs, hi'⟩ := inst_grows g hi
    refine ⟨_, hi', checkParams_ok.2 ⟨by simp [hl], fun j p hp => ?_⟩⟩
    obtain ⟨q, res, h1, hq, -, g1, hev, hval⟩ := hall j p hp
    have hev' : p.2.eval h'' self = .ok res := by
      refine eval_grows ?_ _ hev
      refine g1.trans (Grows.trans ?_ g)
      rw [List.append_assoc]
      exact Grows.add _ _
    refine ⟨q, res, hq, hev', ?_⟩
    have hmem : p ∈ args := List.mem_of_getElem? hp
    cases hk : p.1 with
    | builtin =>
      obtain ⟨a, rfl, hn⟩ := hat p hmem hk res hev'
      exact ⟨a, a, hval _ rfl, rfl, .inl ⟨rfl, hn⟩⟩
    | object =>
      obtain ⟨v, rfl⟩ := eval_refers p.2 (hobj p hmem hk) hev'
      simp only [Same, hval v rfl]

/-- what holds after a field has been read: in all later heaps its check passes -/
theorem read_check {f : Field} {h h' : Heap} {self : Nat} (hr : f.read h self = .ok h') {o : List Value × List Value}
    (ho : h.inst self = .ok o)
    (hobj : ∀ p ∈ f.args, p.1 = .object → p.2.Refers) :
    Grows h h' ∧ ∃ v, h'.inst self = .ok (o.1, o.2 ++ [v]) ∧ ∀ h'', Grows h' h'' →
      (∀ p ∈ f.args, p.1 = .builtin → ∀ r, p.2.eval h'' self = .ok r → ∃ a, r = .value (.atom a) ∧ a.NotNaN) →
      f.check h'' self v = .ok () := by
  unfold Field.read at hr
  obtain ⟨b, hu, hr⟩ := bind_ok hr
  cases b with
  | false =>
    simp only [Bool.false_eq_true, if_false] at hr
    obtain ⟨g, o', ho', hs⟩ := append_grows hr
    rw [ho] at ho'; cases ho'
    refine ⟨g, _, hs, fun h'' g' _ => ?_⟩
    unfold Field.check
    rw [used_grows (g.trans g') hu]
    rfl
  | true =>
    simp only [if_true] at hr
    obtain ⟨r, hc, hr⟩ := bind_ok hr
    obtain ⟨g, o', ho', hs⟩ := append_grows hr
    obtain ⟨⟨e, hadd⟩, hpar⟩ := content_check hc
    have g1 : Grows h r.2 := by rw [hadd]; exact Grows.add _ _
    rw [hadd, inst_add ho e] at ho'
    cases ho'
    refine ⟨g1.trans g, r.1, hs, fun h'' g' hat => ?_⟩
    unfold Field.check
    rw [used_grows ((g1.trans g).trans g') hu]
    simp only [bind, Except.bind, if_true]
    split
    · rfl
    · rename_i args read hcont
      have hargs : f.args = args := by simp [Field.args, hcont]
      rw [hargs] at hobj hat
      obtain ⟨a, ha, hch⟩ := hpar args read hcont hobj
      obtain ⟨o2, hi, hp⟩ := hch h'' (g.trans g') hat
      rw [ha]
      simp only [Result.addr, hi]
      exact hp

theorem readFields_check {self : Nat} : ∀ {fs : List Field} {h h' : Heap} {o : List Value × List Value}, readFields self fs h = .ok h' →
    h.inst self = .ok o → (∀ f ∈ fs, ∀ p ∈ f.args, p.1 = .object → p.2.Refers) →
    Grows h h' ∧ ∃ vs, h'.inst self = .ok (o.1, o.2 ++ vs) ∧ vs.length = fs.length ∧ ∀ h'', Grows h' h'' →
      (∀ f ∈ fs, ∀ p ∈ f.args, p.1 = .builtin → ∀ r, p.2.eval h'' self = .ok r → ∃ a, r = .value (.atom a) ∧ a.NotNaN) →
      checkFields h'' self fs vs = .ok ()
  | [], h, h', o, hr, ho, _ => by
    simp only [readFields, Except.ok.injEq] at hr
    subst hr
    exact ⟨Grows.refl h, [], by simpa using ho, rfl, fun _ _ _ => rfl⟩
  | f :: fs, h, h', o, hr, ho, hobj => by
    simp only [readFields] at hr
    obtain ⟨h1, hf, hr⟩ := bind_ok hr
    obtain ⟨g, v, hv, hch⟩ := read_check hf ho (hobj f (by simp))
    obtain ⟨g', vs, hvs, hl, hrest⟩ := readFields_check hr hv fun f hf => hobj f (by simp [hf])
    refine ⟨g.trans g', v :: vs, by simpa using hvs, by simp [hl], fun h'' g'' hat => ?_⟩
    simp only [checkFields, hch h'' (g'.trans g'') (hat f (by simp)), bind, Except.bind]
    exact hrest h'' g'' fun f hf => hat f (by simp [hf])

theorem append_others {h h' : Heap} {self : Nat} {v : Value} (ha : h.append self v = .ok h') :
    h'.length = h.length ∧ ∀ a, a ≠ self → h'[a]? = h[a]? := by
  unfold Heap.append at ha
  obtain ⟨o, h1, h2⟩ := bind_ok ha
  simp only [Except.ok.injEq] at h2
  subst h2
  exact ⟨by simp, fun a hne => by rw [List.getElem?_set_ne (Ne.symm hne)]⟩

theorem content_add {c : Content} {h : Heap} {self : Nat} {r : Value × Heap} (hc : c.read h self = .ok r) : ∃ extra, r.2 = h ++ extra :=
  (content_check hc).1

theorem read_others {f : Field} {h h' : Heap} {self : Nat} (hr : f.read h self = .ok h') {o : List Value × List Value}
    (ho : h.inst self = .ok o) :
    h.length ≤ h'.length ∧ (∀ a < h.length, a ≠ self → h'[a]? = h[a]?) ∧ ∃ v, h'.inst self = .ok (o.1, o.2 ++ [v]) := by
  unfold Field.read at hr
  obtain ⟨b, hu, hr⟩ := bind_ok hr
  cases b with
  | false =>
    simp only [Bool.false_eq_true, if_false] at hr
    obtain ⟨-, o', ho', hs⟩ := append_grows hr
    obtain ⟨hl, hoth⟩ := append_others hr
    rw [ho] at ho'; cases ho'
    exact ⟨by omega, fun a _ hne => hoth a hne, _, hs⟩
  | true =>
    simp only [if_true] at hr
    obtain ⟨r, hc, hr⟩ := bind_ok hr
    obtain ⟨-, o', ho', hs⟩ := append_grows hr
    obtain ⟨hl, hoth⟩ := append_others hr
    obtain ⟨e, hadd⟩ := content_add hc
    rw [hadd, inst_add ho e] at ho'
    cases ho'
    rw [hadd] at hl hoth
    refine ⟨by simp at hl; omega, fun a ha hne => ?_, _, hs⟩
    rw [hoth a hne, List.getElem?_append_left ha]

theorem readFields_others {self : Nat} : ∀ {fs : List Field} {h h' : Heap} {o : List Value × List Value}, readFields self fs h = .ok h' →
    h.inst self = .ok o → h.length ≤ h'.length ∧ (∀ a < h.length, a ≠ self → h'[a]? = h[a]?) ∧
      ∃ vs, h'.inst self = .ok (o.1, o.2 ++ vs) ∧ vs.length = fs.length
  | [], h, h', o, hr, ho => by
    simp only [readFields, Except.ok.injEq] at hr
    subst hr
    exact ⟨Nat.le_refl _, fun _ _ _ => rfl, [], by simpa using ho, rfl⟩
  | f :: fs, h, h', o, hr, ho => by
    simp only [readFields] at hr
    obtain ⟨h1, hf, hr⟩ := bind_ok hr
    obtain ⟨l1, o1, v, hv⟩ := read_others hf ho
    obtain ⟨l2, o2, vs, hvs, hl⟩ := readFields_others hr hv
    exact ⟨by omega, fun a ha hne => by rw [o2 a (by omega) hne, o1 a ha hne], v :: vs, by simpa using hvs, by simp [hl]⟩

theorem field_check_iff {f : Field} {h : Heap} {self : Nat} {v : Value} : f.check h self v = .ok () ↔
    ∃ b, f.used h self = .ok b ∧ (b = true → ∀ args read, f.content = .compound args read → ∃ a o, v = .ref a ∧ h.inst a = .ok o ∧
      checkParams h self args o.1 = .ok ()) := by
  unfold Field.check
  cases hu : f.used h self with
  | error e => exact ⟨fun h => (by cases h), fun ⟨b, hb, _⟩ => (by cases hb)⟩
  | ok b =>
    cases b with
    | false => exact ⟨fun _ => ⟨false, rfl, fun h => (by cases h)⟩, fun _ => rfl⟩
    | true =>
      simp only [bind, Except.bind, if_true]
      cases hc : f.content with
      | plain read => exact ⟨fun _ => ⟨true, rfl, fun _ _ _ h => (by cases h)⟩, fun _ => rfl⟩
      | compound args read =>
        dsimp only
        constructor
        · intro hx
          refine ⟨true, rfl, fun _ args' read' h' => ?_⟩
          cases h'
          cases v with
          | atom x => cases hx
          | ref a =>
            simp only [Result.addr] at hx
            cases hi : h.inst a with
            | error e => rw [hi] at hx; cases hx
            | ok o => rw [hi] at hx; exact ⟨a, o, rfl, hi, hx⟩
        · rintro ⟨b, hb, hx⟩
          cases hb
          obtain ⟨a, o, rfl, hi, hp⟩ := hx rfl args read rfl
          simp only [Result.addr, hi]
          exact hp

theorem checkFields_iff {h : Heap} {self : Nat} : ∀ {fs : List Field} {vs : List Value}, checkFields h self fs vs = .ok () ↔
    fs.length ≤ vs.length ∧ ∀ (i : Nat) (f : Field), fs[i]? = some f → ∃ v, vs[i]? = some v ∧ f.check h self v = .ok ()
  | [], vs => by simp [checkFields]
  | f :: fs, [] => by simp [checkFields]
  | f :: fs, v :: vs => by
    simp only [checkFields]
    constructor
    · intro hc
      obtain ⟨_, h1, h2⟩ := bind_ok hc
      obtain ⟨hl, hall⟩ := checkFields_iff.1 h2
      refine ⟨by simpa using hl, fun i g hg => ?_⟩
      cases i with
      | zero =>
        simp only [List.getElem?_cons_zero, Option.some.injEq] at hg
        subst hg
        exact ⟨v, rfl, h1⟩
      | succ i => exact hall i g (by simpa using hg)
    · rintro ⟨hl, hall⟩
      obtain ⟨v', hv, h1⟩ := hall 0 f rfl
      simp only [List.getElem?_cons_zero, Option.some.injEq] at hv
      subst hv
      have h2 : checkFields h self fs vs = .ok () :=
        checkFields_iff.2 ⟨by simpa using hl, fun i g hg => hall (i + 1) g (by simpa using hg)⟩
      rw [h1]
      exact h2

end Zserio.Params
