import Verif.Lemmas.Objects
set_option linter.unusedSimpArgs false
/-
What constructors, getters and setters do to a single object.
-/
namespace Zserio.Objects

theorem memberGet_plain {f : FieldDef} (hf : f.isArray = false) (v : PyVal) (h : Heap) : memberGet f v h = (.ok v, h) := by
  simp [memberGet, hf]

theorem getElem?_last (h new : Heap) (x : Cell) : (h ++ new ++ [x])[h.length + new.length]? = some x := by
  rw [← List.length_append]
  simp

theorem alloc_apply (c : Cell) (h : Heap) : alloc c h = (.ok (.ref h.length), h ++ [c]) := rfl

theorem load_ref {h : Heap} {a : Nat} {c : Cell} (hc : h[a]? = some c) : load (.ref a) h = (.ok (a, c), h) := by
  simp [load, hc]

theorem memberGet_wrapped {f : FieldDef} (hf : f.isArray = true) {h : Heap} {a : Nat} {raw : PyVal} (hc : h[a]? = some (.array raw)) :
    memberGet f (.ref a) h = (.ok raw, h) := by
  simp [memberGet, hf, PyVal.isNone, rawArray, M.bind_apply, load_ref hc]

theorem memberGet_none {f : FieldDef} (ho : f.optional = true) (h : Heap) : memberGet f .none h = (.ok .none, h) := by
  cases hf : f.isArray with
  | true => simp [memberGet, hf, ho, PyVal.isNone]
  | false => exact memberGet_plain hf _ _

theorem memberValue_spec (f : FieldDef) (v : PyVal) (h : Heap) :
    ∃ m new, memberValue f v h = (.ok m, h ++ new) ∧ (f.isArray = false → m = v ∧ new = []) ∧ (v.isNone = false → m.isNone = false) ∧
      ∀ (before h' : Heap), before.length ≤ h.length →
        (∀ b, h.length ≤ b → b < h.length + new.length → h'[b]? = (h ++ new)[b]?) →
        ∃ r, memberGet f m h' = (.ok r, h') ∧ Gets f v before r h' := by
  cases hf : f.isArray with
  | false =>
    refine ⟨v, [], by simp [memberValue, hf], fun _ => ⟨rfl, rfl⟩, fun h => h, ?_⟩
    intro before h' _ _
    exact ⟨v, memberGet_plain hf v h', by simp [Gets, hf]⟩
  | true =>
    cases hv : v with
    | none =>
      cases ho : f.optional with
      | true =>
        refine ⟨.none, [], by simp [memberValue, hf, ho], (fun h => by cases h), fun h => h, ?_⟩
        intro before h' _ _
        exact ⟨.none, memberGet_none ho h', by simp [Gets, ho]⟩
      | false =>
        refine ⟨.ref (h.length + 1), [.list [], .array (.ref h.length)], ?_, (fun h => by cases h), fun h => by simp [PyVal.isNone] at h, ?_⟩
        · simp [memberValue, hf, ho, M.bind_apply, alloc_apply]
        · intro before h' hb hh
          have h1 := hh h.length (le_refl _) (by simp)
          have h2 := hh (h.length + 1) (by omega) (by simp)
          rw [List.getElem?_append_right (le_refl _), Nat.sub_self] at h1
          rw [List.getElem?_append_right (by omega), show h.length + 1 - h.length = 1 by omega] at h2
          refine ⟨.ref h.length, memberGet_wrapped hf h2, ?_⟩
          simp only [Gets, hf, ho, PyVal.isNone, and_self, if_true]
          exact ⟨h.length, rfl, hb, h1⟩
    | atom u =>
      refine ⟨.ref h.length, [.array (.atom u)], by simp [memberValue, hf, alloc_apply], (fun h => by cases h), fun _ => rfl, ?_⟩
      intro before h' hb hh
      have h1 := hh h.length (le_refl _) (by simp)
      rw [List.getElem?_append_right (le_refl _), Nat.sub_self] at h1
      exact ⟨.atom u, memberGet_wrapped hf h1, by simp [Gets, PyVal.isNone]⟩
    | ref u =>
      refine ⟨.ref h.length, [.array (.ref u)], by simp [memberValue, hf, alloc_apply], (fun h => by cases h), fun _ => rfl, ?_⟩
      intro before h' hb hh
      have h1 := hh h.length (le_refl _) (by simp)
      rw [List.getElem?_append_right (le_refl _), Nat.sub_self] at h1
      exact ⟨.ref u, memberGet_wrapped hf h1, by simp [Gets, PyVal.isNone]⟩

theorem memberValues_spec (fs : List FieldDef) (vs : List PyVal) (hl : fs.length ≤ vs.length) (h : Heap) :
    ∃ ms new, memberValues fs vs h = (.ok ms, h ++ new) ∧ ms.length = fs.length ∧
      ∀ (i : Nat) f v, fs[i]? = some f → vs[i]? = some v → ∃ m, ms[i]? = some m ∧ (f.isArray = false → m = v) ∧
        ∀ (before h' : Heap), before.length ≤ h.length →
          (∀ b, h.length ≤ b → b < h.length + new.length → h'[b]? = (h ++ new)[b]?) →
          ∃ r, memberGet f m h' = (.ok r, h') ∧ Gets f v before r h' := by
  induction fs generalizing vs h with
  | nil => exact ⟨[], [], by simp [memberValues], rfl, by simp⟩
  | cons f fs ih =>
    cases vs with
    | nil => simp at hl
    | cons v vs =>
      obtain ⟨m, n1, e1, p1, -, g1⟩ := memberValue_spec f v h
      obtain ⟨ms, n2, e2, l2, g2⟩ := ih vs (by simpa using hl) (h ++ n1)
      refine ⟨m :: ms, n1 ++ n2, ?_, by simp [l2], ?_⟩
      · simp only [memberValues, M.bind_apply, e1, e2, M.pure_apply, List.append_assoc]
      · intro i f' v' hf hv
        cases i with
        | zero =>
          simp only [List.getElem?_cons_zero, Option.some.injEq] at hf hv
          subst hf hv
          refine ⟨m, rfl, fun h => (p1 h).1, ?_⟩
          intro before h' hb hh
          refine g1 before h' hb fun b hb1 hb2 => ?_
          rw [hh b hb1 (by simp; omega), ← List.append_assoc, List.getElem?_append_left (by simp; omega)]
        | succ i =>
          simp only [List.getElem?_cons_succ] at hf hv
          obtain ⟨m', a1, a2, a3⟩ := g2 i f' v' hf hv
          refine ⟨m', by simpa using a1, a2, ?_⟩
          intro before h' hb hh
          refine a3 before h' (by simp; omega) fun b hb1 hb2 => ?_
          simp only [List.length_append] at hb1 hb2
          rw [hh b (by omega) (by simp; omega), List.append_assoc]

theorem arguments_length (c : Class) (args : List (Option PyVal)) : (arguments c args).length = c.defaults.length := by
  simp [arguments]

theorem arguments_spec {c : Class} {args : List (Option PyVal)} {i : Nat} {v : PyVal} (hi : i < c.defaults.length)
    (h : Argument c args i v) : (arguments c args)[i]? = some v := by
  simp only [arguments, List.getElem?_mapIdx]
  rw [List.getElem?_eq_getElem hi]
  simp only [Option.map_some]
  rcases h with h | ⟨h | h, hd⟩
  · simp [h]
  · rw [List.getElem?_eq_getElem hi] at hd
    cases hd
    simp [h]
  · rw [List.getElem?_eq_getElem hi] at hd
    cases hd
    simp [h]

theorem loadInst_apply {classes : List Class} {h : Heap} {a cls : Nat} {params members : List PyVal} {n : Nat} {t : Int} {c : Class}
    (ha : h[a]? = some (.inst cls params n t members)) (hc : classes[cls]? = some c) :
    loadInst classes (.ref a) h = (.ok (a, cls, c, params, n, t, members), h) := by
  simp [loadInst, M.bind_apply, load_ref ha, hc]

theorem construct_struct {cls : Nat} {c : Class} (hk : c.type.kind = .struct) (hl : c.defaults.length = c.type.fields.length)
    (params : List PyVal) (args : List (Option PyVal)) (h : Heap) :
    ∃ ms new, construct cls c params args h =
        (.ok (.ref (h.length + new.length)),
          h ++ new ++ [.inst cls params (if 0 < c.type.numExtended then c.type.fields.length else 0) (-1) ms]) ∧
      ms.length = c.type.fields.length ∧
      ∀ (i : Nat) f v, c.type.fields[i]? = some f → Argument c args i v → ∃ m, ms[i]? = some m ∧ (f.isArray = false → m = v) ∧
        ∀ (h' : Heap), (∀ b, h.length ≤ b → b < h.length + new.length → h'[b]? = (h ++ new)[b]?) →
          ∃ r, memberGet f m h' = (.ok r, h') ∧ Gets f v h r h' := by
  obtain ⟨ms, new, e, l, g⟩ := memberValues_spec c.type.fields (arguments c args) (by rw [arguments_length]; omega) h
  refine ⟨ms, new, ?_, l, ?_⟩
  · simp only [construct, hk, M.bind_apply, e, alloc_apply, List.length_append]
  · intro i f v hf hv
    have hi := (List.getElem?_eq_some_iff.mp hf).1
    obtain ⟨m, m1, m2, m3⟩ := g i f v hf (arguments_spec (by omega) hv)
    exact ⟨m, m1, m2, fun h' hh => m3 h h' (le_refl _) hh⟩

/-! ### Unions and choices -/

theorem member_kind {k : ClassKind} (h : k ≠ .struct) : k = .union ∨ k = .choice := by
  cases k
  · exact absurd rfl h
  · exact .inl rfl
  · exact .inr rfl

theorem unionMember_none {fs : List FieldDef} {vs : List PyVal} (hv : ∀ v ∈ vs, v.isNone = true) (i : Nat) (tag : Int) (ch : PyVal)
    (h : Heap) : unionMember i fs vs tag ch h = (.ok (tag, ch), h) := by
  induction fs generalizing vs i with
  | nil => simp [unionMember]
  | cons f fs ih =>
    cases vs with
    | nil => simp [unionMember]
    | cons v vs =>
      simp only [unionMember, hv v (by simp), if_true]
      exact ih (fun u hu => hv u (by simp [hu])) (i + 1)

theorem unionMember_one {fs : List FieldDef} {vs : List PyVal} {k : Nat} {f : FieldDef} {v : PyVal} (hf : fs[k]? = some f)
    (hk : vs[k]? = some v) (hv : v.isNone = false) (ho : ∀ (j : Nat) u, j ≠ k → vs[j]? = some u → u.isNone = true) (i : Nat) (ch : PyVal)
    {h h' : Heap} {m : PyVal} (hm : memberValue f v h = (.ok m, h')) :
    unionMember i fs vs (-1) ch h = (.ok (((i + k : Nat) : Int), m), h') := by
  induction fs generalizing vs i k with
  | nil => simp at hf
  | cons g fs ih =>
    cases vs with
    | nil => simp at hk
    | cons u vs =>
      cases k with
      | zero =>
        simp only [List.getElem?_cons_zero, Option.some.injEq] at hf hk
        subst hf hk
        simp only [unionMember, hv, ne_eq, not_true, if_false, M.bind_apply, hm, Bool.false_eq_true]
        rw [unionMember_none]
        · simp
        · intro w hw
          obtain ⟨j, hj⟩ := List.getElem?_of_mem hw
          exact ho (j + 1) w (by omega) (by simpa using hj)
      | succ k =>
        simp only [List.getElem?_cons_succ] at hf hk
        simp only [unionMember, ho 0 u (by omega) (by simp), if_true]
        rw [ih hf hk (fun j w hj hw => ho (j + 1) w (by omega) (by simpa using hw)) (i + 1)]
        congr 4
        omega

theorem unionMember_set {fs : List FieldDef} {vs : List PyVal} {k : Nat} {v : PyVal} (hf : k < fs.length)
    (hk : vs[k]? = some v) (hv : v.isNone = false) (i : Nat) {tag : Int} (ht : tag ≠ -1) (ch : PyVal) (h : Heap) :
    (unionMember i fs vs tag ch h).1 = .error .ambiguous := by
  induction fs generalizing vs i k with
  | nil => simp at hf
  | cons g fs ih =>
    cases vs with
    | nil => simp at hk
    | cons u vs =>
      unfold unionMember
      split
      · next hu =>
        cases k with
        | zero =>
          simp only [List.getElem?_cons_zero, Option.some.injEq] at hk
          subst hk
          rw [hv] at hu; cases hu
        | succ k => exact ih (by simpa using hf) (by simpa using hk) (i + 1)
      · rfl

theorem unionMember_two {fs : List FieldDef} {vs : List PyVal} {j k : Nat} {u v : PyVal} (hjk : j < k) (hf : k < fs.length)
    (hj : vs[j]? = some u) (hu : u.isNone = false) (hk : vs[k]? = some v) (hv : v.isNone = false) (i : Nat) (tag : Int)
    (ch : PyVal) (h : Heap) : (unionMember i fs vs tag ch h).1 = .error .ambiguous := by
  induction fs generalizing vs i j k tag ch h with
  | nil => simp at hf
  | cons g fs ih =>
    cases vs with
    | nil => simp at hk
    | cons w vs =>
      obtain ⟨k, rfl⟩ : ∃ k', k = k' + 1 := ⟨k - 1, by omega⟩
      simp only [List.getElem?_cons_succ] at hk
      unfold unionMember
      split
      · next hw =>
        cases j with
        | zero =>
          simp only [List.getElem?_cons_zero, Option.some.injEq] at hj
          subst hj
          rw [hu] at hw; cases hw
        | succ j => exact ih (j := j) (k := k) (by omega) (by simpa using hf) (by simpa using hj) hk (i + 1) tag ch h
      · split
        · rfl
        · obtain ⟨m, new, e, -⟩ := memberValue_spec g w h
          rw [M.bind_apply, e]
          exact unionMember_set (by simpa using hf) hk hv (i + 1) (tag := (i : Int)) (by omega) m _

theorem choiceMember_none {fs : List FieldDef} {vs : List PyVal} (hv : ∀ v ∈ vs, v.isNone = true) (ch : PyVal) (h : Heap) :
    choiceMember fs vs ch h = (.ok ch, h) := by
  induction fs generalizing vs with
  | nil => simp [choiceMember]
  | cons f fs ih =>
    cases vs with
    | nil => simp [choiceMember]
    | cons v vs =>
      simp only [choiceMember, hv v (by simp), if_true]
      exact ih (fun u hu => hv u (by simp [hu]))

theorem choiceMember_one {fs : List FieldDef} {vs : List PyVal} {k : Nat} {f : FieldDef} {v : PyVal} (hf : fs[k]? = some f)
    (hk : vs[k]? = some v) (hv : v.isNone = false) (ho : ∀ (j : Nat) u, j ≠ k → vs[j]? = some u → u.isNone = true)
    {h h' : Heap} {m : PyVal} (hm : memberValue f v h = (.ok m, h')) :
    choiceMember fs vs .none h = (.ok m, h') := by
  induction fs generalizing vs k with
  | nil => simp at hf
  | cons g fs ih =>
    cases vs with
    | nil => simp at hk
    | cons u vs =>
      cases k with
      | zero =>
        simp only [List.getElem?_cons_zero, Option.some.injEq] at hf hk
        subst hf hk
        simp only [choiceMember, hv, show PyVal.none.isNone = true from rfl, if_false, M.bind_apply, hm, Bool.false_eq_true,
          Bool.not_true]
        rw [choiceMember_none]
        intro w hw
        obtain ⟨j, hj⟩ := List.getElem?_of_mem hw
        exact ho (j + 1) w (by omega) (by simpa using hj)
      | succ k =>
        simp only [List.getElem?_cons_succ] at hf hk
        simp only [choiceMember, ho 0 u (by omega) (by simp), if_true]
        exact ih hf hk (fun j w hj hw => ho (j + 1) w (by omega) (by simpa using hw))

theorem choiceMember_set {fs : List FieldDef} {vs : List PyVal} {k : Nat} {v : PyVal} (hf : k < fs.length)
    (hk : vs[k]? = some v) (hv : v.isNone = false) {ch : PyVal} (ht : ch.isNone = false) (h : Heap) :
    (choiceMember fs vs ch h).1 = .error .ambiguous := by
  induction fs generalizing vs k with
  | nil => simp at hf
  | cons g fs ih =>
    cases vs with
    | nil => simp at hk
    | cons u vs =>
      unfold choiceMember
      split
      · next hu =>
        cases k with
        | zero =>
          simp only [List.getElem?_cons_zero, Option.some.injEq] at hk
          subst hk
          rw [hv] at hu; cases hu
        | succ k => exact ih (by simpa using hf) (by simpa using hk)
      · rw [if_pos (by simp [ht])]
        rfl

theorem choiceMember_two {fs : List FieldDef} {vs : List PyVal} {j k : Nat} {u v : PyVal} (hjk : j < k) (hf : k < fs.length)
    (hj : vs[j]? = some u) (hu : u.isNone = false) (hk : vs[k]? = some v) (hv : v.isNone = false)
    (ch : PyVal) (h : Heap) : (choiceMember fs vs ch h).1 = .error .ambiguous := by
  induction fs generalizing vs j k ch h with
  | nil => simp at hf
  | cons g fs ih =>
    cases vs with
    | nil => simp at hk
    | cons w vs =>
      obtain ⟨k, rfl⟩ : ∃ k', k = k' + 1 := ⟨k - 1, by omega⟩
      simp only [List.getElem?_cons_succ] at hk
      unfold choiceMember
      split
      · next hw =>
        cases j with
        | zero =>
          simp only [List.getElem?_cons_zero, Option.some.injEq] at hj
          subst hj
          rw [hu] at hw; cases hw
        | succ j => exact ih (j := j) (k := k) (by omega) (by simpa using hf) (by simpa using hj) hk ch h
      · next hw =>
        split
        · rfl
        · obtain ⟨m, new, e, -, hm, -⟩ := memberValue_spec g w h
          rw [M.bind_apply, e]
          exact choiceMember_set (by simpa using hf) hk hv (hm (by simpa using hw)) _

/-- the arguments of the constructor of a union or choice -/
theorem arguments_member {d : ClassDef} {c : Class} (hok : ClassOk d c) (hk : d.kind ≠ .struct) {args : List (Option PyVal)}
    {i : Nat} (hi : i < d.fields.length) :
    (arguments c args)[i]? = some (match args[i]? with | some (some v) => v | _ => PyVal.none) := by
  have hd := hok.none hk i hi
  rcases ha : args[i]? with _ | _ | v
  · exact arguments_spec (by rw [hok.length]; exact hi) (.inr ⟨.inl ha, hd⟩)
  · exact arguments_spec (by rw [hok.length]; exact hi) (.inr ⟨.inr ha, hd⟩)
  · exact arguments_spec (by rw [hok.length]; exact hi) (.inl ha)

end Zserio.Objects
