import Verif.Lemmas.ObjectFields
set_option linter.unusedSimpArgs false
/-
Objects: what belongs to whom (C77), and what constructors, getters and setters do (C78).
-/
namespace Zserio.Objects

/-! ### Examples -/

/-- a structure with an integer, an array, an optional string and a `bytes` field, and one without `bytes` field -/
def demoDefs : List ClassDef :=
  [⟨.struct, [{ type := .builtin (.int 0) }, { type := .other, isArray := true },
     { type := .builtin (.str []), optional := true }, { type := .bytes }]⟩,
   ⟨.struct, [{ type := .builtin (.int 0), initializer := some (.int 7) }, { type := .other, isArray := true },
     { type := .builtin (.int 0), extended := true }, { type := .builtin (.str []), optional := true, extended := true }]⟩,
   ⟨.union, [{ type := .builtin (.int 0) }, { type := .other, isArray := true }]⟩]

/-- `a = D(); b = D()` for the class without `bytes` field -/
def demoTwo : List Stmt := [.construct 0 1 [] [], .construct 1 1 [] []]

/-- `l = a.array; x = 5; l.append(x); a.field = x` -/
def demoChange : List Stmt := [.get 2 0 1, .const 3 (.int 5), .append 2 3, .set 0 0 3]

/-! ### C77 -/

/-- C77 (part): From a state reached by a program, a second program runs which uses only the variables in a set.  If the variables
inside and outside of the set share no objects, then whatever the second program does (it constructs and reads objects, gets and sets
their fields, changes lists and bytearrays), nothing changes for the variables outside of the set: along every path, the same is
seen.  Excluded are calls of constructors which leave a field of type `bytes` to its default value. -/
theorem C77_separate_partial (defs : List ClassDef) (first second : List Stmt) (X : Nat → Prop)
    (hsep : Separate X (run (imported defs) (start defs) first)) (hv : ∀ s ∈ second, ∀ x ∈ s.vars, X x)
    (he : ∀ s ∈ second, s.Explicit defs) (y : Nat) (hy : ¬X y) (path : List Nat) :
    see (run (imported defs) (start defs) (first ++ second)).heap path
        ((run (imported defs) (start defs) (first ++ second)).env y) =
      see (run (imported defs) (start defs) first).heap path ((run (imported defs) (start defs) first).env y) := by
  rw [run_append]
  exact (run_separate (run_wf (start_wf defs) first) hsep hv he).2 y hy path

/-- C77 (part): Objects which are created apart stay apart.  In a program each of whose statements uses only variables inside or only
variables outside of a set, the two sides never share an object. -/
theorem C77_apart_partial (defs : List ClassDef) (p : List Stmt) (X : Nat → Prop)
    (hv : ∀ s ∈ p, (∀ x ∈ s.vars, X x) ∨ ∀ x ∈ s.vars, ¬X x) (he : ∀ s ∈ p, s.Explicit defs) :
    Separate X (run (imported defs) (start defs) p) := by
  have hstart : Separate X (start defs) := by
    intro x y a _ _ h
    cases h
  have key : ∀ (p : List Stmt) (w : World), w.WF defs → Separate X w →
      (∀ s ∈ p, (∀ x ∈ s.vars, X x) ∨ ∀ x ∈ s.vars, ¬X x) → (∀ s ∈ p, s.Explicit defs) →
      Separate X (run (imported defs) w p) := by
    intro p
    induction p with
    | nil => intro w _ h _ _; exact h
    | cons s p ih =>
      intro w hw hs hv he
      refine ih _ (step_wf hw s) ?_ (fun t ht => hv t (by simp [ht])) (fun t ht => he t (by simp [ht]))
      rcases hv s (by simp) with h | h
      · exact (step_separate hw hs h (he s (by simp))).1
      · have := (step_separate hw hs.compl h (he s (by simp))).1.compl
        intro x y a hx hy
        exact this x y a (by simpa using hx) (by simpa using hy)
  exact key p _ (start_wf defs) hstart hv he

/-- C77 does not hold: the default value of an argument for a field of type `bytes` is created once, with the class.  Any two calls
of the constructor which do not give a value to the field, at any two points of any program, create objects which refer to the
same bytearray. -/
theorem C77_shared (defs : List ClassDef) (cls : Nat) (d : ClassDef) (i : Nat) (hd : defs[cls]? = some d)
    (hs : SharedDefault d i) :
    ∃ a, ∀ (w : World) (x : Nat) (params : List Nat) (args : List (Option Nat)), (args[i]? = none ∨ args[i]? = some none) →
      Reach (step (imported defs) w (.construct x cls params args)).heap
        ((step (imported defs) w (.construct x cls params args)).env x) a := by
  obtain ⟨c, hc, hok⟩ := imported_of hd
  obtain ⟨hk, f, hf, hfa, hfo, hfi, hft⟩ := hs
  have hi := (List.getElem?_eq_some_iff.mp hf).1
  obtain ⟨v, ha, hv⟩ := hok.values hk i f hf
  simp only [FieldDef.Default, hfi, hfo, hfa, hft, Bool.false_eq_true, or_self, if_false] at hv
  obtain ⟨a, rfl⟩ := hv
  refine ⟨a, ?_⟩
  intro w x params args hargs
  obtain ⟨ms, new, e, l, g⟩ := construct_struct (cls := cls) (c := c) (by rw [hok.type]; exact hk)
    (by rw [hok.length, hok.type]) (params.map w.env) (args.map (·.map w.env)) w.heap
  obtain ⟨m, m1, m2, -⟩ := g i f (.ref a) (by rw [hok.type]; exact hf) (.inr ⟨by
    rcases hargs with h | h
    · exact .inl (by simp [h])
    · exact .inr (by simp [h]), ha⟩)
  simp only [step, hc, World.bindVar, e, if_true]
  refine .part (v := m) (getElem?_last _ _ _) ?_ ?_
  · simp only [Cell.parts, List.mem_append]
    exact .inr (List.mem_of_getElem? m1)
  · rw [m2 hfa]
    exact .here a

/-- A program in which this is seen: `a = T(); b = T(); d = a.data; d.extend([1, 2])`, and then `b.data` is not empty any more, nor is
`c.data` after `c = T()`. -/
theorem C77_counterexample :
    let classes := imported demoDefs
    let apart := run classes (start demoDefs) [.construct 0 0 [] [], .construct 1 0 [] []]
    let changed := run classes apart [.get 2 0 3, .extend 2 [1, 2]]
    see apart.heap [3] (apart.env 1) = some (.bytearray []) ∧
      see changed.heap [3] (changed.env 1) = some (.bytearray [1, 2]) ∧
      see (step classes changed (.construct 4 0 [] [])).heap [3] ((step classes changed (.construct 4 0 [] [])).env 4) =
        some (.bytearray [1, 2]) := ⟨rfl, rfl, rfl⟩

/-- the theorem applies to two objects created with default values … -/
example : Separate (· ≠ 1) (run (imported demoDefs) (start demoDefs) demoTwo) := by
  refine C77_apart_partial demoDefs demoTwo (· ≠ 1) (by simp [demoTwo, Stmt.vars]) ?_
  intro s hs
  simp only [demoTwo, List.mem_cons, List.not_mem_nil, or_false] at hs
  rcases hs with rfl | rfl <;>
  · intro c i hc hsd
    simp only [demoDefs, List.getElem?_cons_succ, List.getElem?_cons_zero, Option.some.injEq] at hc
    subst hc
    obtain ⟨-, f, hf, -, -, -, ht⟩ := hsd
    rcases i with _ | _ | _ | _ | i <;> simp at hf <;> subst hf <;> cases ht

/-- … the second program changes one of them … -/
example : see (run (imported demoDefs) (start demoDefs) (demoTwo ++ demoChange)).heap [1, 0, 0]
      ((run (imported demoDefs) (start demoDefs) (demoTwo ++ demoChange)).env 0) = some (.atom (.int 5)) ∧
    see (run (imported demoDefs) (start demoDefs) (demoTwo ++ demoChange)).heap [0]
      ((run (imported demoDefs) (start demoDefs) (demoTwo ++ demoChange)).env 0) = some (.atom (.int 5)) := ⟨rfl, rfl⟩

/-- … and the other one stays as it is -/
example : see (run (imported demoDefs) (start demoDefs) (demoTwo ++ demoChange)).heap [1, 0]
      ((run (imported demoDefs) (start demoDefs) (demoTwo ++ demoChange)).env 1) = some (.list 0) ∧
    see (run (imported demoDefs) (start demoDefs) (demoTwo ++ demoChange)).heap [0]
      ((run (imported demoDefs) (start demoDefs) (demoTwo ++ demoChange)).env 1) = some (.atom (.int 7)) := ⟨rfl, rfl⟩

example : SharedDefault ⟨.struct, [{ type := .builtin (.int 0) }, { type := .other, isArray := true },
    { type := .builtin (.str []), optional := true }, { type := .bytes }]⟩ 3 := ⟨rfl, _, rfl, rfl, rfl, rfl, rfl⟩

/-! ### C78 -/

/-- C78, constructors of structures: the getter of each field returns the argument for the field, or the default value if none is
given; a new, empty list stands for an array which is not optional.  All extended fields are present, the getters of the
parameters return the arguments for them, and no existing object is changed. -/
theorem C78_construct (defs : List ClassDef) (cls : Nat) (d : ClassDef) (hd : defs[cls]? = some d) (hk : d.kind = .struct)
    (c : Class) (hc : (imported defs)[cls]? = some c) (params : List PyVal) (args : List (Option PyVal)) (h : Heap) :
    ∃ o h', construct cls c params args h = (.ok o, h') ∧ (∀ (a : Nat) cell, h[a]? = some cell → h'[a]? = some cell) ∧
      (∀ (i : Nat) f v, d.fields[i]? = some f → Argument c args i v →
        ∃ r, getField (imported defs) o i h' = (.ok r, h') ∧ Gets f v h r h') ∧
      (∀ (i : Nat) f, d.fields[i]? = some f → ∃ v, Argument c args i v ∧ ((∀ u, args[i]? ≠ some (some u)) → f.Default v)) ∧
      (∀ (i : Nat) f, d.fields[i]? = some f → f.extended = true → isFieldPresent (imported defs) o i h' = (.ok true, h')) ∧
      ∀ (i : Nat) p, params[i]? = some p → getParam (imported defs) o i h' = (.ok p, h') := by
  obtain ⟨d', hd', hok⟩ := imported_ok hc
  rw [hd] at hd'
  cases hd'
  obtain ⟨ms, new, e, l, g⟩ := construct_struct (cls := cls) (c := c) (by rw [hok.type]; exact hk)
    (by rw [hok.length, hok.type]) params args h
  rw [hok.type] at e l g
  refine ⟨_, _, e, ?_, ?_, ?_, ?_, ?_⟩
  · intro a cell ha
    have := (List.getElem?_eq_some_iff.mp ha).1
    rw [List.getElem?_append_left (by simp; omega), List.getElem?_append_left this, ha]
  · intro i f v hf hv
    obtain ⟨m, m1, -, m3⟩ := g i f v hf hv
    obtain ⟨r, r1, r2⟩ := m3
      (h ++ new ++ [.inst cls params (if 0 < d.numExtended then d.fields.length else 0) (-1) ms])
      (fun b hb1 hb2 => List.getElem?_append_left (by simp; omega))
    refine ⟨r, ?_, r2⟩
    rw [getField, M.bind_apply, loadInst_apply (getElem?_last _ _ _) hc]
    simp only [hok.type, slot, hk, if_true, hf, m1]
    exact r1
  · intro i f hf
    obtain ⟨v, v1, v2⟩ := hok.values hk i f hf
    rcases ha : args[i]? with _ | _ | u
    · exact ⟨v, .inr ⟨.inl ha, v1⟩, fun _ => v2⟩
    · exact ⟨v, .inr ⟨.inr ha, v1⟩, fun _ => v2⟩
    · exact ⟨u, .inl ha, fun hn => absurd rfl (hn u)⟩
  · intro i f hf he
    have hi := (List.getElem?_eq_some_iff.mp hf).1
    have hpos : 0 < d.numExtended := List.countP_pos_iff.mpr ⟨f, List.mem_of_getElem? hf, he⟩
    rw [isFieldPresent, M.bind_apply, loadInst_apply (getElem?_last _ _ _) hc]
    simp only [hok.type, hf, he, if_true, M.pure_apply, hpos, ClassDef.isPresent, ClassDef.extIndex]
    simp
    omega
  · intro i p hp
    rw [getParam, M.bind_apply, loadInst_apply (getElem?_last _ _ _) hc]
    simp only [hp, M.pure_apply]

/-- C78, setters of structures: in a state reached by a program, the getter of the field then returns the value, all other getters
return what they returned before, and other objects are not changed.  If the field is an extended one which was not present, all
extended fields are present afterwards; otherwise presence does not change. -/
theorem C78_set (defs : List ClassDef) (p : List Stmt) (w : World) (hw : w = run (imported defs) (start defs) p) (x a cls : Nat)
    (params members : List PyVal) (n : Nat) (t : Int) (hx : w.env x = .ref a)
    (ha : w.heap[a]? = some (.inst cls params n t members)) (d : ClassDef) (hd : defs[cls]? = some d) (hk : d.kind = .struct)
    (hm : members.length = d.fields.length) (i : Nat) (f : FieldDef) (hf : d.fields[i]? = some f) (v : PyVal) :
    ∃ h', setField (imported defs) (w.env x) i v w.heap = (.ok (), h') ∧
      (∃ r, getField (imported defs) (w.env x) i h' = (.ok r, h') ∧ Gets f v w.heap r h') ∧
      (∀ j, j ≠ i → (getField (imported defs) (w.env x) j h').1 = (getField (imported defs) (w.env x) j w.heap).1) ∧
      (∀ b, b < w.heap.length → b ≠ a → h'[b]? = w.heap[b]?) ∧
      (∀ (j : Nat) g, d.fields[j]? = some g → g.extended = true → ∃ before,
        isFieldPresent (imported defs) (w.env x) j w.heap = (.ok before, w.heap) ∧
        ∃ present, isFieldPresent (imported defs) (w.env x) i w.heap = (if f.extended then .ok present else .error .type, w.heap) ∧
          isFieldPresent (imported defs) (w.env x) j h' = (.ok (before || (f.extended && !present)), h')) := by
  obtain ⟨c, hc, hok⟩ := imported_of hd
  have hwf := run_wf (start_wf defs) p
  rw [← hw] at hwf
  have halt := (List.getElem?_eq_some_iff.mp ha).1
  have hi := (List.getElem?_eq_some_iff.mp hf).1
  obtain ⟨m, new, e, -, -, g⟩ := memberValue_spec f v w.heap
  have hin : ∀ u ∈ members, u.In (· < w.heap.length) := by
    obtain ⟨c', h1, h2⟩ := hwf.1 a halt
    rw [ha] at h1
    cases h1
    exact fun u hu => h2 u (by simp [Cell.parts, hu])
  rw [hx]
  let h' : Heap := (w.heap ++ new).set a (.inst cls params (d.touch f n i) t (members.set i m))
  have hset : setField (imported defs) (.ref a) i v w.heap = (.ok (), h') := by
    simp only [setField, M.bind_apply, loadInst_apply ha hc, hok.type, hf, e, hk, store, h']
  have ha' : h'[a]? = some (.inst cls params (d.touch f n i) t (members.set i m)) := by
    simp only [h']
    rw [List.getElem?_set_self (by simp; omega)]
  have hother : ∀ b, b ≠ a → h'[b]? = (w.heap ++ new)[b]? := by
    intro b hb
    simp only [h']
    rw [List.getElem?_set_ne (Ne.symm hb)]
  refine ⟨h', hset, ?_, ?_, ?_, ?_⟩
  · obtain ⟨r, r1, r2⟩ := g w.heap h' (le_refl _) (fun b hb1 hb2 => hother b (by omega))
    refine ⟨r, ?_, r2⟩
    rw [getField, M.bind_apply, loadInst_apply ha' hc]
    simp only [hok.type, slot, hk, if_true, hf]
    rw [List.getElem?_set_self (by omega)]
    exact r1
  · intro j hj
    rw [getField, M.bind_apply, loadInst_apply ha' hc, M.bind_apply, loadInst_apply ha hc]
    simp only [hok.type, slot, hk, if_true]
    rw [List.getElem?_set_ne (Ne.symm hj)]
    rcases hg : d.fields[j]? with _ | g
    · rfl
    · rcases hmj : members[j]? with _ | u
      · rfl
      · simp only
        have hu := hin u (List.mem_of_getElem? hmj)
        unfold memberGet
        split
        · split
          · rfl
          · simp only [rawArray, M.bind_apply]
            cases u with
            | none => rfl
            | atom u => rfl
            | ref b =>
              have hb : b < w.heap.length := hu
              by_cases hba : b = a
              · subst hba
                rw [load_ref ha, load_ref ha']
                rfl
              · have : h'[b]? = w.heap[b]? := by rw [hother b hba, List.getElem?_append_left hb]
                have h1 : h'[b]? = some w.heap[b] := by rw [this, List.getElem?_eq_getElem hb]
                rw [load_ref (List.getElem?_eq_getElem hb), load_ref h1]
                cases w.heap[b] <;> rfl
        · rfl
  · intro b hb hba
    rw [hother b hba, List.getElem?_append_left hb]
  · intro j g hg hge
    have hj := (List.getElem?_eq_some_iff.mp hg).1
    have hpos : 0 < d.numExtended := List.countP_pos_iff.mpr ⟨g, List.mem_of_getElem? hg, hge⟩
    have hle : d.numExtended ≤ d.fields.length := List.countP_le_length
    refine ⟨d.isPresent n j, ?_, d.isPresent n i, ?_, ?_⟩
    · simp only [isFieldPresent, M.bind_apply, loadInst_apply ha hc, hok.type, hg, hge, if_true, M.pure_apply]
    · simp only [isFieldPresent, M.bind_apply, loadInst_apply ha hc, hok.type, hf]
      split <;> rfl
    · simp only [isFieldPresent, M.bind_apply, loadInst_apply ha' hc, hok.type, hg, hge, if_true, M.pure_apply]
      congr 2
      unfold ClassDef.touch
      cases hfe : f.extended with
      | false => simp
      | true =>
        cases hp : d.isPresent n i with
        | true => simp
        | false =>
          have : d.isPresent d.numExtended j = true := by
            have hlt : d.extIndex j < d.numExtended := by
              unfold ClassDef.extIndex
              omega
            exact decide_eq_true hlt
          simp [this]

/-- C78, resetters: the optional field is `None` and not set afterwards. -/
theorem C78_reset (defs : List ClassDef) (h : Heap) (a cls : Nat) (params members : List PyVal) (n : Nat) (t : Int)
    (ha : h[a]? = some (.inst cls params n t members)) (d : ClassDef) (hd : defs[cls]? = some d) (hk : d.kind = .struct)
    (hm : members.length = d.fields.length) (i : Nat) (f : FieldDef) (hf : d.fields[i]? = some f) (ho : f.optional = true) :
    ∃ h', resetField (imported defs) (.ref a) i h = (.ok (), h') ∧ getField (imported defs) (.ref a) i h' = (.ok .none, h') ∧
      isSet (imported defs) (.ref a) i h' = (.ok false, h') ∧ (∀ b, b ≠ a → h'[b]? = h[b]?) := by
  obtain ⟨c, hc, hok⟩ := imported_of hd
  have halt := (List.getElem?_eq_some_iff.mp ha).1
  have hi := (List.getElem?_eq_some_iff.mp hf).1
  let h' : Heap := h.set a (.inst cls params (d.touch f n i) t (members.set i .none))
  have ha' : h'[a]? = some (.inst cls params (d.touch f n i) t (members.set i .none)) := by
    simp only [h']
    rw [List.getElem?_set_self halt]
  refine ⟨h', ?_, ?_, ?_, ?_⟩
  · simp only [resetField, M.bind_apply, loadInst_apply ha hc, hok.type, hf, hk, ho, and_self, if_true, store, h']
  · rw [getField, M.bind_apply, loadInst_apply ha' hc]
    simp only [hok.type, slot, hk, if_true, hf]
    rw [List.getElem?_set_self (by omega)]
    exact memberGet_none ho h'
  · rw [isSet, M.bind_apply, loadInst_apply ha' hc]
    simp only [hok.type, hk, hf]
    rw [List.getElem?_set_self (by omega)]
    simp [ho, PyVal.isNone]
  · intro b hb
    simp only [h']
    rw [List.getElem?_set_ne (Ne.symm hb)]

/-- C78: a field which is assigned a value other than `None` is set. -/
theorem C78_isSet (defs : List ClassDef) (h : Heap) (a cls : Nat) (params members : List PyVal) (n : Nat) (t : Int)
    (ha : h[a]? = some (.inst cls params n t members)) (d : ClassDef) (hd : defs[cls]? = some d) (hk : d.kind = .struct)
    (hm : members.length = d.fields.length) (i : Nat) (f : FieldDef) (hf : d.fields[i]? = some f) (ho : f.optional = true)
    (v : PyVal) :
    ∃ h', setField (imported defs) (.ref a) i v h = (.ok (), h') ∧
      isSet (imported defs) (.ref a) i h' = (.ok !v.isNone, h') := by
  obtain ⟨c, hc, hok⟩ := imported_of hd
  have halt := (List.getElem?_eq_some_iff.mp ha).1
  have hi := (List.getElem?_eq_some_iff.mp hf).1
  obtain ⟨m, new, e, -, hmn, -⟩ := memberValue_spec f v h
  have hmn' : m.isNone = v.isNone := by
    cases hv : v.isNone with
    | false => exact hmn hv
    | true =>
      cases v with
      | none =>
        have : memberValue f .none h = (.ok .none, h) := by
          unfold memberValue
          split
          · simp [ho]
          · rfl
        rw [this] at e
        simp only [Prod.mk.injEq, Except.ok.injEq] at e
        rw [← e.1]
        rfl
      | atom u => cases hv
      | ref u => cases hv
  let h' : Heap := (h ++ new).set a (.inst cls params (d.touch f n i) t (members.set i m))
  have ha' : h'[a]? = some (.inst cls params (d.touch f n i) t (members.set i m)) := by
    simp only [h']
    rw [List.getElem?_set_self (by simp; omega)]
  refine ⟨h', ?_, ?_⟩
  · simp only [setField, M.bind_apply, loadInst_apply ha hc, hok.type, hf, e, hk, store, h']
  · rw [isSet, M.bind_apply, loadInst_apply ha' hc]
    simp only [hok.type, hk, hf]
    rw [List.getElem?_set_self (by omega)]
    simp [ho, hmn']

/-- C78, setters of unions and choices: the getter of the field returns the value, and for a union the choice tag is the number of
the field. -/
theorem C78_member_set (defs : List ClassDef) (h : Heap) (a cls : Nat) (params members : List PyVal) (n : Nat) (t : Int)
    (ha : h[a]? = some (.inst cls params n t members)) (d : ClassDef) (hd : defs[cls]? = some d) (hk : d.kind ≠ .struct)
    (i : Nat) (f : FieldDef) (hf : d.fields[i]? = some f) (v : PyVal) :
    ∃ h', setField (imported defs) (.ref a) i v h = (.ok (), h') ∧
      (∃ r, getField (imported defs) (.ref a) i h' = (.ok r, h') ∧ Gets f v h r h') ∧
      (d.kind = .union → choiceTag (imported defs) (.ref a) h' = (.ok (i : Int), h')) ∧
      (∀ b, b < h.length → b ≠ a → h'[b]? = h[b]?) := by
  obtain ⟨c, hc, hok⟩ := imported_of hd
  have halt := (List.getElem?_eq_some_iff.mp ha).1
  obtain ⟨m, new, e, -, -, g⟩ := memberValue_spec f v h
  have key : ∀ t' : Int, (d.kind = .union → t' = i) →
      setField (imported defs) (.ref a) i v h = (.ok (), (h ++ new).set a (.inst cls params n t' [m])) →
      ∃ h', setField (imported defs) (.ref a) i v h = (.ok (), h') ∧
      (∃ r, getField (imported defs) (.ref a) i h' = (.ok r, h') ∧ Gets f v h r h') ∧
      (d.kind = .union → choiceTag (imported defs) (.ref a) h' = (.ok (i : Int), h')) ∧
      (∀ b, b < h.length → b ≠ a → h'[b]? = h[b]?) := by
    intro t' ht' hset
    have ha' : ((h ++ new).set a (.inst cls params n t' [m]))[a]? = some (.inst cls params n t' [m]) := by
      rw [List.getElem?_set_self (by simp; omega)]
    have hother : ∀ b, b ≠ a → ((h ++ new).set a (.inst cls params n t' [m]))[b]? = (h ++ new)[b]? := by
      intro b hb
      rw [List.getElem?_set_ne (Ne.symm hb)]
    refine ⟨_, hset, ?_, ?_, ?_⟩
    · obtain ⟨r, r1, r2⟩ := g h ((h ++ new).set a (.inst cls params n t' [m])) (le_refl _)
        (fun b hb1 hb2 => hother b (by omega))
      refine ⟨r, ?_, r2⟩
      rw [getField, M.bind_apply, loadInst_apply ha' hc]
      simp only [hok.type, slot, hk, if_false, hf, List.getElem?_cons_zero]
      exact r1
    · intro hu
      rw [choiceTag, M.bind_apply, loadInst_apply ha' hc]
      simp only [hok.type, hu, if_true, M.pure_apply, ht' hu]
    · intro b hb hba
      rw [hother b hba, List.getElem?_append_left hb]
  rcases (member_kind hk) with hkind | hkind
  · exact key i (fun _ => rfl) (by simp only [setField, M.bind_apply, loadInst_apply ha hc, hok.type, hf, e, hkind, store])
  · exact key t (fun h => by rw [hkind] at h; cases h)
      (by simp only [setField, M.bind_apply, loadInst_apply ha hc, hok.type, hf, e, hkind, store])

/-- C78, constructors of unions and choices: if exactly one argument is given which is not `None`, the getter of that field returns
it, and for a union the choice tag is the number of the field. -/
theorem C78_construct_member (defs : List ClassDef) (cls : Nat) (d : ClassDef) (hd : defs[cls]? = some d) (hk : d.kind ≠ .struct)
    (c : Class) (hc : (imported defs)[cls]? = some c) (params : List PyVal) (args : List (Option PyVal)) (h : Heap)
    (i : Nat) (f : FieldDef) (hf : d.fields[i]? = some f) (v : PyVal) (hi : args[i]? = some (some v)) (hv : v.isNone = false)
    (ho : ∀ (j : Nat) u, j ≠ i → args[j]? = some (some u) → u.isNone = true) :
    ∃ o h', construct cls c params args h = (.ok o, h') ∧ (∀ (a : Nat) cell, h[a]? = some cell → h'[a]? = some cell) ∧
      getField (imported defs) o i h' = (.ok v, h') ∧
      (d.kind = .union → choiceTag (imported defs) o h' = (.ok (i : Int), h')) := by
  obtain ⟨d', hd', hok⟩ := imported_ok hc
  rw [hd] at hd'
  cases hd'
  have hil := (List.getElem?_eq_some_iff.mp hf).1
  obtain ⟨m, new, e, -, -, g⟩ := memberValue_spec f v h
  have hai : (arguments c args)[i]? = some v := by rw [arguments_member hok hk hil, hi]
  have hao : ∀ (j : Nat) u, j ≠ i → (arguments c args)[j]? = some u → u.isNone = true := by
    intro j u hj hu
    have hjl : j < d.fields.length := by
      have := (List.getElem?_eq_some_iff.mp hu).1
      rwa [arguments_length, hok.length] at this
    rw [arguments_member hok hk hjl] at hu
    cases hu
    split
    · next w hw => exact ho j w hj hw
    · rfl
  have key : ∀ t : Int, (d.kind = .union → t = i) →
      construct cls c params args h = (.ok (.ref (h.length + new.length)), h ++ new ++ [.inst cls params 0 t [m]]) →
      ∃ o h', construct cls c params args h = (.ok o, h') ∧ (∀ (a : Nat) cell, h[a]? = some cell → h'[a]? = some cell) ∧
        getField (imported defs) o i h' = (.ok v, h') ∧
        (d.kind = .union → choiceTag (imported defs) o h' = (.ok (i : Int), h')) := by
    intro t ht hcon
    refine ⟨_, _, hcon, ?_, ?_, ?_⟩
    · intro a cell ha
      have := (List.getElem?_eq_some_iff.mp ha).1
      rw [List.getElem?_append_left (by simp; omega), List.getElem?_append_left this, ha]
    · obtain ⟨r, r1, r2⟩ := g h (h ++ new ++ [.inst cls params 0 t [m]]) (le_refl _)
        (fun b hb1 hb2 => List.getElem?_append_left (by simp; omega))
      have hr : r = v := by simpa [Gets, hv] using r2
      rw [getField, M.bind_apply, loadInst_apply (getElem?_last _ _ _) hc]
      simp only [hok.type, slot, hk, if_false, hf, List.getElem?_cons_zero]
      rw [r1, hr]
    · intro hu
      rw [choiceTag, M.bind_apply, loadInst_apply (getElem?_last _ _ _) hc]
      simp only [hok.type, hu, if_true, M.pure_apply, ht hu]
  rcases (member_kind hk) with hkind | hkind
  · refine key i (fun _ => rfl) ?_
    simp only [construct, hok.type, hkind, M.bind_apply, unionMember_one hf hai hv hao 0 .none e, alloc_apply, List.length_append,
      Nat.zero_add]
  · refine key (-1) (fun h => by rw [hkind] at h; cases h) ?_
    simp only [construct, hok.type, hkind, M.bind_apply, choiceMember_one hf hai hv hao e, alloc_apply, List.length_append]

/-- C78, constructors of unions and choices: two arguments which are not `None` are refused. -/
theorem C78_construct_ambiguous (defs : List ClassDef) (cls : Nat) (d : ClassDef) (hd : defs[cls]? = some d) (hk : d.kind ≠ .struct)
    (c : Class) (hc : (imported defs)[cls]? = some c) (params : List PyVal) (args : List (Option PyVal)) (h : Heap)
    (i j : Nat) (hij : i < j) (hj : j < d.fields.length) (u v : PyVal) (hu : args[i]? = some (some u)) (hv : args[j]? = some (some v))
    (hun : u.isNone = false) (hvn : v.isNone = false) : (construct cls c params args h).1 = .error .ambiguous := by
  obtain ⟨d', hd', hok⟩ := imported_ok hc
  rw [hd] at hd'
  cases hd'
  have hai : (arguments c args)[i]? = some u := by rw [arguments_member hok hk (by omega), hu]
  have haj : (arguments c args)[j]? = some v := by rw [arguments_member hok hk hj, hv]
  rcases (member_kind hk) with hkind | hkind
  · have h1 := unionMember_two hij hj hai hun haj hvn 0 (-1) .none h
    rcases h2 : unionMember 0 d.fields (arguments c args) (-1) .none h with ⟨r, h'⟩
    rw [h2] at h1
    simp only at h1
    subst h1
    simp only [construct, hok.type, hkind, M.bind_apply, h2]
  · have h1 := choiceMember_two hij hj hai hun haj hvn .none h
    rcases h2 : choiceMember d.fields (arguments c args) .none h with ⟨r, h'⟩
    rw [h2] at h1
    simp only at h1
    subst h1
    simp only [construct, hok.type, hkind, M.bind_apply, h2]

/-- C78, constructors of unions without arguments: the choice tag is `UNDEFINED_CHOICE`. -/
theorem C78_construct_empty (defs : List ClassDef) (cls : Nat) (d : ClassDef) (hd : defs[cls]? = some d) (hk : d.kind = .union)
    (c : Class) (hc : (imported defs)[cls]? = some c) (params : List PyVal) (h : Heap) :
    ∃ o h', construct cls c params [] h = (.ok o, h') ∧ choiceTag (imported defs) o h' = (.ok (-1), h') := by
  obtain ⟨d', hd', hok⟩ := imported_ok hc
  rw [hd] at hd'
  cases hd'
  have hk' : d.kind ≠ .struct := by rw [hk]; intro h; cases h
  have hall : ∀ v ∈ arguments c [], v.isNone = true := by
    intro v hv
    obtain ⟨i, hi⟩ := List.getElem?_of_mem hv
    have hil : i < d.fields.length := by
      have := (List.getElem?_eq_some_iff.mp hi).1
      rwa [arguments_length, hok.length] at this
    rw [arguments_member hok hk' hil] at hi
    simp only [List.getElem?_nil, Option.some.injEq] at hi
    rw [← hi]
    rfl
  refine ⟨.ref h.length, h ++ [.inst cls params 0 (-1) [.none]], ?_, ?_⟩
  · simp only [construct, hok.type, hk, M.bind_apply, unionMember_none hall, alloc_apply]
  · have hcell : (h ++ [Cell.inst cls params 0 (-1) [.none]])[h.length]? = some (.inst cls params 0 (-1) [.none]) := by simp
    rw [choiceTag, M.bind_apply, loadInst_apply hcell hc]
    simp only [hok.type, hk, if_true, M.pure_apply]

/-- The getters of unions and choices do not check which member is selected: the getter of any other field which is not an array
returns the value of the selected one. -/
theorem C78_other_member (defs : List ClassDef) (h : Heap) (a cls : Nat) (params : List PyVal) (n : Nat) (t : Int) (m : PyVal)
    (ha : h[a]? = some (.inst cls params n t [m])) (d : ClassDef) (hd : defs[cls]? = some d) (hk : d.kind ≠ .struct)
    (j : Nat) (f : FieldDef) (hf : d.fields[j]? = some f) (hfa : f.isArray = false) :
    getField (imported defs) (.ref a) j h = (.ok m, h) := by
  obtain ⟨c, hc, hok⟩ := imported_of hd
  rw [getField, M.bind_apply, loadInst_apply ha hc]
  simp only [hok.type, slot, hk, if_false, hf, List.getElem?_cons_zero]
  exact memberGet_plain hfa m h

/-! ### Examples for C78 -/

/-- the class of the examples below -/
example : ∃ c, (imported demoDefs)[1]? = some c ∧ c.defaults = [.atom (.int 7), .none, .atom (.int 0), .none] := ⟨_, rfl, rfl⟩

/-- `T(field=5)`: the value given, a new list for the array, and default values -/
example : (run (imported demoDefs) (start demoDefs) [.const 0 (.int 5), .construct 1 1 [] [some 0]]).env 1 = .ref 3 ∧
    (run (imported demoDefs) (start demoDefs) [.const 0 (.int 5), .construct 1 1 [] [some 0]]).heap[3]? =
      some (.inst 1 [] 4 (-1) [.atom (.int 5), .ref 2, .atom (.int 0), .none]) ∧
    (run (imported demoDefs) (start demoDefs) [.const 0 (.int 5), .construct 1 1 [] [some 0]]).heap[1]? = some (.list []) := ⟨rfl, rfl, rfl⟩

/-- an object read from a stream without the extended fields: one of them is set, and both are present -/
example :
    let w := run (imported demoDefs) (start demoDefs)
      [.read 0 (.obj 1 [] 0 (-1) [.atom (.int 1), .arr [.atom (.int 2)], .atom (.int 0), .none]), .const 1 (.str [65])]
    (isFieldPresent (imported demoDefs) (w.env 0) 2 w.heap).1 = .ok false ∧
      (isFieldPresent (imported demoDefs) (w.env 0) 2 (setField (imported demoDefs) (w.env 0) 3 (w.env 1) w.heap).2).1 = .ok true ∧
      (isSet (imported demoDefs) (w.env 0) 3 (setField (imported demoDefs) (w.env 0) 3 (w.env 1) w.heap).2).1 = .ok true ∧
      (isSet (imported demoDefs) (w.env 0) 3 (resetField (imported demoDefs) (w.env 0) 3 w.heap).2).1 = .ok false := ⟨rfl, rfl, rfl, rfl⟩

/-- a union with its second member, and one with two -/
example :
    let w := run (imported demoDefs) (start demoDefs) [.const 0 (.int 5), .newList 1 [0], .construct 2 2 [] [none, some 1]]
    (choiceTag (imported demoDefs) (w.env 2) w.heap).1 = .ok 1 ∧
      (getField (imported demoDefs) (w.env 2) 1 w.heap).1 = .ok (w.env 1) ∧
      (∀ c, (imported demoDefs)[2]? = some c → (construct 2 c [] [some (w.env 0), some (w.env 1)] w.heap).1 = .error .ambiguous) := by
  refine ⟨rfl, rfl, ?_⟩
  intro c hc
  cases hc
  rfl

end Zserio.Objects
