import Verif.Spec.CompoundEq
import Verif.Props.BitBuffer
import Verif.Lemmas.Compound
set_option linter.unusedSimpArgs false
/-
Helper lemmas on `__eq__` and `__hash__` of generated objects.
-/
namespace Zserio

theorem noNegativeZero_list {vs : List Val} (h : ∀ x ∈ Val.floatsList vs, x ≠ negativeZero) :
    ∀ v ∈ vs, v.NoNegativeZero := by
  induction vs with
  | nil => simp
  | cons v vs ih =>
    simp only [Val.floatsList, List.mem_append] at h
    intro u hu
    rcases List.mem_cons.1 hu with rfl | hu
    · exact fun x hx => h x (.inl hx)
    · exact ih (fun x hx => h x (.inr hx)) u hu

theorem Val.NoNegativeZero.arr {xs : List Val} (h : (Val.arr xs).NoNegativeZero) : ∀ v ∈ xs, v.NoNegativeZero :=
  noNegativeZero_list (by simpa [Val.NoNegativeZero, Val.floats] using h)

theorem Val.NoNegativeZero.obj {ps : List Int} {k : Nat} {tag : Int} {vs : List Val} (h : (Val.obj ps k tag vs).NoNegativeZero) :
    ∀ v ∈ vs, v.NoNegativeZero :=
  noNegativeZero_list (by simpa [Val.NoNegativeZero, Val.floats] using h)

theorem pyFloatEq_true {a b : PyFloat} (h : pyFloatEq a b = true) (ha : a ≠ negativeZero) (hb : b ≠ negativeZero) : a = b := by
  unfold pyFloatEq at h
  simp only at h
  split at h
  · simp at h
  · split at h
    · rename_i h0
      have key : ∀ c : UInt64, c.toNat % 2 ^ 63 = 0 → c ≠ negativeZero → c = 0 := by
        intro c hc hn
        have hlt := c.toNat_lt
        have hne : c.toNat ≠ 2 ^ 63 := by
          intro he
          apply hn
          apply UInt64.toNat_inj.1
          rw [he]; rfl
        apply UInt64.toNat_inj.1
        show c.toNat = 0
        omega
      rw [key a h0.1 ha, key b h0.2 hb]
    · simpa using h

/-- the values of a successful comparison are both `None` or both are values that compare equal -/
theorem eqOrNone_true {v u : Val} {f : Val → Val → Except Err Bool} (h : v.eqOrNone u f = .ok true) :
    (v = .none ∧ u = .none) ∨ (v ≠ .none ∧ v ≠ .unset ∧ u ≠ .none ∧ u ≠ .unset ∧ f v u = .ok true) := by
  unfold Val.eqOrNone at h
  cases v <;> cases u <;> simp_all

theorem orNone_value {α : Type} {v : Val} {g : Val → Except Err α} (h1 : v ≠ .none) (h2 : v ≠ .unset) :
    v.orNone g = (do let x ← g v; .ok (some x)) := by
  unfold Val.orNone
  cases v <;> simp_all

/-- the hashes of values that are `None` or compare equal agree if the values agree -/
theorem orNone_congr {α : Type} {v u : Val} {f : Val → Val → Except Err Bool} {g : Val → Except Err α}
    (h : v.eqOrNone u f = .ok true) (hg : f v u = .ok true → g v = g u) : v.orNone g = u.orNone g := by
  rcases eqOrNone_true h with ⟨rfl, rfl⟩ | ⟨h1, h2, h3, h4, h5⟩
  · rfl
  · rw [orNone_value h1 h2, orNone_value h3 h4, hg h5]

theorem constructed_of_proj {b : BitBuffer} {v : Val} (h : Builtin.bitBuffer.proj v = .ok b) : b.Constructed := by
  cases v <;> simp [Builtin.proj] at h
  rename_i x
  split at h
  · rename_i hx
    obtain rfl := Except.ok.inj h
    refine ⟨x.buffer, some x.bitsize, ?_⟩
    unfold BitBuffer.make
    simp only
    rw [if_neg (by omega)]
  · cases h

theorem bitBuffer_hash {a b : BitBuffer} (ha : a.Constructed) (hb : b.Constructed) (h : BitBuffer.eq a b = .ok true) :
    BitBuffer.hash a = BitBuffer.hash b := by
  obtain ⟨h1, h2, e1, e2, -, -, h3⟩ := C18_hash_consistent a b ha hb
  rw [e1, e2, h3 h]

/-- what a comparison of two built-in values means for their hashes -/
theorem builtin_eq_hash (b : Builtin) {v u : Val} {x y : b.Elem} (hv : b.proj v = .ok x) (hu : b.proj u = .ok y)
    (nv : v.NoNegativeZero) (nu : u.NoNegativeZero) (h : b.eqElem x y = .ok true) :
    ∀ s, b.hashField s (some x) = b.hashField s (some y) ∧ b.hashElem s (some x) = b.hashElem s (some y) := by
  intro s
  cases b
  case bitBuffer =>
    have := bitBuffer_hash (constructed_of_proj hv) (constructed_of_proj hu) h
    simp only [Builtin.hashField, Builtin.hashElem, this, and_self]
  case float16 | float32 | float64 =>
    all_goals
      cases v <;> simp [Builtin.proj] at hv
      cases u <;> simp [Builtin.proj] at hu
      obtain rfl := Except.ok.inj hv
      obtain rfl := Except.ok.inj hu
      simp only [Builtin.eqElem, Except.ok.injEq] at h
      have := pyFloatEq_true h (nv _ (by simp [Val.floats])) (nu _ (by simp [Val.floats]))
      rw [this]
      simp
  all_goals
    simp only [Builtin.eqElem, same, Except.ok.injEq, decide_eq_true_eq] at h
    rw [h]
    simp

variable {cs : Nat → EqHash}

/-- the classes of nested compounds are consistent -/
def Consistent (cs : Nat → EqHash) : Prop :=
  ∀ id v u, v.NoNegativeZero → u.NoNegativeZero → (cs id).eq v u = .ok true → (cs id).hash v = (cs id).hash u

theorem asInt_eq {v u : Val} (h : (do let x ← v.asInt; let y ← u.asInt; Except.ok (decide (x = y))) = (.ok true : Except Err Bool)) :
    v.asInt = u.asInt := by
  obtain ⟨x, hx, h⟩ := except_bind_ok h
  obtain ⟨y, hy, h⟩ := except_bind_ok h
  simp only [Except.ok.injEq, decide_eq_true_eq] at h
  rw [hx, hy, h]

theorem ElemType.eq_hash (hc : Consistent cs) (t : ElemType) {v u : Val} (nv : v.NoNegativeZero) (nu : u.NoNegativeZero)
    (h : t.eq cs v u = .ok true) :
    ∀ s, (∀ b, t.hash cs b s v = t.hash cs b s u) ∧ t.hashElem cs s v = t.hashElem cs s u := by
  intro s
  unfold ElemType.eq at h
  cases t with
  | int k =>
    have := orNone_congr h (g := Val.asInt) asInt_eq
    simp only [ElemType.hash, ElemType.hashElem, this, implies_true, and_self]
  | dynBits sg len =>
    have := orNone_congr h (g := Val.asInt) asInt_eq
    simp only [ElemType.hash, ElemType.hashElem, this, implies_true, and_self]
  | enum e =>
    have := orNone_congr h (g := ElemType.hashItem e.underlying) (fun h => by simp only [ElemType.hashItem, asInt_eq h])
    simp only [ElemType.hash, ElemType.hashElem, ElemType.hashObj, this, implies_true, and_self]
  | bitmask k =>
    have := orNone_congr h (g := ElemType.hashItem k) (fun h => by simp only [ElemType.hashItem, asInt_eq h])
    simp only [ElemType.hash, ElemType.hashElem, ElemType.hashObj, this, implies_true, and_self]
  | compound id args =>
    have := orNone_congr h (g := (cs id).hash) (hc id v u nv nu)
    simp only [ElemType.hash, ElemType.hashElem, ElemType.hashObj, this, implies_true, and_self]
  | other b =>
    rcases eqOrNone_true h with ⟨rfl, rfl⟩ | ⟨h1, h2, h3, h4, h5⟩
    · exact ⟨fun _ => rfl, rfl⟩
    · simp only [ElemType.eqValue] at h5
      obtain ⟨x, hx, h5⟩ := except_bind_ok h5
      obtain ⟨y, hy, h5⟩ := except_bind_ok h5
      have := builtin_eq_hash b hx hy nv nu h5 s
      simp only [ElemType.hash, ElemType.hashElem, orNone_value h1 h2, orNone_value h3 h4, hx, hy, ok_bind, this, implies_true,
        and_self]

theorem eqList_hash {α : Type} {eq : Val → Val → Except Err Bool} {step : α → Val → Except Err α} :
    ∀ {xs ys : List Val}, (∀ x ∈ xs, ∀ y ∈ ys, eq x y = .ok true → ∀ s, step s x = step s y) → xs.length = ys.length →
      eqList eq xs ys = .ok true → ∀ s, xs.foldlM step s = ys.foldlM step s
  | [], [], _, _, _, _ => rfl
  | [], _ :: _, _, h, _, _ => by simp at h
  | _ :: _, [], _, h, _, _ => by simp at h
  | x :: xs, y :: ys, hstep, hlen, h, s => by
    simp only [eqList] at h
    obtain ⟨b, hb, h⟩ := except_bind_ok h
    cases b with
    | false => simp at h
    | true =>
      simp only [if_true] at h
      rw [List.foldlM_cons, List.foldlM_cons, hstep x (by simp) y (by simp) hb]
      congr 1
      funext s'
      exact eqList_hash (fun x hx y hy => hstep x (by simp [hx]) y (by simp [hy])) (by simpa using hlen) h s'

namespace FieldDef

theorem eqValue_hash (hc : Consistent cs) (f : FieldDef) {v u : Val} (nv : v.NoNegativeZero) (nu : u.NoNegativeZero)
    (h : f.eqValue cs v u = .ok true) (s : Int) : f.hashValue cs s v = f.hashValue cs s u := by
  unfold eqValue at h
  unfold hashValue
  rcases ha : f.array with _ | a
  · rw [ha] at h
    exact (f.type.eq_hash hc nv nu h s).1 _
  · rw [ha] at h
    simp only at h ⊢
    rcases eqOrNone_true h with ⟨rfl, rfl⟩ | ⟨h1, h2, h3, h4, h5⟩
    · rfl
    · obtain ⟨xs, hx, h6⟩ := except_bind_ok h5
      obtain ⟨ys, hy, h7⟩ := except_bind_ok h6
      clear h5 h6
      obtain rfl : v = .arr xs := by cases v <;> simp [Val.asArr] at hx; rw [hx]
      obtain rfl : u = .arr ys := by cases u <;> simp [Val.asArr] at hy; rw [hy]
      clear h hx hy h1 h2 h3 h4
      by_cases hlen : xs.length = ys.length
      · rw [if_pos hlen] at h7
        have key := eqList_hash (step := f.type.hashElem cs)
          (fun x hx y hy hxy s => (f.type.eq_hash hc (nv.arr x hx) (nu.arr y hy) hxy s).2) hlen h7 HASH_SEED
        rcases xs with _ | ⟨x, xs⟩ <;> rcases ys with _ | ⟨y, ys⟩
        · rfl
        · simp at hlen
        · simp at hlen
        · simp only [ElemType.hashObj, Val.orNone, hashArray, Val.asArr, ok_bind]
          rw [key]
      · rw [if_neg hlen] at h7
        simp at h7

/-- used in both objects or in none -/
theorem eqOptional_hash (hc : Consistent cs) (f : FieldDef) {env env' : Env} {v u : Val} (nv : v.NoNegativeZero)
    (nu : u.NoNegativeZero) (hst : ∀ e, f.optional = .clause e → e env = e env') (h : f.eqOptional cs env env' v u = .ok true)
    (s : Int) : f.hashOptional cs env s v = f.hashOptional cs env' s u := by
  unfold eqOptional at h
  unfold hashOptional
  rcases ho : f.optional with _ | _ | e
  · rw [ho] at h
    simp only [isUsed, ho, ok_bind, if_true]
    exact f.eqValue_hash hc nv nu h s
  · rw [ho] at h
    simp only [isUsed, ho, ok_bind] at h ⊢
    cases hv : v.isNone <;> cases hu : u.isNone <;> simp only [hv, hu, Bool.not_true, Bool.not_false, if_true, if_false, Bool.false_eq_true] at h ⊢
    · exact f.eqValue_hash hc nv nu h s
    · cases u <;> simp [Val.isNone] at hu
      unfold eqValue at h
      exfalso
      rcases ha : f.array with _ | a
      · rw [ha] at h
        rcases eqOrNone_true h with ⟨rfl, _⟩ | ⟨_, _, h, _⟩
        · simp [Val.isNone] at hv
        · exact h rfl
      · rw [ha] at h
        rcases eqOrNone_true h with ⟨rfl, _⟩ | ⟨_, _, h, _⟩
        · simp [Val.isNone] at hv
        · exact h rfl
    · simp at h
  · rw [ho] at h
    simp only [isUsed, ho] at h ⊢
    have he := hst e ho
    rw [← he]
    obtain ⟨b, hb, h⟩ := except_bind_ok h
    rw [hb]
    simp only [ok_bind]
    cases b with
    | false => rfl
    | true =>
      simp only [if_true] at h ⊢
      exact f.eqValue_hash hc nv nu h s

theorem eq_hash (hc : Consistent cs) (f : FieldDef) {env env' : Env} {p p' : Bool} {v u : Val} (nv : v.NoNegativeZero)
    (nu : u.NoNegativeZero) (hst : ∀ e, f.optional = .clause e → e env = e env') (h : f.eq cs env env' p p' v u = .ok true)
    (s : Int) : f.hash cs env p s v = f.hash cs env' p' s u := by
  unfold FieldDef.eq at h
  unfold FieldDef.hash
  cases hx : f.extended
  · simp only [hx, Bool.false_eq_true, if_false, Bool.false_and] at h ⊢
    exact f.eqOptional_hash hc nv nu hst h s
  · cases p <;> cases p' <;> simp only [hx, Bool.false_eq_true, if_false, if_true, Bool.true_and, Bool.not_true, Bool.not_false,
      Except.ok.injEq] at h ⊢
    exact f.eqOptional_hash hc nv nu hst h s

end FieldDef

namespace Struct

theorem eq_length (params : List Int) (k l base : Nat) : ∀ (fs : List FieldDef) (pv pu vs us : List Val),
    eq cs params k l base fs pv pu vs us = .ok true → vs.length = fs.length ∧ us.length = fs.length
  | [], _, _, [], [], _ => by simp
  | [], _, _, [], _ :: _, h => by simp [eq] at h
  | [], _, _, _ :: _, _, h => by simp [eq] at h
  | _ :: _, _, _, [], _, h => by simp [eq] at h
  | _ :: _, _, _, _ :: _, [], h => by simp [eq] at h
  | f :: fs, pv, pu, v :: vs, u :: us, h => by
    simp only [eq] at h
    obtain ⟨b, hb, h⟩ := except_bind_ok h
    cases b with
    | false => simp at h
    | true =>
      have := eq_length params k l base fs _ _ vs us h
      simpa using this

/-- the comparison of a longer list of fields -/
theorem eq_snoc (params : List Int) (k l base : Nat) (f : FieldDef) (v u : Val) :
    ∀ (fs : List FieldDef) (pv pu vs us : List Val), eq cs params k l base fs pv pu vs us = .ok true →
      f.eq cs ⟨params, pv ++ vs, 0⟩ ⟨params, pu ++ us, 0⟩ (isPresent k base (pv ++ vs).length) (isPresent l base (pu ++ us).length) v u = .ok true →
      eq cs params k l base (fs ++ [f]) pv pu (vs ++ [v]) (us ++ [u]) = .ok true
  | [], pv, pu, [], [], _, hf => by
    simp only [List.nil_append, List.append_nil, eq] at hf ⊢
    rw [hf]
    rfl
  | [], _, _, [], _ :: _, h, _ => by simp [eq] at h
  | [], _, _, _ :: _, _, h, _ => by simp [eq] at h
  | _ :: _, _, _, [], _, h, _ => by simp [eq] at h
  | _ :: _, _, _, _ :: _, [], h, _ => by simp [eq] at h
  | g :: fs, pv, pu, v' :: vs, u' :: us, h, hf => by
    simp only [eq, List.cons_append] at h ⊢
    obtain ⟨b, hb, h⟩ := except_bind_ok h
    rw [hb, ok_bind]
    cases b with
    | false => simp at h
    | true =>
      simp only [if_true] at h ⊢
      exact eq_snoc params k l base f v u fs _ _ vs us h (by simpa using hf)

/-- equal fields have equal hashes; `done` are the fields that have been compared -/
theorem eq_hash_fields (hc : Consistent cs) (params : List Int) (k l base : Nat) (all : List FieldDef)
    (hst : ∀ i f e, all[i]? = some f → f.optional = .clause e → ∀ vs us,
      eq cs params k l base (all.take i) [] [] vs us = .ok true → e ⟨params, vs, 0⟩ = e ⟨params, us, 0⟩) :
    ∀ (fs done : List FieldDef), all = done ++ fs → ∀ (pv pu vs us : List Val),
      (∀ v ∈ vs, v.NoNegativeZero) → (∀ u ∈ us, u.NoNegativeZero) →
      eq cs params k l base done [] [] pv pu = .ok true → eq cs params k l base fs pv pu vs us = .ok true → ∀ s,
      hash cs params k base fs pv vs s = hash cs params l base fs pu us s
  | [], _, _, _, _, [], [], _, _, _, _, _ => rfl
  | [], _, _, _, _, [], _ :: _, _, _, _, h, _ => by simp [eq] at h
  | [], _, _, _, _, _ :: _, _, _, _, _, h, _ => by simp [eq] at h
  | _ :: _, _, _, _, _, [], _, _, _, _, h, _ => by simp [eq] at h
  | _ :: _, _, _, _, _, _ :: _, [], _, _, _, h, _ => by simp [eq] at h
  | f :: fs, done, hall, pv, pu, v :: vs, u :: us, nv, nu, hd, h, s => by
    simp only [eq] at h
    obtain ⟨b, hb, h⟩ := except_bind_ok h
    cases b with
    | false => simp at h
    | true =>
      simp only [if_true] at h
      have hlen := eq_length params k l base _ _ _ _ _ hd
      simp only [hash]
      rw [f.eq_hash hc (nv v (by simp)) (nu u (by simp)) ?_ hb s]
      · congr 1
        funext s'
        refine eq_hash_fields hc params k l base all hst fs (done ++ [f]) (by rw [hall]; simp) _ _ vs us
          (fun x hx => nv x (by simp [hx])) (fun x hx => nu x (by simp [hx])) ?_ h s'
        exact eq_snoc params k l base f v u done [] [] pv pu hd (by simpa using hb)
      · intro e he
        refine hst done.length f e ?_ he pv pu ?_
        · rw [hall]; simp
        · rw [hall]; simpa using hd

end Struct

theorem Branch.eq_hash (hc : Consistent cs) (f : Option FieldDef) {v u : Val} (nv : v.NoNegativeZero) (nu : u.NoNegativeZero)
    (h : Branch.eq cs f v u = .ok true) (s : Int) : Branch.hash cs f s v = Branch.hash cs f s u := by
  cases f with
  | none => rfl
  | some f => exact f.eqValue_hash hc nv nu h s


/-- equal objects of the compounds of a schema have equal hashes -/
theorem Schema.consistent (defs : Schema) (kinds : Nat → List ParamKind) :
    ∀ n, defs.StableClauses kinds n → Consistent (defs.eqHash kinds n)
  | 0, _ => fun id v u _ _ h => by simp [Schema.eqHash] at h
  | n + 1, hst => fun id v u nv nu h => by
    have hc : Consistent (defs.eqHash kinds n) :=
      Schema.consistent defs kinds n (fun id fs hd i f e hf he m hm => hst id fs hd i f e hf he m (by omega))
    simp only [Schema.eqHash] at h ⊢
    rcases hd : defs id with fs | fs | ⟨selector, cases, default⟩
    · rw [hd] at h
      simp only [CompoundDef.eqHash, Struct.eqHash] at h ⊢
      rcases v with _ | _ | _ | _ | _ | _ | _ | _ | _ | ⟨ps, k, _, vs⟩ <;> (try simp at h)
      rcases u with _ | _ | _ | _ | _ | _ | _ | _ | _ | ⟨qs, l, _, us⟩ <;> (try simp at h)
      split at h
      · rename_i hp
        subst hp
        exact Struct.eq_hash_fields hc ps k l _ fs (fun i f e hf he vs us => hst id fs hd i f e hf he n (by omega) ps k l vs us)
          fs [] rfl [] [] vs us nv.obj nu.obj rfl h _
      · simp at h
    · rw [hd] at h
      simp only [CompoundDef.eqHash, Union.eqHash] at h ⊢
      split at h
      · split at h
        · split at h
          · rename_i hp ht
            subst hp ht
            exact Branch.eq_hash hc _ (nv.obj _ (by simp)) (nu.obj _ (by simp)) h _
          · simp at h
        · simp at h
      · simp at h
    · rw [hd] at h
      simp only [CompoundDef.eqHash, Choice.eqHash] at h ⊢
      split at h
      · split at h
        · rename_i hp
          subst hp
          simp only
          rename_i ps _ _ v _ _ u
          rcases hs : selector ⟨ps, [], 0⟩ with e | s
          · rfl
          · simp only [Choice.select, hs, ok_bind] at h ⊢
            rcases hsel : Choice.selectCase cases default 1 s with e | ⟨f, c⟩ <;> simp only [hsel] at h ⊢
            · exact Branch.eq_hash hc _ (nv.obj _ (by simp)) (nu.obj _ (by simp)) h _
        · simp at h
      · simp at h

/-! Range of the hash codes -/

theorem hashIntegral_is32 (w : Bool) (s : Int) (v : Option Int) : Is32 (hashIntegral w s v) := by
  unfold hashIntegral
  split
  · exact hashInt64_is32 s v
  · exact hashInt32_is32 s v

theorem hashObject_is32 (s : Int) (v : Option Int) : Is32 (hashObject s v) := by
  cases v with
  | none => exact hashInt32_is32 s (some 0)
  | some v => exact hashInt32_is32 s (some v)

theorem seed_is32 : Is32 HASH_SEED := by unfold Is32 HASH_SEED; omega

theorem hashObj_is32 {s : Int} {v : Val} {g : Val → Except Err Int} {h : Int} (hh : ElemType.hashObj s v g = .ok h) : Is32 h := by
  unfold ElemType.hashObj at hh
  obtain ⟨x, -, hh⟩ := except_bind_ok hh
  obtain rfl := Except.ok.inj hh
  exact hashObject_is32 _ _

theorem Builtin.hashField_is32 (b : Builtin) {s : Int} (hs : Is32 s) {v : Option b.Elem} {h : Int} (hh : b.hashField s v = .ok h) :
    Is32 h := by
  obtain ⟨r1, r2, r3, r4, r5, r6, r7, r8, -⟩ := C22_range s hs
  cases b
  case bitBuffer =>
    cases v with
    | none => obtain rfl := Except.ok.inj hh; exact r8 _
    | some v =>
      simp only [Builtin.hashField] at hh
      obtain ⟨x, -, hh⟩ := except_bind_ok hh
      obtain rfl := Except.ok.inj hh
      exact r8 _
  case float16 => exact r4 _ _ hh
  case float32 => exact r4 _ _ hh
  all_goals
    obtain rfl := Except.ok.inj hh
  case float64 => exact r5 _
  case bool => exact r1 _
  case bytes => exact r6 _
  case string => exact r7 _
  all_goals exact hashIntegral_is32 _ _ _

theorem Builtin.hashElem_is32 (b : Builtin) {s : Int} (hs : Is32 s) {v : Option b.Elem} {h : Int} (hh : b.hashElem s v = .ok h) :
    Is32 h := by
  cases b
  case bitField | signedBitField | var => all_goals (obtain rfl := Except.ok.inj hh; exact hashInt32_is32 _ _)
  case float16 => exact Builtin.hashField_is32 .float16 hs hh
  case float32 => exact Builtin.hashField_is32 .float32 hs hh
  case float64 => exact Builtin.hashField_is32 .float64 hs hh
  case bool => exact Builtin.hashField_is32 .bool hs hh
  case bytes => exact Builtin.hashField_is32 .bytes hs hh
  case string => exact Builtin.hashField_is32 .string hs hh
  case bitBuffer => exact Builtin.hashField_is32 .bitBuffer hs hh

theorem ElemType.hash_is32 (t : ElemType) (w : Bool) {s : Int} (hs : Is32 s) {v : Val} {h : Int} (hh : t.hash cs w s v = .ok h) :
    Is32 h := by
  cases t with
  | int k | dynBits _ _ =>
    simp only [ElemType.hash] at hh
    obtain ⟨x, -, hh⟩ := except_bind_ok hh
    obtain rfl := Except.ok.inj hh
    exact hashIntegral_is32 _ _ _
  | other b =>
    simp only [ElemType.hash] at hh
    obtain ⟨x, -, hh⟩ := except_bind_ok hh
    exact b.hashField_is32 hs hh
  | enum e | bitmask k | compound id args => exact hashObj_is32 hh

theorem FieldDef.hashValue_is32 (f : FieldDef) {s : Int} (hs : Is32 s) {v : Val} {h : Int} (hh : f.hashValue cs s v = .ok h) :
    Is32 h := by
  unfold FieldDef.hashValue at hh
  split at hh
  · exact f.type.hash_is32 _ hs hh
  · split at hh
    · obtain rfl := Except.ok.inj hh
      exact hashObject_is32 _ _
    · exact hashObj_is32 hh

theorem FieldDef.hash_is32 (f : FieldDef) {env : Env} {p : Bool} {s : Int} (hs : Is32 s) {v : Val} {h : Int}
    (hh : f.hash cs env p s v = .ok h) : Is32 h := by
  unfold FieldDef.hash at hh
  split at hh
  · obtain rfl := Except.ok.inj hh
    exact hs
  · unfold FieldDef.hashOptional at hh
    obtain ⟨b, -, hh⟩ := except_bind_ok hh
    split at hh
    · exact f.hashValue_is32 hs hh
    · obtain rfl := Except.ok.inj hh
      exact hs

theorem hashParams_is32 : ∀ (ks : List ParamKind) (ps : List Int) {s : Int}, Is32 s → Is32 (hashParams ks ps s)
  | [], _, _, h => h
  | _ :: _, [], _, h => h
  | k :: ks, p :: ps, s, h => by
    refine hashParams_is32 ks ps ?_
    cases k with
    | integer w => exact hashIntegral_is32 _ _ _
    | bool => exact (C22_range s h).1 _
    | item k => exact hashObject_is32 s (some _)

theorem Struct.hash_is32 (params : List Int) (k base : Nat) : ∀ (fs : List FieldDef) (pv vs : List Val) (s h : Int), Is32 s →
    Struct.hash cs params k base fs pv vs s = .ok h → Is32 h
  | [], _, [], s, h, hs, hh => by obtain rfl := Except.ok.inj hh; exact hs
  | [], _, _ :: _, _, _, _, hh => by simp [Struct.hash] at hh
  | _ :: _, _, [], _, _, _, hh => by simp [Struct.hash] at hh
  | f :: fs, pv, v :: vs, s, h, hs, hh => by
    simp only [Struct.hash] at hh
    obtain ⟨s', hs', hh⟩ := except_bind_ok hh
    exact Struct.hash_is32 params k base fs _ vs s' h (f.hash_is32 hs hs') hh

theorem Branch.hash_is32 (f : Option FieldDef) {s : Int} (hs : Is32 s) {v : Val} {h : Int} (hh : Branch.hash cs f s v = .ok h) :
    Is32 h := by
  cases f with
  | none => obtain rfl := Except.ok.inj hh; exact hs
  | some f => exact f.hashValue_is32 hs hh

end Zserio
