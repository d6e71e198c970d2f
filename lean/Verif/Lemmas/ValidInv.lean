import Verif.Lemmas.ValidStruct
set_option linter.unusedSimpArgs false
/-
What has been written was valid.
-/
namespace Zserio
open Writer

/-- If the call returns, `P` holds of the result and bits have been appended. -/
def Inverts {α : Type} (m : M Writer α) (P : α → Prop) : Prop :=
  ∀ b0 a w', m (ofBits b0) = (.ok a, w') → P a ∧ ∃ bs, w' = ofBits (b0 ++ bs)

theorem inverts_pure {α : Type} {a : α} {P : α → Prop} (h : P a) : Inverts (pure a) P := by
  intro b0 a' w' hw
  simp only [M.pure_apply, Prod.mk.injEq, Except.ok.injEq] at hw
  obtain ⟨rfl, rfl⟩ := hw
  exact ⟨h, [], by simp⟩

theorem inverts_throw {α : Type} (e : Err) {P : α → Prop} : Inverts (M.throw e) P := by
  intro b0 a' w' hw
  simp at hw

theorem inverts_lift {α : Type} {x : Except Err α} {P : α → Prop} (h : ∀ a, x = .ok a → P a) : Inverts (M.lift x) P := by
  intro b0 a' w' hw
  simp only [M.lift_apply, Prod.mk.injEq] at hw
  exact ⟨h _ hw.1, [], by simp [← hw.2]⟩

theorem inverts_appends {α : Type} {m : M Writer α} (h : Appends m) {P : α → Prop} (hp : ∀ a, P a) : Inverts m P := by
  intro b0 a' w' hw
  exact ⟨hp _, h _ _ _ hw⟩

theorem Inverts.bind {α β : Type} {m : M Writer α} {f : α → M Writer β} {P : α → Prop} {Q : β → Prop} (h : Inverts m P)
    (h' : ∀ a, P a → Inverts (f a) Q) : Inverts (m >>= f) Q := by
  intro b0 b w' hw
  obtain ⟨a, w1, h1, h2⟩ := Writer.bind_inv hw
  obtain ⟨h3, bs, rfl⟩ := h _ _ _ h1
  obtain ⟨h4, bs', rfl⟩ := h' a h3 _ _ _ h2
  exact ⟨h4, bs ++ bs', by rw [List.append_assoc]⟩

theorem inverts_get_bind {β : Type} {f : Writer → M Writer β} {Q : β → Prop} (h : ∀ w, Inverts (f w) Q) :
    Inverts (M.get >>= f) Q := by
  intro b0 b w' hw
  rw [M.bind_ok (M.get_apply _)] at hw
  exact h _ _ _ _ hw

theorem Inverts.mono {α : Type} {m : M Writer α} {P Q : α → Prop} (h : Inverts m P) (hq : ∀ a, P a → Q a) : Inverts m Q := by
  intro b0 a w' hw
  obtain ⟨h1, h2⟩ := h _ _ _ hw
  exact ⟨hq _ h1, h2⟩

/-! ### Element types -/

theorem IntKind.inverts (k : IntKind) (x : Int) : Inverts (k.traits.write x) fun _ => k.InRange x := by
  have key : ∀ (c : WCall) (P : Prop), (∀ p bs, c.spec p = some bs → P) → Inverts c.run fun _ => P := by
    intro c P h b0 a w' hw
    obtain ⟨bs, rfl⟩ := appends_call c _ _ _ hw
    exact ⟨h _ bs ((c.runs_iff b0 bs).1 hw), bs, rfl⟩
  cases k with
  | bitField n =>
    refine key (.bits x n) _ fun _ bs h => ?_
    simp only [WCall.spec] at h
    split at h
    · rename_i hc
      simp only [validNumbits, Int.toNat_natCast] at hc
      exact ⟨by omega, hc.2.1, by have := hc.2.2; omega⟩
    · cases h
  | signedBitField n =>
    refine key (.signedBits x n) _ fun _ bs h => ?_
    simp only [WCall.spec] at h
    split at h
    · rename_i hc
      simp only [validNumbits, Int.toNat_natCast] at hc
      obtain ⟨h1, h2, h3, h4⟩ := hc
      exact ⟨by omega, h3, by omega⟩
    · cases h
  | var t =>
    refine key (.var t x) _ fun _ bs h => ?_
    simp only [WCall.spec] at h
    split at h
    · assumption
    · cases h

theorem intWrite_inverts (k : IntKind) (c : Ctx) (x : Int) : Inverts (intWrite k none c x) fun _ => k.InRange x :=
  (k.inverts x).bind fun _ h => inverts_pure h

theorem Builtin.inverts (b : Builtin) {v : Val} {x : b.Elem} (hp : b.proj v = .ok x) :
    Inverts (b.traits.write x) fun _ => b.Writable x := by
  have key : ∀ (c : WCall) (P : Prop), (∀ p bs, c.spec p = some bs → P) → Inverts c.run fun _ => P := by
    intro c P h b0 a w' hw
    obtain ⟨bs, rfl⟩ := appends_call c _ _ _ hw
    exact ⟨h _ bs ((c.runs_iff b0 bs).1 hw), bs, rfl⟩
  cases b with
  | bitField n => exact (IntKind.bitField n).inverts x
  | signedBitField n => exact (IntKind.signedBitField n).inverts x
  | var t => exact (IntKind.var t).inverts x
  | float16 =>
    refine key (.float16 x) _ fun _ bs h => ?_
    simp only [WCall.spec, patternBits] at h
    split at h
    · rename_i z hz
      split at h
      · rename_i hlt; exact ⟨z, hz, hlt⟩
      · cases h
    · cases h
  | float32 =>
    refine key (.float32 x) _ fun _ bs h => ?_
    simp only [WCall.spec, patternBits] at h
    split at h
    · rename_i z hz
      split at h
      · rename_i hlt; exact ⟨z, hz, hlt⟩
      · cases h
    · cases h
  | float64 => exact key (.float64 x) _ fun _ bs h => trivial
  | bool => exact key (.bool x) _ fun _ bs h => trivial
  | bytes =>
    refine key (.bytes x) _ fun _ bs h => ?_
    simp only [WCall.spec] at h
    split at h
    · assumption
    · cases h
  | string =>
    refine key (.string x) _ fun _ bs h => ?_
    simp only [WCall.spec] at h
    split at h
    · rename_i l hl
      split at h
      · rename_i hlt; exact ⟨l, hl, hlt⟩
      · cases h
    · cases h
  | bitBuffer =>
    have hfit : x.bitsize ≤ 8 * x.buffer.length := builtin_proj_valid hp
    show Inverts (writeBitBuffer x) _
    rw [← bitBuffer_run_eq x hfit]
    refine key (.bitBuffer x.buffer (some x.bitsize)) _ fun _ bs h => ?_
    simp only [WCall.spec, Option.getD_some] at h
    split at h
    · rename_i hc
      exact ⟨hc.1, by have := hc.2.2; omega⟩
    · cases h

variable {codecs : Nat → Codec} {valid : Nat → Val → Prop}

theorem ElemType.inverts (hk : ∀ id c v, Inverts ((codecs id).write none c v) fun _ => valid id v) {ty : ElemType} {env : Env}
    {m : Methods} (hm : ty.methods codecs env = .ok m) (c : Ctx) (v : Val) :
    Inverts (m.write none c v) fun _ => ty.Valid valid env v := by
  have hint : ∀ (k : IntKind) (P : Prop), (∀ x, v = .int x → k.InRange x → P) →
      Inverts (M.lift v.asInt >>= fun x => intWrite k none c x) fun _ => P := by
    intro k P h
    refine Inverts.bind (inverts_lift fun x hx => asInt_ok hx) fun x hx => ?_
    exact (intWrite_inverts k c x).mono fun _ hr => h x hx hr
  cases ty with
  | int k =>
    obtain rfl := Except.ok.inj hm
    exact hint k _ fun x h1 h2 => ⟨x, h1, h2⟩
  | bitmask k =>
    obtain rfl := Except.ok.inj hm
    exact hint k _ fun x h1 h2 => ⟨x, h1, h2⟩
  | dynBits signed length =>
    obtain ⟨n, h1, h2⟩ := except_bind_ok hm
    obtain ⟨k, h3, h4⟩ := except_bind_ok h2
    obtain rfl := Except.ok.inj h4
    exact hint k _ fun x e1 e2 => ⟨n, k, x, h1, h3, e1, e2⟩
  | enum e =>
    obtain rfl := Except.ok.inj hm
    show Inverts (enumWrite e none c v) _
    unfold enumWrite
    refine Inverts.bind (P := fun x => v = .int x ∧ x ∈ e.items) (inverts_lift ?_) fun x hx => ?_
    · intro x hx
      unfold enumValue at hx
      obtain ⟨y, h1, h2⟩ := except_bind_ok hx
      split at h2
      · obtain rfl := Except.ok.inj h2
        exact ⟨asInt_ok h1, by assumption⟩
      · cases h2
    · split
      · exact inverts_throw _
      · rename_i hr
        exact (intWrite_inverts e.underlying c x).mono fun _ h => ⟨x, hx.1, hx.2, hr, h⟩
  | other b =>
    obtain rfl := Except.ok.inj hm
    refine Inverts.bind (inverts_lift fun x hx => hx) fun x hx => ?_
    exact (b.inverts hx).bind fun _ h => inverts_pure ⟨x, hx, h⟩
  | compound id args =>
    obtain rfl := Except.ok.inj hm
    exact hk id c v

/-! ### Fields -/

theorem writeLoop_inverts {m : Methods} {P : Val → Prop} {σ : Type} {chk : Option (Nat → Nat → σ → Except Err Unit)} {s : σ}
    {C : Nat → Prop} (h : ∀ v, Inverts (m.write none Ctx.empty v) fun _ => P v)
    (hc : ∀ i, Inverts (Array'.writeCheck chk i s) fun _ => C i) : ∀ (xs : List Val) (i : Nat),
    Inverts (Array'.writeLoop m.traits chk s i xs) fun _ => (∀ x ∈ xs, P x) ∧ ∀ j < xs.length, C (i + j)
  | [], i => inverts_pure ⟨by simp, by simp⟩
  | x :: xs, i => by
    unfold Array'.writeLoop
    refine Inverts.bind (hc i) fun _ hci => ?_
    refine Inverts.bind (P := fun _ => P x) ?_ fun _ hx => ?_
    · exact Inverts.bind (h x) fun _ hx => inverts_pure hx
    · refine (writeLoop_inverts h hc xs (i + 1)).mono ?_
      rintro _ ⟨h1, h2⟩
      refine ⟨by simpa using ⟨hx, h1⟩, ?_⟩
      intro j hj
      cases j with
      | zero => exact hci
      | succ j =>
        have := h2 j (by simpa using hj)
        rwa [show i + (j + 1) = i + 1 + j by omega]

namespace FieldDef
variable {f : FieldDef} {env : Env} {slot : Nat} {c : Ctx} {v : Val}

theorem writeCheck_inverts (f : FieldDef) (a : ArrayDef) (fields : List Val) (i : Nat) :
    Inverts (Array'.writeCheck (f.arrayCfg a).checkOffset i fields) fun _ => ∀ o, f.offset = some o → o.indexed = true →
      ∃ os q, fields[o.field]? = some (.arr os) ∧ os[i]? = some (.int q) := by
  unfold arrayCfg
  rcases hf : f.offset with _ | o
  · exact inverts_pure (by simp)
  · by_cases hi : o.indexed = true
    · simp only [hi, if_true, Array'.writeCheck]
      refine Inverts.bind (inverts_appends (appends_alignto 8) (P := fun _ => True) fun _ => trivial) fun _ _ => ?_
      refine inverts_get_bind fun w => inverts_lift fun _ h => ?_
      rintro _ ⟨⟩ _
      unfold checkOffsetAt at h
      rcases hx : fields[o.field]? with _ | y
      · rw [hx] at h; cases h
      · rw [hx] at h
        obtain ⟨os, hos, h2⟩ := except_bind_ok h
        clear h
        obtain rfl : y = .arr os := by cases y <;> simp [Val.asArr] at hos; rw [hos]
        rcases hj : os[i]? with _ | z
        · rw [hj] at h2; cases h2
        · rw [hj] at h2
          obtain ⟨q, hq, -⟩ := except_bind_ok h2
          exact ⟨os, q, rfl, by rw [hj, asInt_ok hq]⟩
    · simp only [hi, Bool.false_eq_true, if_false, Array'.writeCheck]
      exact inverts_pure (by rintro _ ⟨⟩ h; exact absurd h hi)

theorem writeOffset_inverts (f : FieldDef) (env : Env) :
    Inverts (f.writeOffset env) fun _ => ∀ o, f.offset = some o → o.indexed = false → ∃ q, env.fields[o.field]? = some (.int q) := by
  unfold writeOffset ownOffset
  rcases hf : f.offset with _ | o
  · exact inverts_pure (by simp)
  · by_cases hi : o.indexed = true
    · simp only [hi, if_true]
      exact inverts_pure (by rintro _ ⟨⟩ h; rw [hi] at h; cases h)
    · simp only [hi, Bool.false_eq_true, if_false]
      refine Inverts.bind (inverts_appends (appends_alignto 8) (P := fun _ => True) fun _ => trivial) fun _ _ => ?_
      refine inverts_get_bind fun w => inverts_lift fun _ h => ?_
      rintro _ ⟨⟩ _
      unfold Zserio.checkOffset at h
      rcases hx : env.fields[o.field]? with _ | y
      · rw [hx] at h; cases h
      · rw [hx] at h
        obtain ⟨q, hq, -⟩ := except_bind_ok h
        exact ⟨q, by rw [asInt_ok hq]⟩

theorem writeAlign_inverts (f : FieldDef) : Inverts f.writeAlign fun _ => f.alignment ≠ some 0 := by
  unfold writeAlign
  rcases ha : f.alignment with _ | a
  · exact inverts_pure (by simp)
  · intro b0 u w' hw
    refine ⟨?_, appends_alignto a _ _ _ hw⟩
    rintro ⟨⟩
    simp only at hw
    unfold Writer.alignto at hw
    rw [M.bind_ok (M.get_apply _), if_pos rfl] at hw
    simp at hw

theorem checkConstraint_ok (h : f.checkConstraint env v = .ok ()) (e : Expr Bool) (he : f.constraint = some e) :
    e { env with fields := env.fields ++ [v] } = .ok true := by
  unfold checkConstraint at h
  rw [he] at h
  obtain ⟨b, h1, h2⟩ := except_bind_ok h
  cases b
  · cases h2
  · exact h1

theorem checkLength_ok (h : f.checkLength env v = .ok ()) {length : Expr Int} {p : Bool} (ha : f.array = some ⟨.fixed length, p⟩)
    {xs : List Val} (hv : v = .arr xs) : length env = .ok (xs.length : Int) := by
  unfold checkLength at h
  rw [ha, hv] at h
  simp only [Val.asArr, ok_bind] at h
  obtain ⟨n, h1, h2⟩ := except_bind_ok h
  split at h2
  · cases h2
  · rename_i hne
    rw [h1, ← Decidable.not_not.1 hne]

theorem checkParams_ok (h : f.checkParams env v = .ok ()) {id : Nat} {args : List (Expr Int)} (ha : f.array = none)
    (ht : f.type = .compound id args) (hne : args ≠ []) : ∃ ps, v.params = .ok ps ∧ evalArgs args env = .ok ps := by
  unfold checkParams at h
  rw [ha, ht] at h
  simp only at h
  rw [if_neg (by simpa using hne)] at h
  obtain ⟨ps, h1, h2⟩ := except_bind_ok h
  obtain ⟨vs, h3, h4⟩ := except_bind_ok h2
  split at h4
  · cases h4
  · rename_i hn
    exact ⟨ps, h1, by rw [h3, Decidable.not_not.1 hn]⟩

/-- the value -/
theorem writeValue_inverts (hk : ∀ id c v, Inverts ((codecs id).write none c v) fun _ => valid id v)
    (hp : ∀ a, f.array = some a → f.packable = true → a.isPacked = false) :
    Inverts (f.writeValue codecs env slot none c v) fun _ =>
      (f.array = none → f.type.Valid valid env v) ∧ ∀ a, f.array = some a → ∃ xs, v = .arr xs ∧
        (∀ x ∈ xs, f.type.Valid valid env x) ∧ (a.kind = .auto → xs.length < 2 ^ 31) ∧
        (∀ signed length, f.type = .dynBits signed length → ∃ n k, length env = .ok n ∧ dynKind signed n = .ok k) ∧
        ∀ i < xs.length, ∀ o, f.offset = some o → o.indexed = true →
          ∃ os q, env.fields[o.field]? = some (.arr os) ∧ os[i]? = some (.int q) := by
  unfold writeValue
  refine Inverts.bind (inverts_lift fun m hm => hm) fun m hm => ?_
  rcases ha : f.array with _ | a
  · simp only
    refine (ElemType.inverts hk hm c v).mono fun _ h => ⟨fun _ => h, by simp⟩
  · simp only
    refine Inverts.bind (inverts_lift fun xs hx => hx) fun xs hx => ?_
    obtain rfl : v = .arr xs := by cases v <;> simp [Val.asArr] at hx; rw [hx]
    refine Inverts.bind (P := fun _ => _) ?_ fun _ h => inverts_pure h
    have hpk : f.arrayPacked a none = false := by
      unfold arrayPacked
      cases hf : f.packable
      · rfl
      · rw [hp a ha hf]; rfl
    unfold writeArray
    rw [hpk]
    simp only [Bool.false_eq_true, if_false]
    unfold Array'.write
    refine Inverts.bind (P := fun _ => (f.arrayCfg a).isAuto = true → xs.length < 2 ^ 31) ?_ fun _ hn => ?_
    · intro b0 u w' hw
      obtain ⟨bs, rfl⟩ : ∃ bs, w' = ofBits (b0 ++ bs) := by
        unfold Array'.writePrefix at hw
        by_cases hau : (f.arrayCfg a).isAuto = true
        · rw [if_pos hau] at hw
          exact appends_varsize _ _ _ _ hw
        · rw [if_neg hau] at hw
          exact appends_pure () _ _ _ hw
      exact ⟨(Array'.writePrefix_inv hw).2, bs, rfl⟩
    · refine (writeLoop_inverts (fun v => ElemType.inverts hk hm Ctx.empty v) (fun i => writeCheck_inverts f a env.fields i) xs 0).mono ?_
      rintro _ ⟨h1, h2⟩
      refine ⟨by simp, ?_⟩
      rintro _ ⟨⟩
      refine ⟨xs, rfl, h1, ?_, ?_, ?_⟩
      · intro hau
        apply hn
        rcases a with ⟨_ | _ | _, _⟩ <;> simp [FieldDef.arrayCfg] at hau ⊢
      · intro signed length ht
        rw [ht] at hm
        obtain ⟨n, h3, h4⟩ := except_bind_ok hm
        obtain ⟨k, h5, -⟩ := except_bind_ok h4
        exact ⟨n, k, h3, h5⟩
      · intro i hi
        simpa using h2 i hi

theorem writeInner_inverts (hk : ∀ id c v, Inverts ((codecs id).write none c v) fun _ => valid id v)
    (hp : ∀ a, f.array = some a → f.packable = true → a.isPacked = false) :
    Inverts (f.writeInner codecs env slot none c v) fun _ => f.ValidValue valid env v := by
  unfold writeInner
  refine (writeAlign_inverts f).bind fun _ hal => (writeOffset_inverts f env).bind fun _ hof => ?_
  refine Inverts.bind (inverts_lift fun _ h => h) fun _ hch => ?_
  unfold writeChecks at hch
  obtain ⟨_, hc1, hch⟩ := except_bind_ok hch
  obtain ⟨_, hc2, hch⟩ := except_bind_ok hch
  obtain ⟨_, hc3, -⟩ := except_bind_ok hch
  refine (writeValue_inverts hk hp).mono ?_
  rintro _ ⟨h1, h2⟩
  refine ⟨h1, ?_, checkConstraint_ok hc1, ?_, ?_, hal⟩
  · rintro a ha
    obtain ⟨xs, hv, h3, h4, h5, -⟩ := h2 a ha
    refine ⟨xs, hv, h3, h4, ?_, h5⟩
    intro length hl
    rcases a with ⟨k, p⟩
    obtain rfl : k = .fixed length := hl
    exact checkLength_ok hc2 ha hv
  · intro id args ha ht hne
    exact checkParams_ok hc3 ha ht hne
  · intro o ho
    by_cases hi : o.indexed = true
    · rw [if_pos hi]
      intro has xs hv i hix
      obtain ⟨a, ha⟩ := Option.isSome_iff_exists.1 has
      obtain ⟨xs', hv', -, -, -, h6⟩ := h2 a ha
      rw [hv] at hv'
      obtain rfl : xs = xs' := by injection hv'
      exact h6 i hix o ho hi
    · rw [if_neg hi]
      exact hof o ho (by simpa using hi)

theorem write_inverts (hk : ∀ id c v, Inverts ((codecs id).write none c v) fun _ => valid id v)
    (hp : ∀ a, f.array = some a → f.packable = true → a.isPacked = false) {present : Bool} :
    Inverts (f.write codecs env slot present none c v) fun _ => f.Valid valid env present v := by
  have hopt : Inverts (f.writeOptional codecs env slot none c v) fun _ => f.Valid valid env present v := by
    unfold writeOptional
    refine Inverts.bind (inverts_lift fun u hu => hu) fun u hu => ?_
    refine Inverts.bind (P := fun _ => True) (inverts_appends ?_ fun _ => trivial) fun _ _ => ?_
    · unfold writeAutoBit
      split
      · exact appends_call (.bool u)
      · exact appends_pure ()
    · cases u with
      | false => exact inverts_pure (.inr (.inl hu))
      | true => exact (writeInner_inverts hk hp).mono fun _ h => .inr (.inr ⟨hu, h⟩)
  unfold write
  by_cases he : f.extended = true
  · simp only [he, if_true]
    cases present with
    | false => exact inverts_pure (.inl ⟨he, rfl⟩)
    | true => exact Inverts.bind (inverts_appends (appends_alignto 8) (P := fun _ => True) fun _ => trivial) fun _ _ => hopt
  · simp only [he, Bool.false_eq_true, if_false]
    exact hopt

end FieldDef

/-! ### Compounds -/

theorem Struct.write_inverts (hk : ∀ id c v, Inverts ((codecs id).write none c v) fun _ => valid id v) {params : List Int}
    {numExt base : Nat} : ∀ {fs : List FieldDef} (_ : ∀ f ∈ fs, ∀ a, f.array = some a → f.packable = true → a.isPacked = false)
    (prior vs : List Val) (c : Ctx),
    Inverts (Struct.write codecs params numExt base none fs prior vs c) fun _ => Struct.Valid valid params numExt base fs prior vs
  | [], _, _, [], _ => inverts_pure trivial
  | [], _, _, _ :: _, _ => inverts_throw _
  | _ :: _, _, _, [], _ => inverts_throw _
  | f :: fs, hp, prior, v :: vs, c => by
    unfold Struct.write
    refine Inverts.bind (FieldDef.write_inverts hk (hp f (by simp))) fun c' h1 => ?_
    exact (Struct.write_inverts hk (fun g hg => hp g (by simp [hg])) (prior ++ [v]) vs c').mono fun _ h2 => ⟨h1, h2⟩

theorem CompoundDef.inverts (hk : ∀ id c v, Inverts ((codecs id).write none c v) fun _ => valid id v) {d : CompoundDef}
    (hp : d.AllFields fun f => ∀ a, f.array = some a → f.packable = true → a.isPacked = false) (c : Ctx) (x : Val) :
    Inverts ((d.codec codecs).write none c x) fun _ => d.Valid valid x := by
  cases d with
  | struct fs =>
    cases x with
    | obj ps k tag vs => exact Struct.write_inverts hk hp [] vs c
    | _ => exact inverts_throw _
  | union fs =>
    show Inverts ((Union.codec codecs fs).write none c x) _
    simp only [Union.codec]
    split
    · rename_i ps k tag v
      refine (intWrite_inverts (.var .varsize) c tag).bind fun c' htag => ?_
      refine Inverts.bind (inverts_lift fun f hf => hf) fun f hf => ?_
      refine (FieldDef.write_inverts hk (hp f (select_field hf))).mono fun _ h => ?_
      have : VarType.varsize.InRange tag := htag
      exact ⟨by have := this.2; simp [VarType.hi] at this; omega, f, hf, h⟩
    · exact inverts_throw _
  | choice selector cases default =>
    show Inverts ((Choice.codec codecs selector cases default).write none c x) _
    simp only [Choice.codec]
    split
    · rename_i ps k tag v
      refine Inverts.bind (inverts_lift fun y hy => hy) fun y hy => ?_
      obtain ⟨f, slot⟩ := y
      cases f with
      | none => exact inverts_pure ⟨none, slot, hy, by simp⟩
      | some f =>
        have hf : ∀ a, f.array = some a → f.packable = true → a.isPacked = false := by
          obtain ⟨s, hs, hc⟩ := except_bind_ok hy
          rcases selectCase_field hc with ⟨k, hk, hkf⟩ | hd
          · exact hp.1 k hk f hkf
          · exact hp.2 f hd
        exact (FieldDef.write_inverts hk hf).mono fun _ h => ⟨some f, slot, hy, by rintro _ ⟨⟩; exact h⟩
    · exact inverts_throw _

theorem Schema.inverts {defs : Schema} (hp : defs.NoPacked) : ∀ (n id : Nat) (c : Ctx) (x : Val),
    Inverts ((defs.codec n id).write none c x) fun _ => defs.Valid n id x
  | 0, _, _, _ => inverts_throw _
  | n + 1, id, c, x => CompoundDef.inverts (fun id c v => Schema.inverts hp n id c v) (hp id) c x

end Zserio
