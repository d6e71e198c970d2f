import Verif.Spec.SchemaInfo
import Verif.Lemmas.Rewrite
import Verif.Lemmas.RewriteStruct
import Verif.Lemmas.Rebuild
import Verif.Props.Bitmask
/-
The objects which are read have the type infos of their classes.
-/
set_option linter.unusedSimpArgs false
set_option linter.unusedVariables false
namespace Zserio
namespace SchemaInfo
open Json Reader

/-! ### What a successful read gives -/

/-- whatever is read has the property -/
def Gives {α : Type} (m : M Reader α) (P : α → Prop) : Prop := ∀ r a r', r.WF → m r = (.ok a, r') → P a

theorem Gives.bind {α β : Type} {m : M Reader α} {f : α → M Reader β} {P : α → Prop} {Q : β → Prop} (hs : Safe m) (hm : Gives m P)
    (hf : ∀ a, P a → Gives (f a) Q) : Gives (m >>= f) Q := by
  intro r b r' hr h
  obtain ⟨a, r1, h1, h2⟩ := M.bind_inv h
  have hw := (hs r hr).1
  rw [h1] at hw
  exact hf a (hm r a r1 hr h1) r1 b r' hw h2

theorem Gives.seq {α β : Type} {m : M Reader α} {f : α → M Reader β} {Q : β → Prop} (hs : Safe m)
    (hf : ∀ a, Gives (f a) Q) : Gives (m >>= f) Q :=
  Gives.bind (P := fun _ => True) hs (fun _ _ _ _ _ => trivial) fun a _ => hf a

theorem gives_pure {α : Type} {a : α} {P : α → Prop} (h : P a) : Gives (pure a : M Reader α) P := by
  intro r b r' _ hb
  simp only [M.pure_apply, Prod.mk.injEq, Except.ok.injEq] at hb
  rw [← hb.1]; exact h

theorem gives_throw {α : Type} (e : Err) (P : α → Prop) : Gives (M.throw e : M Reader α) P := by
  intro r b r' _ hb
  simp at hb

theorem gives_lift {α : Type} {x : Except Err α} {P : α → Prop} (h : ∀ a, x = .ok a → P a) : Gives (M.lift x : M Reader α) P := by
  intro r b r' _ hb
  simp only [M.lift, Prod.mk.injEq] at hb
  exact h b hb.1

theorem Gives.mono {α : Type} {m : M Reader α} {P Q : α → Prop} (h : Gives m P) (hPQ : ∀ a, P a → Q a) : Gives m Q :=
  fun r a r' hr ha => hPQ a (h r a r' hr ha)

theorem ok_inv {α β : Type} {x : Except Err α} {f : α → Except Err β} {b : β} (h : (x >>= f) = .ok b) :
    ∃ a, x = .ok a ∧ f a = .ok b := by
  cases x with
  | error e => cases h
  | ok a => exact ⟨a, rfl, h⟩

/-! ### Nodes -/

variable {I : TypeInfos}

/-- all values below the node have the property -/
def Below (I : TypeInfos) (P : MemberInfo → Val → Prop) (n : Node) : Prop :=
  ∀ p m x, HasNode I n p (.item m x) → (∀ cid, m.type ≠ .compound cid) → x ≠ .none → P m x

variable {P : MemberInfo → Val → Prop}

theorem below_object {id : Nat} {o : Val} (h : ∀ m x, FieldOf I id o m x → Below I P (m.node x)) : Below I P (.root id o) := by
  intro p m x hn hc hx
  cases hn with
  | step hch hrest =>
    cases hch with
    | field hc' hf =>
      cases hc' with
      | root => exact h _ _ hf _ _ _ hrest hc hx

theorem below_array {m : MemberInfo} {xs : List Val} (h : ∀ x ∈ xs, Below I P (.item m x)) : Below I P (.array m xs) := by
  intro p m' x hn hc hx
  cases hn with
  | step hch hrest =>
    cases hch with
    | elem hi => exact h _ (List.mem_of_getElem? hi) _ _ _ hrest hc hx
    | field hc' _ => cases hc'

theorem below_leaf {m : MemberInfo} {x : Val} (ht : ∀ cid, m.type ≠ .compound cid) (h : x ≠ .none → P m x) : Below I P (.item m x) := by
  intro p m' x' hn hc hx
  cases hn with
  | refl => exact h hx
  | step hch hrest =>
    cases hch with
    | field hc' _ =>
      cases hc' with
      | item ht' _ => exact absurd ht' (ht _)

theorem below_none {m : MemberInfo} : Below I P (.item m .none) := by
  intro p m' x' hn hc hx
  cases hn with
  | refl => exact absurd rfl hx
  | step hch hrest =>
    cases hch with
    | field hc' _ =>
      cases hc' with
      | item _ hn => simp [Val.isNone] at hn

theorem below_compound {m : MemberInfo} {id : Nat} {x : Val} (ht : m.type = .compound id) (h : Below I P (.root id x)) :
    Below I P (.item m x) := by
  intro p m' x' hn hc hx
  cases hn with
  | refl => exact absurd ht (hc id)
  | step hch hrest =>
    cases hch with
    | field hc' hf =>
      cases hc' with
      | item ht' _ =>
        rw [ht] at ht'
        cases ht'
        exact h _ _ _ (.step (.field .root hf) hrest) hc hx

/-! ### Values of fields -/

/-- a value of the member: bitmasks are within their bounds unless the schema has packed arrays; floating point numbers may be
NaNs -/
def Leaf (strict : Prop) (m : MemberInfo) (x : Val) : Prop :=
  Proper m.type x ∨ (∃ y, x = .float y ∧ m.type = .builtin .float) ∨ ∃ d y, m.type = .bitmask d ∧ x = .int y ∧ ¬ strict

variable {defs : Schema} {L : Labels} {codecs : Nat → Codec}

/-- the type infos and the object which was read -/
def Obj (defs : Schema) (L : Labels) (id : Nat) (ps : List Int) (v : Val) : Prop :=
  Fits (defs.infos L) defs.Whole (.object id ps) v ∧ Below (defs.infos L) (Leaf defs.NoPacked) (.root id v)

def Item (defs : Schema) (L : Labels) (m : MemberInfo) (env : Env) (v : Val) : Prop :=
  Fits (defs.infos L) defs.Whole (.item m env) v ∧ Below (defs.infos L) (Leaf defs.NoPacked) (.item m v)

def Fld (defs : Schema) (L : Labels) (m : MemberInfo) (env : Env) (v : Val) : Prop :=
  Fits (defs.infos L) defs.Whole (.field m env) v ∧ ∀ x, m.get v = .ok x → Below (defs.infos L) (Leaf defs.NoPacked) (m.node x)

/-- the methods of the compounds read proper objects -/
structure Reads (defs : Schema) (L : Labels) (codecs : Nat → Codec) : Prop where
  safe : ∀ id, (codecs id).SafeRead
  gives : ∀ id mode c ps, (defs.NoPacked → mode = none) → ps.length = L.numParams id →
    Gives ((codecs id).read mode c ps) fun a => Obj defs L id ps a.1

theorem item_simple {m : MemberInfo} {env : Env} {x : Val} (ht : ∀ id, m.type ≠ .compound id) (hi : Creator.isInstance m.type x = true)
    (hl : Leaf defs.NoPacked m x) : Item defs L m env x := ⟨.simple ht hi, below_leaf ht fun _ => hl⟩

theorem item_none {m : MemberInfo} {env : Env} : Item defs L m env .none := ⟨.none, below_none⟩

theorem Proper.isInstance {t : TypeInfo} {x : Val} (h : Proper t x) : Creator.isInstance t x = true := by
  unfold Proper at h
  split at h <;> simp_all [Creator.isInstance]

theorem item_proper {m : MemberInfo} {env : Env} {x : Val} (ht : ∀ id, m.type ≠ .compound id) (h : Proper m.type x) :
    Item defs L m env x := item_simple ht (Proper.isInstance h) (.inl h)

theorem item_compound {m : MemberInfo} {env : Env} {id : Nat} {ps : List Int} {x : Val} (ht : m.type = .compound id)
    (ha : evalArgs m.args env = .ok ps) (h : Obj defs L id ps x) : Item defs L m env x :=
  ⟨.compound ht ha h.1, below_compound ht h.2⟩

theorem gives_int {k : IntKind} {mode : Mode} {c : Ctx} {Q : Int → Prop} (h : ∀ x, (mode = none → k.InRange x) → Q x) :
    Gives (intRead k mode c) fun a => Q a.1 := by
  intro r a r' hr ha
  apply h
  rintro rfl
  unfold intRead at ha
  obtain ⟨x, r1, h1, h2⟩ := M.bind_inv ha
  simp only [M.pure_apply, Prod.mk.injEq, Except.ok.injEq] at h2
  rw [← h2.1]
  exact k.read_inRange (i := 0) hr h1

theorem evalArgs_length : ∀ {as : List (Expr Int)} {env : Env} {vs : List Int}, evalArgs as env = .ok vs → vs.length = as.length
  | [], _, vs, h => by cases h; rfl
  | a :: as, env, vs, h => by
    obtain ⟨v, _, h2⟩ := ok_inv h
    obtain ⟨ws, h3, h4⟩ := ok_inv h2
    cases h4
    simp [evalArgs_length h3]

theorem gives_other (b : Builtin) (i : Nat) (m : MemberInfo) (env : Env) (hm : m.type = .builtin b.pyType) :
    Gives (b.traits.read i) fun x => Item defs L m env (b.inj x) := by
  intro r x r' hr hx
  have hp := (b.reread hr hx).1
  have ht : ∀ id, m.type ≠ .compound id := by simp [hm]
  cases b with
  | bitField n => exact item_proper ht (by rw [hm]; trivial)
  | signedBitField n => exact item_proper ht (by rw [hm]; trivial)
  | var t => exact item_proper ht (by rw [hm]; trivial)
  | float16 => exact item_simple ht (by rw [hm]; rfl) (.inr (.inl ⟨x, rfl, hm⟩))
  | float32 => exact item_simple ht (by rw [hm]; rfl) (.inr (.inl ⟨x, rfl, hm⟩))
  | float64 => exact item_simple ht (by rw [hm]; rfl) (.inr (.inl ⟨x, rfl, hm⟩))
  | bool => exact item_proper ht (by rw [hm]; trivial)
  | bytes => exact item_proper ht (by rw [hm]; trivial)
  | string => exact item_proper ht (by rw [hm]; trivial)
  | bitBuffer =>
    refine item_proper ht ?_
    rw [hm]
    simp only [Builtin.inj, Builtin.proj] at hp
    split at hp
    · rename_i hb; exact hb
    · cases hp

theorem fieldDefs_hasField {d : CompoundDef} {f : FieldDef} : f ∈ d.fieldDefs ↔ d.HasField f := by
  cases d with
  | struct fs => rfl
  | union fs => rfl
  | choice s cases default =>
    simp only [CompoundDef.fieldDefs, CompoundDef.HasField, List.mem_append, List.mem_filterMap]
    rcases default with _ | _ | g <;> simp [eq_comm]

/-- the member info of a field -/
abbrev member (defs : Schema) (L : Labels) (id k : Nat) (f : FieldDef) : MemberInfo := f.info L id k ((defs id).extIndex k f)

theorem elements (hL : L.Rules defs) (hk : Reads defs L codecs) {id k : Nat} {f : FieldDef}
    (hf : (defs id).fieldDefs[k]? = some f) {env : Env} {m : Methods} (hm : f.type.methods codecs env = .ok m) {mode : Mode}
    (hmode : defs.NoPacked → mode = none) (c : Ctx) (i : Nat) :
    Gives (m.read mode c i) fun a => Item defs L (member defs L id k f) { env with index := i } a.1 := by
  have hfield := fieldDefs_hasField.1 (List.mem_of_getElem? hf)
  cases ht : f.type with
  | int kind =>
    rw [ht] at hm
    simp only [ElemType.methods, Except.ok.injEq] at hm
    subst hm
    have hty : (member defs L id k f).type = .builtin .int := by simp [FieldDef.info, ht, ElemType.info]
    exact Gives.bind (safe_intRead _ _ _) (gives_int (Q := fun _ => True) fun _ _ => trivial) fun a _ =>
      gives_pure (item_proper (by simp [hty]) (by rw [hty]; trivial))
  | other b =>
    rw [ht] at hm
    simp only [ElemType.methods, Except.ok.injEq] at hm
    subst hm
    exact Gives.bind (safe_builtin _ _) (gives_other b i _ { env with index := i } (by simp [FieldDef.info, ht, ElemType.info]))
      fun a ha => gives_pure ha
  | dynBits signed length =>
    rw [ht] at hm
    obtain ⟨n, _, h2⟩ := ok_inv hm
    obtain ⟨kind, _, h4⟩ := ok_inv h2
    cases h4
    have hty : (member defs L id k f).type = .builtin .int := by simp [FieldDef.info, ht, ElemType.info]
    exact Gives.bind (safe_intRead _ _ _) (gives_int (Q := fun _ => True) fun _ _ => trivial) fun a _ =>
      gives_pure (item_proper (by simp [hty]) (by rw [hty]; trivial))
  | enum e =>
    rw [ht] at hm
    simp only [ElemType.methods, Except.ok.injEq] at hm
    subst hm
    have hty : (member defs L id k f).type = .enum (L.enumClass id k) := by simp [FieldDef.info, ht, ElemType.info]
    refine Gives.seq (safe_intRead _ _ _) fun a => ?_
    obtain ⟨x, c'⟩ := a
    simp only
    split
    · rename_i hx
      refine gives_pure (item_proper (by simp [hty]) ?_)
      rw [hty]
      rw [← (hL.enums id k f e hf ht).1, List.mem_map] at hx
      obtain ⟨item, h1, h2⟩ := hx
      exact ⟨item, h1, h2⟩
    · exact gives_throw _ _
  | bitmask kind =>
    rw [ht] at hm
    simp only [ElemType.methods, Except.ok.injEq] at hm
    subst hm
    have hty : (member defs L id k f).type = .bitmask (L.bitmask id k) := by simp [FieldDef.info, ht, ElemType.info]
    refine Gives.bind (safe_intRead _ _ _) (gives_int (Q := fun x => mode = none → kind.InRange x) fun _ h => h) fun a ha =>
      gives_pure (item_simple (by simp [hty]) (by rw [hty]; rfl) ?_)
    by_cases hs : defs.NoPacked
    · left
      rw [hty]
      obtain ⟨h1, h2, _⟩ := hL.masks id k f kind hf ht
      obtain ⟨w, hw⟩ := Option.isSome_iff_exists.1 h2
      obtain ⟨h3, h4, h5⟩ := Bitmask.width_bounds hw
      have := ha (hmode hs)
      rw [← h1, h5] at this
      exact ⟨this.1, by rw [h3]; exact this.1, by rw [h4]; omega⟩
    · exact .inr (.inr ⟨_, _, hty, rfl, hs⟩)
  | compound cid args =>
    rw [ht] at hm
    simp only [ElemType.methods, Except.ok.injEq] at hm
    subst hm
    refine Gives.bind (P := fun ps => evalArgs args { env with index := i } = .ok ps) (safe_lift _) (gives_lift fun _ h => h) fun ps hps => ?_
    refine (hk.gives cid mode c ps hmode ?_).mono fun a ha => item_compound (by simp [FieldDef.info, ht, ElemType.info]) ?_ ha
    · rw [evalArgs_length hps, hL.arity id f cid args hfield ht]
    · simp only [FieldDef.info, ht, ElemType.args]; exact hps

/-! ### Arrays -/

theorem readLoop_gives {σ : Type} {tr : Traits Val} {chk : Option (Nat → Nat → σ → Except Err Unit)} {s : σ} {Q : Nat → Val → Prop}
    (hs : ∀ i, Safe (tr.read i)) (hg : ∀ i, Gives (tr.read i) (Q i)) :
    ∀ (n i : Nat), Gives (Array'.readLoop tr chk s i n) fun xs => ∀ (j : Nat) (x : Val), xs[j]? = some x → Q (i + j) x
  | 0, i => gives_pure (by simp)
  | n + 1, i => by
    refine Gives.seq (safe_readCheck _ _ _) fun _ => Gives.bind (hs i) (hg i) fun x hx => ?_
    refine Gives.bind (safe_readLoop _ hs _ _ _ _) (readLoop_gives hs hg n (i + 1)) fun xs hxs => gives_pure ?_
    intro j y hy
    cases j with
    | zero => simp at hy; subst hy; exact hx
    | succ j =>
      have := hxs j y (by simpa using hy)
      rwa [show i + (j + 1) = i + 1 + j by omega]

theorem arrayRead_gives {σ : Type} {tr : Traits Val} {cfg : ArrayCfg σ} {s : σ} {Q : Nat → Val → Prop}
    (hs : ∀ i, Safe (tr.read i)) (hg : ∀ i, Gives (tr.read i) (Q i)) (size : Nat) :
    Gives (Array'.read tr cfg s size) fun xs => ∀ (j : Nat) (x : Val), xs[j]? = some x → Q j x := by
  have key : ∀ (chk : Option (Nat → Nat → σ → Except Err Unit)) n, Gives (Array'.readLoop tr chk s 0 n)
      fun xs => ∀ (j : Nat) (x : Val), xs[j]? = some x → Q j x := fun chk n =>
    (readLoop_gives (chk := chk) (s := s) hs hg n 0).mono fun xs h j x hx => by simpa using h j x hx
  have hget : Safe (M.get : M Reader Reader) := fun r hr => ⟨hr, rfl, rfl⟩
  unfold Array'.read
  split
  · split
    · exact gives_throw _ _
    · refine Gives.seq hget fun r => ?_
      split
      · exact gives_throw _ _
      · exact key _ _
  · refine Gives.seq (safe_readSize _ _) fun n => ?_
    split
    · refine Gives.seq hget fun r => ?_
      split
      · exact gives_throw _ _
      · exact key _ _
    · exact key _ _

theorem readPackedLoop_gives {σ κ : Type} {pt : PackedTraits κ Val} {chk : Option (Nat → Nat → σ → Except Err Unit)} {s : σ}
    {Q : Nat → Val → Prop} (hs : ∀ c i, Safe (pt.read c i)) (hg : ∀ c i, Gives (pt.read c i) fun a => Q i a.1) :
    ∀ (n : Nat) (c : κ) (i : Nat), Gives (Array'.readPackedLoop pt chk s c i n) fun xs => ∀ (j : Nat) (x : Val), xs[j]? = some x → Q (i + j) x
  | 0, c, i => gives_pure (by simp)
  | n + 1, c, i => by
    refine Gives.seq (safe_readCheck _ _ _) fun _ => Gives.bind (hs c i) (hg c i) fun x hx => ?_
    refine Gives.bind (safe_readPackedLoop _ hs _ _ _ _ _) (readPackedLoop_gives hs hg n x.2 (i + 1)) fun xs hxs => gives_pure ?_
    intro j y hy
    cases j with
    | zero => simp at hy; subst hy; exact hx
    | succ j =>
      have := hxs j y (by simpa using hy)
      rwa [show i + (j + 1) = i + 1 + j by omega]

theorem readPacked_gives {σ κ : Type} {pt : PackedTraits κ Val} {cfg : ArrayCfg σ} {s : σ}
    {Q : Nat → Val → Prop} (hs : ∀ c i, Safe (pt.read c i)) (hg : ∀ c i, Gives (pt.read c i) fun a => Q i a.1) (size : Nat) :
    Gives (Array'.readPacked pt cfg s size) fun xs => ∀ (j : Nat) (x : Val), xs[j]? = some x → Q j x := by
  unfold Array'.readPacked
  split
  · exact gives_throw _ _
  · refine Gives.seq (safe_readSize _ _) fun n => ?_
    split
    · exact (readPackedLoop_gives (s := s) hs hg _ _ 0).mono fun xs h j x hx => by simpa using h j x hx
    · exact gives_pure (by simp)

/-! ### Fields -/

theorem methods_gives (hL : L.Rules defs) (hk : Reads defs L codecs) {id k : Nat} {f : FieldDef}
    (hf : (defs id).fieldDefs[k]? = some f) {env : Env} {m : Methods} (hm : f.type.methods codecs env = .ok m) (i : Nat) :
    Gives (m.traits.read i) fun x => Item defs L (member defs L id k f) { env with index := i } x :=
  Gives.bind (safe_methods hk.safe hm _ _ _) (elements hL hk hf hm (mode := none) (fun _ => rfl) Ctx.empty i) fun _ ha => gives_pure ha

theorem packed_arrays {id k : Nat} {f : FieldDef} (hf : (defs id).fieldDefs[k]? = some f) {a : ArrayDef} (ha : f.array = some a)
    {mode : Mode} (hmode : defs.NoPacked → mode = none) (hp : f.arrayPacked a mode = true) : ¬ defs.NoPacked := by
  intro hs
  have hm := hmode hs
  subst hm
  have hfield := fieldDefs_hasField.1 (List.mem_of_getElem? hf)
  have h := hs id
  have : ∀ a, f.array = some a → f.packable = true → a.isPacked = false := by
    rcases hd : defs id with fs | fs | ⟨s, cases, default⟩
    · rw [hd] at hfield h; exact h f hfield
    · rw [hd] at hfield h; exact h f hfield
    · rw [hd] at hfield h
      rcases hfield with ⟨c, h1, h2⟩ | h1
      · exact h.1 c h1 f h2
      · exact h.2 f h1
  simp only [FieldDef.arrayPacked, Option.isSome_none, Bool.false_or, Bool.and_eq_true] at hp
  rw [this a ha hp.1] at hp
  simp at hp

theorem fieldMode_none {f : FieldDef} {slot : Nat} : f.fieldMode slot none = none := by
  simp [FieldDef.fieldMode]

theorem fld_single {m : MemberInfo} {env : Env} {v : Val} (ha : m.isArray = false) (h : Item defs L m env v) :
    Fld defs L m env v := by
  refine ⟨.single ha h.1, fun x hx => ?_⟩
  have : m.node x = .item m v := by
    cases v <;> simp [MemberInfo.get, ha] at hx <;> subst hx <;> simp [MemberInfo.node, ha]
  rw [this]
  exact h.2

theorem fld_array {m : MemberInfo} {env : Env} {xs : List Val} (ha : m.isArray = true)
    (h : ∀ (i : Nat) (x : Val), xs[i]? = some x → Item defs L m { env with index := i } x) : Fld defs L m env (.arr xs) := by
  refine ⟨.array ha fun i x hx => (h i x hx).1, fun x hx => ?_⟩
  simp only [MemberInfo.get, Except.ok.injEq] at hx
  subst hx
  simp only [MemberInfo.node, ha, if_true]
  refine below_array fun x hx => ?_
  obtain ⟨i, hi⟩ := List.mem_iff_getElem?.1 hx
  exact (h i x hi).2

theorem fld_none {m : MemberInfo} {env : Env} (h : m.isArray = true → m.optional = true) : Fld defs L m env .none := by
  cases ha : m.isArray with
  | false => exact fld_single ha item_none
  | true =>
    refine ⟨.noArray ha (h ha), fun x hx => ?_⟩
    simp only [MemberInfo.get, ha, h ha, Bool.not_true, Bool.and_false, Bool.false_eq_true, if_false, Except.ok.injEq] at hx
    subst hx
    exact below_none

theorem value_gives (hL : L.Rules defs) (hk : Reads defs L codecs) {id k : Nat} {f : FieldDef}
    (hf : (defs id).fieldDefs[k]? = some f) {env : Env} (henv : env.index = 0) {mode : Mode} (hmode : defs.NoPacked → mode = none)
    (slot : Nat) (c : Ctx) : Gives (f.readValue codecs env slot mode c) fun a => Fld defs L (member defs L id k f) env a.1 := by
  unfold FieldDef.readValue
  refine Gives.bind (P := fun m => f.type.methods codecs env = .ok m) (safe_lift _) (gives_lift fun _ h => h) fun m hm => ?_
  have hs := safe_methods hk.safe hm
  have h0 : ({ env with index := 0 } : Env) = env := by rw [← henv]
  split
  · rename_i ha
    refine (elements hL hk hf hm (mode := f.fieldMode slot mode) ?_ c 0).mono fun a h => fld_single (by simp [FieldDef.info, ha]) ?_
    · intro h
      rw [hmode h, fieldMode_none]
    · rw [h0] at h; exact h
  · rename_i a ha
    refine Gives.seq (safe_lift _) fun size => ?_
    have h2 : ∀ i, Safe (m.traits.read i) := fun i => (hs none Ctx.empty i).bind (fun _ => safe_pure _)
    have h1 : ∀ c i, Safe (m.packedTraits.read c i) := fun c i => hs (some []) c i
    have hsafe : Safe (f.readArray a m mode env.fields size) := by
      unfold FieldDef.readArray
      exact safe_ite (safe_readPacked _ h1 _ _ _) (safe_arrayRead _ h2 _ _ _)
    refine Gives.bind (P := fun xs : List Val => ∀ (j : Nat) (x : Val), xs[j]? = some x →
      Item defs L (member defs L id k f) { env with index := j } x) hsafe ?_ fun xs hxs =>
      gives_pure (fld_array (by simp [FieldDef.info, ha]) hxs)
    unfold FieldDef.readArray
    split
    · rename_i hp
      refine readPacked_gives h1 (fun c i => elements hL hk hf hm (mode := some []) (fun h => ?_) c i) size
      exact absurd h (packed_arrays hf ha hmode hp)
    · exact arrayRead_gives h2 (methods_gives hL hk hf hm) size

theorem field_gives (hL : L.Rules defs) (hk : Reads defs L codecs) {id k : Nat} {f : FieldDef}
    (hf : (defs id).fieldDefs[k]? = some f) {env : Env} (henv : env.index = 0) {mode : Mode} (hmode : defs.NoPacked → mode = none)
    (slot : Nat) (c : Ctx) : Gives (f.read codecs env slot mode c) fun a => Fld defs L (member defs L id k f) env a.1 := by
  unfold FieldDef.read
  refine Gives.bind (P := fun used : Bool => used = false → f.optional ≠ .required) ?_ ?_ fun used hu => ?_
  · unfold FieldDef.readUsed
    split
    · exact safe_pure _
    · exact (safe_readBitsUnchecked _).bind (fun _ => safe_pure _)
    · exact safe_lift _
  · unfold FieldDef.readUsed
    split
    · exact gives_pure (by simp)
    · rename_i ho; exact fun _ _ _ _ _ _ => by simp [ho]
    · rename_i ho; exact fun _ _ _ _ _ _ => by simp [ho]
  · split
    · unfold FieldDef.readInner
      refine Gives.seq ?_ fun _ => Gives.seq ?_ fun _ => Gives.bind (FieldDef.safe_readValue hk.safe f env slot mode c)
        (value_gives hL hk hf henv hmode slot c) fun a ha => Gives.seq (safe_lift _) fun _ => gives_pure ha
      · unfold FieldDef.readAlign
        split
        · exact safe_alignto _
        · exact safe_pure _
      · unfold FieldDef.readOffset
        split
        · exact (safe_alignto _).bind (fun _ => safe_get_bind (fun _ => safe_lift _))
        · exact safe_pure _
    · rename_i hn
      refine gives_pure (fld_none fun _ => ?_)
      have := hu (by simpa using hn)
      cases ho : f.optional <;> simp_all [FieldDef.info]

theorem default_fld (hL : L.Rules defs) {id k : Nat} {f : FieldDef} (hf : (defs id).fieldDefs[k]? = some f)
    (he : f.extended = true) {env : Env} : Fld defs L (member defs L id k f) env f.default := by
  have h := hL.default id k f hf he
  unfold FieldDef.ProperDefault at h
  split at h
  · rename_i a ha
    rcases h with h | ⟨h, ho⟩
    · rw [h]; exact fld_array (by simp [FieldDef.info, ha]) (by simp)
    · rw [h]
      refine fld_none fun _ => ?_
      cases ho' : f.optional <;> simp_all [FieldDef.info]
  · rename_i ha
    rcases h with h | ⟨h1, h2⟩
    · rw [h]; exact fld_single (by simp [FieldDef.info, ha]) item_none
    · exact fld_single (by simp [FieldDef.info, ha]) (item_proper h1 h2)

/-! ### Structures -/

theorem readField_gives (hL : L.Rules defs) (hk : Reads defs L codecs) {id k : Nat} {f : FieldDef}
    (hf : (defs id).fieldDefs[k]? = some f) {env : Env} (henv : env.index = 0) {mode : Mode} (hmode : defs.NoPacked → mode = none)
    (slot K : Nat) (c : Ctx) : Gives (Struct.readField codecs f env slot mode K c)
      fun a => Fld defs L (member defs L id k f) env a.1 ∧ (f.extended = false → a.2.1 = K) := by
  have hr := field_gives hL hk hf henv hmode slot c
  have hs := FieldDef.safe_read hk.safe f env slot mode c
  have hget : Safe (M.get : M Reader Reader) := fun r hr => ⟨hr, rfl, rfl⟩
  unfold Struct.readField
  split
  · rename_i he
    refine Gives.seq hget fun r => ?_
    split
    · exact gives_pure ⟨default_fld hL hf he, by simp [he]⟩
    · exact Gives.seq (safe_alignto _) fun _ => Gives.bind hs hr fun a ha => gives_pure ⟨ha, by simp [he]⟩
  · exact Gives.bind hs hr fun a ha => gives_pure ⟨ha, fun _ => rfl⟩

theorem safe_readField (hk : ∀ id, (codecs id).SafeRead) (f : FieldDef) (env : Env) (slot : Nat) (mode : Mode) (K : Nat) (c : Ctx) :
    Safe (Struct.readField codecs f env slot mode K c) := by
  unfold Struct.readField
  have := FieldDef.safe_read hk f env slot mode c
  refine safe_ite (safe_get_bind (fun _ => safe_ite (safe_pure _) ?_)) (this.bind (fun _ => safe_pure _))
  exact (safe_alignto _).bind (fun _ => this.bind (fun _ => safe_pure _))

theorem struct_gives (hL : L.Rules defs) (hk : Reads defs L codecs) {id : Nat} {params : List Int} {mode : Mode}
    (hmode : defs.NoPacked → mode = none) :
    ∀ (fs : List FieldDef) (prior : List Val) (K : Nat) (c : Ctx), (defs id).fieldDefs.drop prior.length = fs →
      Gives (Struct.read codecs params mode fs prior K c) fun a =>
        prior <+: a.1 ∧ a.1.length = prior.length + fs.length ∧ ((∀ f ∈ fs, f.extended = false) → a.2.1 = K) ∧
        ∀ (j : Nat) (f : FieldDef) (v : Val), prior.length ≤ j → (defs id).fieldDefs[j]? = some f → a.1[j]? = some v →
          Fld defs L (member defs L id j f) ⟨params, a.1.take j, 0⟩ v
  | [], prior, K, c, h => by
    refine gives_pure ⟨List.prefix_rfl, rfl, fun _ => rfl, fun j f v hj hf hv => ?_⟩
    have := (List.getElem?_eq_some_iff.1 hv).1
    simp only at this
    omega
  | f :: fs, prior, K, c, h => by
    have hf : (defs id).fieldDefs[prior.length]? = some f := by
      have := congrArg (fun l => l[0]?) h
      simpa using this
    have hd : (defs id).fieldDefs.drop (prior.length + 1) = fs := by
      have := congrArg (List.drop 1) h
      simpa using this
    refine Gives.bind (safe_readField hk.safe _ _ _ _ _ _) (readField_gives hL hk hf rfl hmode _ _ _) fun a ha => ?_
    refine (struct_gives hL hk hmode fs (prior ++ [a.1]) a.2.1 a.2.2 (by simpa using hd)).mono fun b hb => ?_
    obtain ⟨h1, h2, h3, h4⟩ := hb
    obtain ⟨rest, hrest⟩ := h1
    refine ⟨⟨a.1 :: rest, by rw [← hrest]; simp⟩, by rw [h2]; simp; omega, fun hx => ?_, fun j g v hj hg hv => ?_⟩
    · rw [h3 fun g hg => hx g (by simp [hg]), ha.2 (hx f (by simp))]
    · rcases Nat.lt_or_ge prior.length j with hlt | hge
      · exact h4 j g v (by simp; omega) hg hv
      · have hj' : j = prior.length := by omega
        subst hj'
        rw [hf] at hg
        cases hg
        have e : b.1 = prior ++ a.1 :: rest := by rw [← hrest]; simp
        rw [e] at hv ⊢
        simp at hv
        subst hv
        simpa using ha.1

/-! ### Compounds -/

theorem members_get {id k : Nat} {m : MemberInfo} (h : (defs.infos L id).fields[k]? = some m) :
    ∃ f, (defs id).fieldDefs[k]? = some f ∧ m = member defs L id k f := by
  simp only [Schema.infos, CompoundDef.info, CompoundDef.members, List.getElem?_mapIdx, Option.map_eq_some_iff] at h
  obtain ⟨f, h1, h2⟩ := h
  exact ⟨f, h1, h2.symm⟩

theorem members_of {id k : Nat} {f : FieldDef} (h : (defs id).fieldDefs[k]? = some f) :
    (defs.infos L id).fields[k]? = some (member defs L id k f) := by
  simp [Schema.infos, CompoundDef.info, CompoundDef.members, List.getElem?_mapIdx, h]

theorem members_length {id : Nat} : (defs.infos L id).fields.length = (defs id).fieldDefs.length := by
  simp [Schema.infos, CompoundDef.info, CompoundDef.members]

theorem struct_obj (hL : L.Rules defs) {id : Nat} {fs : List FieldDef} (hd : defs id = .struct fs) {ps : List Int}
    (hps : ps.length = L.numParams id) {K : Nat} {vs : List Val} (hlen : vs.length = fs.length)
    (hK : (∀ f ∈ fs, f.extended = false) → K = 0)
    (h : ∀ (j : Nat) (f : FieldDef) (v : Val), (defs id).fieldDefs[j]? = some f → vs[j]? = some v →
      Fld defs L (member defs L id j f) ⟨ps, vs.take j, 0⟩ v) : Obj defs L id ps (.obj ps K 0 vs) := by
  have hkind : (defs.infos L id).kind = .struct := by simp [Schema.infos, CompoundDef.info, hd]
  constructor
  · refine .struct hkind (by simp [Schema.infos, CompoundDef.info, hps]) ?_ ?_ ?_
    · rw [members_length, hd]; exact hlen
    · intro hw
      have hx : ∀ f ∈ fs, f.extended = false := fun f hf => hw.extended id f (by rw [hd]; exact hf)
      rw [hK hx]
      have : numExtended fs = 0 := by
        simp only [numExtended, List.length_eq_zero_iff, List.filter_eq_nil_iff]
        intro f hf; simp [hx f hf]
      simp [CompoundInfo.initialExtended, Schema.infos, CompoundDef.info, hd, this]
    · intro i m v hm hv
      obtain ⟨f, h1, rfl⟩ := members_get hm
      exact (h i f v h1 hv).1
  · refine below_object fun m x hf => ?_
    cases hf with
    | struct _ hm hv hg =>
      obtain ⟨k, hk⟩ := List.mem_iff_getElem?.1 hm
      obtain ⟨f, h1, rfl⟩ := members_get hk
      exact (h k f _ h1 hv).2 x hg
    | chosen ht _ _ => simp [CompoundInfo.choiceTag, hkind] at ht

theorem union_obj {id : Nat} {fs : List FieldDef} (hd : defs id = .union fs) {ps : List Int} (hps : ps.length = L.numParams id)
    {i : Nat} {f : FieldDef} (hf : fs[i]? = some f) {v : Val} (h : Fld defs L (member defs L id i f) ⟨ps, [], 0⟩ v) :
    Obj defs L id ps (.obj ps 0 (i : Int) [v]) := by
  have hkind : (defs.infos L id).kind = .union := by simp [Schema.infos, CompoundDef.info, hd]
  have hm := members_of (L := L) (show (defs id).fieldDefs[i]? = some f by rw [hd]; exact hf)
  refine ⟨.union hkind (by simp [Schema.infos, CompoundDef.info, hps]) hm h.1, below_object fun m x hx => ?_⟩
  cases hx with
  | struct hk _ _ _ => rw [hkind] at hk; cases hk
  | chosen ht hm' hg =>
    simp only [CompoundInfo.choiceTag, hkind, Except.ok.injEq, Option.some.injEq, Int.natCast_inj] at ht
    subst ht
    rw [hm] at hm'
    cases hm'
    exact h.2 x hg

theorem selectCase_tag : ∀ {cases : List CaseDef} {default : Option (Option FieldDef)} {n slot : Nat} {s : Int} {f : FieldDef} (i : Nat),
    Choice.selectCase cases default n s = .ok (some f, slot) →
      ∃ k, Choice.tagOf cases default i s = ((i + k : Nat) : Int) ∧ (cases.filterMap CaseDef.field ++ (default.bind fun f => f).toList)[k]? = some f
  | [], some none, n, slot, s, f, i, h => by simp [Choice.selectCase] at h
  | [], some (some g), n, slot, s, f, i, h => by
    simp only [Choice.selectCase, Except.ok.injEq, Prod.mk.injEq, Option.some.injEq] at h
    exact ⟨0, by simp [Choice.tagOf], by simp [h.1]⟩
  | [], none, n, slot, s, f, i, h => by cases h
  | c :: cs, default, n, slot, s, f, i, h => by
    simp only [Choice.selectCase] at h
    split at h
    · rename_i hs
      simp only [Except.ok.injEq, Prod.mk.injEq] at h
      exact ⟨0, by simp [Choice.tagOf, h.1, hs], by simp [h.1]⟩
    · rename_i hs
      rcases hc : c.field with _ | g
      · obtain ⟨k, h1, h2⟩ := selectCase_tag i h
        exact ⟨k, by simp [Choice.tagOf, hc, hs, h1], by simpa [hc] using h2⟩
      · obtain ⟨k, h1, h2⟩ := selectCase_tag (i + 1) h
        exact ⟨k + 1, by simp [Choice.tagOf, hc, hs, h1]; omega, by simpa [hc] using h2⟩

theorem selectCase_empty : ∀ {cases : List CaseDef} {default : Option (Option FieldDef)} {n slot : Nat} {s : Int} (i : Nat),
    Choice.selectCase cases default n s = .ok (none, slot) →
      Choice.tagOf cases default i s = UNDEFINED_CHOICE ∧ ((∃ k ∈ cases, k.field = none) ∨ default = some none)
  | [], some none, n, slot, s, i, h => ⟨rfl, .inr rfl⟩
  | [], some (some g), n, slot, s, i, h => by simp [Choice.selectCase] at h
  | [], none, n, slot, s, i, h => by cases h
  | c :: cs, default, n, slot, s, i, h => by
    simp only [Choice.selectCase] at h
    split at h
    · rename_i hs
      simp only [Except.ok.injEq, Prod.mk.injEq] at h
      exact ⟨by simp [Choice.tagOf, h.1, hs], .inl ⟨c, by simp, h.1⟩⟩
    · rename_i hs
      rcases hc : c.field with _ | g
      · obtain ⟨h1, h2⟩ := selectCase_empty i h
        refine ⟨by simp [Choice.tagOf, hc, hs, h1], h2.imp_left ?_⟩
        rintro ⟨k, h3, h4⟩
        exact ⟨k, by simp [h3], h4⟩
      · obtain ⟨h1, h2⟩ := selectCase_empty (i + 1) h
        refine ⟨by simp [Choice.tagOf, hc, hs, h1], h2.imp_left ?_⟩
        rintro ⟨k, h3, h4⟩
        exact ⟨k, by simp [h3], h4⟩

section
variable {selector : Expr Int} {cases : List CaseDef} {default : Option (Option FieldDef)}

theorem choice_obj {id : Nat} (hd : defs id = .choice selector cases default) {ps : List Int} (hps : ps.length = L.numParams id)
    {i : Nat} {f : FieldDef} (hf : (defs id).fieldDefs[i]? = some f) (ht : Choice.tag selector cases default ps = .ok (i : Int))
    {v : Val} (h : Fld defs L (member defs L id i f) ⟨ps, [], 0⟩ v) : Obj defs L id ps (.obj ps 0 0 [v]) := by
  have hkind : (defs.infos L id).kind = .choice (Choice.tag selector cases default) := by simp [Schema.infos, CompoundDef.info, hd]
  have hm := members_of (L := L) hf
  refine ⟨.choice hkind (by simp [Schema.infos, CompoundDef.info, hps]) ht hm h.1, below_object fun m x hx => ?_⟩
  cases hx with
  | struct hk _ _ _ => rw [hkind] at hk; cases hk
  | chosen ht' hm' hg =>
    simp only [CompoundInfo.choiceTag, hkind, ht, ok_bind, Except.ok.injEq, Option.some.injEq, Int.natCast_inj] at ht'
    subst ht'
    rw [hm] at hm'
    cases hm'
    exact h.2 x hg

theorem empty_obj {id : Nat} (hd : defs id = .choice selector cases default) {ps : List Int} (hps : ps.length = L.numParams id)
    (ht : Choice.tag selector cases default ps = .ok UNDEFINED_CHOICE) (he : (∃ k ∈ cases, k.field = none) ∨ default = some none) :
    Obj defs L id ps (.obj ps 0 0 [.unset]) := by
  have hkind : (defs.infos L id).kind = .choice (Choice.tag selector cases default) := by simp [Schema.infos, CompoundDef.info, hd]
  refine ⟨.noChoice hkind (by simp [Schema.infos, CompoundDef.info, hps]) ht (.inr rfl) fun hw => ?_, below_object fun m x hx => ?_⟩
  · obtain ⟨h1, h2⟩ := hw.cases id _ _ _ hd
    rcases he with ⟨k, h3, h4⟩ | he
    · exact absurd h4 (h1 k h3)
    · exact absurd he h2
  · cases hx with
    | struct hk _ _ _ => rw [hkind] at hk; cases hk
    | chosen ht' hm' hg =>
      simp only [MemberInfo.get] at hg
      cases hg

end

theorem compound_gives (hL : L.Rules defs) (hk : Reads defs L codecs) (id : Nat) (mode : Mode) (c : Ctx) (ps : List Int)
    (hmode : defs.NoPacked → mode = none) (hps : ps.length = L.numParams id) :
    Gives (((defs id).codec codecs).read mode c ps) fun a => Obj defs L id ps a.1 := by
  cases hd : defs id with
  | struct fs =>
    have hfd : (defs id).fieldDefs = fs := by rw [hd]; rfl
    refine Gives.bind (Struct.safe_read hk.safe _ _ _ _ _ _)
      (struct_gives hL hk (id := id) hmode fs [] 0 c (by rw [hfd]; rfl)) fun a ha => gives_pure ?_
    obtain ⟨_, h2, h3, h4⟩ := ha
    exact struct_obj hL hd hps (by simpa using h2) h3 fun j f v hf hv => h4 j f v (by simp) hf hv
  | union fs =>
    have hfd : (defs id).fieldDefs = fs := by rw [hd]; rfl
    refine Gives.seq (safe_intRead _ _ _) fun a => ?_
    refine Gives.bind (P := fun f => ∃ i : Nat, a.1 = (i : Int) ∧ fs[i]? = some f) (safe_lift _) (gives_lift fun f hf => ?_) fun f hf => ?_
    · unfold Union.select at hf
      split at hf
      · cases hf
      · rename_i hneg
        refine ⟨a.1.toNat, by omega, ?_⟩
        split at hf
        · rename_i g hg; cases hf; exact hg
        · cases hf
    · obtain ⟨i, h1, h2⟩ := hf
      obtain ⟨tag, c1⟩ := a
      simp only at h1
      subst h1
      refine Gives.bind (Branch.safe_read hk.safe _ _ _ _ _)
        (field_gives hL hk (id := id) (k := i) (by rw [hfd]; exact h2) rfl hmode _ _) fun b hb => gives_pure ?_
      exact union_obj hd hps h2 hb
  | choice selector cases default =>
    refine Gives.bind (P := fun a => Choice.select selector cases default ps = .ok a) (safe_lift _) (gives_lift fun _ h => h) fun a ha => ?_
    obtain ⟨f, slot⟩ := a
    obtain ⟨s, hs, hsel⟩ := ok_inv ha
    cases f with
    | none =>
      refine Gives.bind (P := fun a => a.1 = .unset) (safe_pure _) (gives_pure rfl) fun a ha' => gives_pure ?_
      simp only [ha']
      obtain ⟨h1, h2⟩ := selectCase_empty 0 hsel
      exact empty_obj hd hps (by simp [Choice.tag, hs, ok_bind, h1]) h2
    | some f =>
      obtain ⟨k, h1, h2⟩ := selectCase_tag 0 hsel
      have hf : (defs id).fieldDefs[k]? = some f := by rw [hd]; exact h2
      refine Gives.bind (Branch.safe_read hk.safe _ _ _ _ _) (field_gives hL hk hf rfl hmode _ _) fun b hb => gives_pure ?_
      exact choice_obj hd hps hf (by simp [Choice.tag, hs, ok_bind, h1]) hb

/-- whatever is read for a compound of the schema is an object of its type -/
theorem schema_reads (hL : L.Rules defs) : ∀ n, Reads defs L (defs.codec n)
  | 0 => ⟨fun id => Schema.safeRead defs 0 id, fun _ _ _ _ _ _ => gives_throw _ _⟩
  | n + 1 => ⟨fun id => Schema.safeRead defs (n + 1) id, fun id mode c ps hm hp => compound_gives hL (schema_reads hL n) id mode c ps hm hp⟩

/-! ### The type infos -/

theorem regular (hL : L.Rules defs) : (defs.infos L).Regular where
  numbered := by
    intro id k m h
    obtain ⟨f, _, rfl⟩ := members_get h
    rfl
  names := by
    intro id
    rw [List.Nodup, List.pairwise_iff_getElem]
    intro i j hi hj hij he
    simp only [List.length_map] at hi hj
    have name : ∀ k (hk : k < (defs.infos L id).fields.length), (defs.infos L id).fields[k].schemaName = L.name id k := by
      intro k hk
      obtain ⟨f, _, h⟩ := members_get (List.getElem?_eq_getElem hk)
      rw [h]; rfl
    rw [List.getElem_map, List.getElem_map, name, name] at he
    rw [members_length] at hi hj
    have := hL.distinct id i j hi hj he
    omega
  defaults := by
    intro id h
    rw [members_length]
    cases hd : defs id with
    | struct fs => simp [Schema.infos, CompoundDef.info, hd, CompoundDef.fieldDefs]
    | union fs => simp [Schema.infos, CompoundDef.info, hd] at h
    | choice a b c => simp [Schema.infos, CompoundDef.info, hd] at h
  extended := by
    intro id m i hm hi
    obtain ⟨k, hk⟩ := List.mem_iff_getElem?.1 hm
    obtain ⟨f, h1, rfl⟩ := members_get hk
    cases hd : defs id with
    | struct fs =>
      rw [hd] at h1
      simp only [CompoundDef.fieldDefs] at h1
      simp only [FieldDef.info, CompoundDef.extIndex, hd] at hi
      split at hi
      · rename_i he
        have hlt := (List.getElem?_eq_some_iff.1 h1).1
        have hpos : 0 < numExtended fs := List.length_pos_of_mem (List.mem_filter.2 ⟨List.mem_of_getElem? h1, he⟩)
        have hle := List.length_filter_le (fun f : FieldDef => f.extended) fs
        simp only [CompoundInfo.initialExtended]
        rw [members_length, hd]
        simp only [Schema.infos, CompoundDef.info, hd, CompoundDef.fieldDefs, hpos, gt_iff_lt, if_true]
        cases hi
        omega
      · cases hi
    | union fs => simp [FieldDef.info, CompoundDef.extIndex, hd] at hi
    | choice a b c => simp [FieldDef.info, CompoundDef.extIndex, hd] at hi
  args := by
    intro id m hm e he env env' h
    obtain ⟨k, hk⟩ := List.mem_iff_getElem?.1 hm
    obtain ⟨f, h1, rfl⟩ := members_get hk
    exact hL.blind id f (fieldDefs_hasField.1 (List.mem_of_getElem? h1)) e he env env' h

theorem names (hL : L.Rules defs) (id : Nat) (m : MemberInfo) (hm : m ∈ (defs.infos L id).fields) :
    Identifier m.schemaName ∧ NamesOf m.type := by
  obtain ⟨k, hk⟩ := List.mem_iff_getElem?.1 hm
  obtain ⟨f, h1, rfl⟩ := members_get hk
  refine ⟨hL.identifiers id k (List.getElem?_eq_some_iff.1 h1).1, ?_⟩
  simp only [FieldDef.info]
  cases ht : f.type with
  | enum e => exact (hL.enums id k f e h1 ht).2
  | bitmask t => exact (hL.masks id k f t h1 ht).2.2
  | _ => trivial

end SchemaInfo
end Zserio
