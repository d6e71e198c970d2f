import Verif.Lemmas.SchemaInfo
import Verif.Spec.Offsets
import Verif.Lemmas.InitStruct
/-
What has been read is stored as it is, whatever the schema: with packed arrays and offsets.
-/
set_option linter.unusedSimpArgs false
set_option linter.unusedVariables false
namespace Zserio
namespace Reread
open Reader SchemaInfo

variable {codecs : Nat → Codec} {canonical rewritable : Nat → Val → Prop}

/-! ### Canonical objects, without the condition on the size of extended fields -/

def StructLoose (canonical : Nat → Val → Prop) (params : List Int) (numExt base : Nat) : List FieldDef → (prior : List Val) → List Val → Prop
  | [], _, [] => True
  | f :: fs, prior, v :: vs =>
    f.Canonical canonical ⟨params, prior, 0⟩ (Struct.isPresent numExt base prior.length) v ∧
    StructLoose canonical params numExt base fs (prior ++ [v]) vs
  | _, _, _ => False

def CompoundLoose (canonical : Nat → Val → Prop) : CompoundDef → Val → Prop
  | .struct fs, .obj ps k tag vs => k ≤ numExtended fs ∧ tag = 0 ∧ StructLoose canonical ps k (Struct.base fs) fs [] vs
  | .union fs, .obj ps k tag [v] =>
    k = 0 ∧ ∃ f, Union.select fs tag = .ok f ∧ f.Canonical canonical ⟨ps, [], 0⟩ true v
  | .choice selector cases default, .obj ps k tag [v] =>
    k = 0 ∧ tag = 0 ∧ ∃ f slot, Choice.select selector cases default ps = .ok (f, slot) ∧
      match f with
      | some f => f.Canonical canonical ⟨ps, [], 0⟩ true v
      | none => v = .unset
  | _, _ => False

def Loose (defs : Schema) : (n : Nat) → (id : Nat) → Val → Prop
  | 0, _, _ => False
  | n + 1, id, x => CompoundLoose (Loose defs n) (defs id) x

/-! ### With the condition -/

theorem elem_canonical (h : ∀ id x, canonical id x → rewritable id x → canonical' id x) {t : ElemType} {env : Env} {i : Nat} {v : Val}
    (hc : t.Canonical canonical env i v) (hr : t.Rewritable rewritable v) : t.Canonical canonical' env i v := by
  cases t with
  | compound id args => exact ⟨h _ _ hc.1 hr, hc.2⟩
  | _ => exact hc

theorem field_canonical (h : ∀ id x, canonical id x → rewritable id x → canonical' id x) {f : FieldDef} {env : Env} {present : Bool} {v : Val}
    (hc : f.Canonical canonical env present v) (hr : (f.extended && !present) = false → f.Rewritable rewritable env v) :
    f.Canonical canonical' env present v := by
  unfold FieldDef.Canonical at hc ⊢
  split at hc
  · rename_i hp; rw [if_pos hp]; exact hc
  · rename_i hp
    rw [if_neg hp]
    refine ⟨fun hu => ?_, hc.2⟩
    have hr' := hr (by simpa using hp) hu
    have hc' := hc.1 hu
    unfold FieldDef.CanonicalValue at hc' ⊢
    unfold FieldDef.RewritableValue at hr'
    split at hc' <;> rename_i ha
    · rw [ha] at hr'
      exact elem_canonical h hc' hr'
    · rw [ha] at hr'
      obtain ⟨xs, hx, hall⟩ := hc'
      refine ⟨xs, hx, ?_⟩
      have hr'' := hr'.2 xs hx
      clear hx hr' hc hr hu
      generalize 0 = i at hall ⊢
      induction xs generalizing i with
      | nil => trivial
      | cons x xs ih => exact ⟨elem_canonical h hall.1 (hr'' x (by simp)), ih (fun y hy => hr'' y (by simp [hy])) _ hall.2⟩

theorem struct_canonical (h : ∀ id x, canonical id x → rewritable id x → canonical' id x) {params : List Int} {K base : Nat} :
    ∀ {fs : List FieldDef} {prior vs : List Val}, StructLoose canonical params K base fs prior vs →
      Struct.Rewritable codecs rewritable params K base fs prior vs → Struct.Canonical codecs canonical' params K base fs prior vs
  | [], _, [], _, _ => trivial
  | [], _, _ :: _, hc, _ => hc.elim
  | _ :: _, _, [], hc, _ => hc.elim
  | f :: fs, prior, v :: vs, hc, hr => ⟨field_canonical h hc.1 hr.1, hr.2.1, struct_canonical h hc.2 hr.2.2⟩

theorem compound_canonical (h : ∀ id x, canonical id x → rewritable id x → canonical' id x) {d : CompoundDef} {x : Val}
    (hc : CompoundLoose canonical d x) (hr : d.Rewritable codecs rewritable x) : d.Canonical codecs canonical' x := by
  cases d with
  | struct fs =>
    cases x <;> try exact hc.elim
    exact ⟨hc.1, hc.2.1, struct_canonical h hc.2.2 hr⟩
  | union fs =>
    match x, hc with
    | .obj ps k tag [v], hc =>
      obtain ⟨h1, f, h2, h3⟩ := hc
      exact ⟨h1, f, h2, field_canonical h h3 fun _ => hr f h2⟩
  | choice s cs d =>
    match x, hc with
    | .obj ps k tag [v], hc =>
      obtain ⟨h1, h2, f, slot, h3, h4⟩ := hc
      refine ⟨h1, h2, f, slot, h3, ?_⟩
      cases f with
      | none => exact h4
      | some f => exact field_canonical h h4 fun _ => hr f slot h3

theorem schema_canonical {defs : Schema} : ∀ n id x, Loose defs n id x → defs.Rewritable n id x → defs.Canonical n id x
  | 0, _, _, h, _ => h.elim
  | n + 1, id, x, hc, hr => compound_canonical (schema_canonical n) hc hr

/-! ### What is read -/

/-- the methods of the compounds read loose objects -/
structure Reads (loose : Nat → Val → Prop) (codecs : Nat → Codec) : Prop where
  safe : ∀ id, (codecs id).SafeRead
  gives : ∀ id mode c ps, Gives ((codecs id).read mode c ps) fun a => a.1.params = .ok ps ∧ loose id a.1

variable {loose : Nat → Val → Prop}

theorem elements (hk : Reads loose codecs) {t : ElemType} {env : Env} {m : Methods} (hm : t.methods codecs env = .ok m) (mode : Mode)
    (c : Ctx) (i : Nat) : Gives (m.read mode c i) fun a => t.Canonical loose env i a.1 ∧ a.1.isNone = false := by
  have hint : ∀ (k : IntKind), Gives ((intMethods k).read mode c i) fun a => a.1.isNone = false := fun k =>
    Gives.bind (safe_intRead _ _ _) (gives_int (Q := fun _ => True) fun _ _ => trivial) fun a _ => gives_pure rfl
  cases t with
  | int kind =>
    simp only [ElemType.methods, Except.ok.injEq] at hm
    subst hm
    exact (hint kind).mono fun a h => ⟨trivial, h⟩
  | other b =>
    simp only [ElemType.methods, Except.ok.injEq] at hm
    subst hm
    refine Gives.bind (P := fun x => b.proj (b.inj x) = .ok x ∧ b.stored x = x) (safe_builtin _ _) ?_ fun x hx =>
      gives_pure ⟨⟨x, hx⟩, inj_isNone b x⟩
    intro r x r' hr hx
    have := b.reread hr hx
    exact ⟨this.1, this.2.1⟩
  | dynBits signed length =>
    obtain ⟨n, _, h2⟩ := ok_inv hm
    obtain ⟨kind, _, h4⟩ := ok_inv h2
    cases h4
    exact (hint kind).mono fun a h => ⟨trivial, h⟩
  | enum e =>
    simp only [ElemType.methods, Except.ok.injEq] at hm
    subst hm
    refine Gives.seq (safe_intRead _ _ _) fun a => ?_
    obtain ⟨x, c'⟩ := a
    simp only
    split
    · exact gives_pure ⟨trivial, rfl⟩
    · exact gives_throw _ _
  | bitmask kind =>
    simp only [ElemType.methods, Except.ok.injEq] at hm
    subst hm
    exact Gives.bind (safe_intRead _ _ _) (gives_int (Q := fun _ => True) fun _ _ => trivial) fun a _ => gives_pure ⟨trivial, rfl⟩
  | compound cid args =>
    simp only [ElemType.methods, Except.ok.injEq] at hm
    subst hm
    refine Gives.bind (P := fun ps => evalArgs args { env with index := i } = .ok ps) (safe_lift _) (gives_lift fun _ h => h) fun ps hps => ?_
    refine (hk.gives cid mode c ps).mono fun a ha => ⟨⟨ha.2, ?_⟩, params_isNone ha.1⟩
    rw [ha.1, hps]

theorem allIndexed_of {P : Nat → Val → Prop} : ∀ {xs : List Val} {i : Nat}, (∀ (j : Nat) (x : Val), xs[j]? = some x → P (i + j) x) →
    AllIndexed P i xs
  | [], _, _ => trivial
  | x :: xs, i, h => ⟨by simpa using h 0 x (by simp), allIndexed_of fun j y hy => by
      have := h (j + 1) y (by simpa using hy)
      rwa [show i + 1 + j = i + (j + 1) by omega]⟩

theorem value_gives (hk : Reads loose codecs) {f : FieldDef} {env : Env} (mode : Mode)
    (slot : Nat) (c : Ctx) : Gives (f.readValue codecs env slot mode c) fun a => f.CanonicalValue loose env a.1 ∧ a.1.isNone = false := by
  unfold FieldDef.readValue
  refine Gives.bind (P := fun m => f.type.methods codecs env = .ok m) (safe_lift _) (gives_lift fun _ h => h) fun m hm => ?_
  have hs := safe_methods hk.safe hm
  split
  · rename_i ha
    refine (elements hk hm (f.fieldMode slot mode) c 0).mono fun a h => ⟨?_, h.2⟩
    unfold FieldDef.CanonicalValue
    rw [ha]
    exact h.1
  · rename_i a ha
    refine Gives.seq (safe_lift _) fun size => ?_
    have h2 : ∀ i, Safe (m.traits.read i) := fun i => (hs none Ctx.empty i).bind (fun _ => safe_pure _)
    have h1 : ∀ c i, Safe (m.packedTraits.read c i) := fun c i => hs (some []) c i
    have hsafe : Safe (f.readArray a m mode env.fields size) := by
      unfold FieldDef.readArray
      exact safe_ite (safe_readPacked _ h1 _ _ _) (safe_arrayRead _ h2 _ _ _)
    refine Gives.bind (P := fun xs : List Val => ∀ (j : Nat) (x : Val), xs[j]? = some x →
      f.type.Canonical loose env j x) hsafe ?_ fun xs hxs => gives_pure ⟨?_, rfl⟩
    · unfold FieldDef.readArray
      split
      · exact readPacked_gives h1 (fun c i => (elements hk hm (some []) c i).mono fun _ h => h.1) size
      · exact arrayRead_gives h2 (fun i => Gives.bind (hs none Ctx.empty i) (elements hk hm none Ctx.empty i) fun _ h => gives_pure h.1) size
    · unfold FieldDef.CanonicalValue
      rw [ha]
      exact ⟨xs, rfl, allIndexed_of fun j x hx => by simpa using hxs j x hx⟩

theorem field_gives (hk : Reads loose codecs) {f : FieldDef} {env : Env} (mode : Mode) (slot : Nat) (c : Ctx) :
    Gives (f.read codecs env slot mode c) fun a =>
      (f.isUsed env a.1 = .ok true → f.CanonicalValue loose env a.1) ∧ (f.isUsed env a.1 = .ok false → a.1 = .none) := by
  unfold FieldDef.read
  refine Gives.bind (P := fun used : Bool => (∀ v : Val, v.isNone = false → used = true → f.isUsed env v = .ok true) ∧
    (used = false → f.isUsed env .none = .ok false)) ?_ ?_ fun used hu => ?_
  · unfold FieldDef.readUsed
    split
    · exact safe_pure _
    · exact (safe_readBitsUnchecked _).bind (fun _ => safe_pure _)
    · exact safe_lift _
  · intro r used r' hr h
    unfold FieldDef.readUsed at h
    unfold FieldDef.isUsed
    rcases ho : f.optional with _ | _ | e
    · rw [ho] at h
      simp only [M.pure_apply, Prod.mk.injEq, Except.ok.injEq] at h
      simp [← h.1]
    · exact ⟨fun v hv _ => by simp [hv], fun _ => rfl⟩
    · rw [ho] at h
      simp only [M.lift_apply, Prod.mk.injEq] at h
      exact ⟨fun _ _ hu => by rw [← hu]; exact h.1, fun hu => by rw [← hu]; exact h.1⟩
  · split
    · rename_i hused
      unfold FieldDef.readInner
      refine Gives.seq ?_ fun _ => Gives.seq ?_ fun _ => Gives.bind (FieldDef.safe_readValue hk.safe f env slot mode c)
        (value_gives hk mode slot c) fun a ha => Gives.seq (safe_lift _) fun _ => gives_pure ?_
      · unfold FieldDef.readAlign
        split
        · exact safe_alignto _
        · exact safe_pure _
      · unfold FieldDef.readOffset
        split
        · exact (safe_alignto _).bind (fun _ => safe_get_bind (fun _ => safe_lift _))
        · exact safe_pure _
      · refine ⟨fun _ => ha.1, fun h => ?_⟩
        rw [hu.1 _ ha.2 hused] at h
        cases h
    · rename_i hn
      refine gives_pure ⟨fun h => ?_, fun _ => rfl⟩
      rw [hu.2 (by simpa using hn)] at h
      cases h

theorem struct_reads (hk : Reads loose codecs) (params : List Int) (mode : Mode) (base : Nat) :
    ∀ (fs : List FieldDef) (prior vs : List Val) (k K : Nat) (c c' : Ctx) (r r' : Reader),
    (∀ i f, fs[i]? = some f → (f.extended = true ↔ base ≤ prior.length + i)) →
    (k = prior.length - base ∨ (k ≤ prior.length - base ∧ base ≤ prior.length ∧ (Array'.align8 r.pos : Int) ≥ r.bitsize)) →
    r.WF → Struct.read codecs params mode fs prior k c r = (.ok (vs, K, c'), r') →
    K ≤ prior.length + fs.length - base ∧ ∃ ws, vs = prior ++ ws ∧ StructLoose loose params K base fs prior ws
  | [], prior, vs, k, K, c, c', r, r', _, hkk, _, h => by
    simp only [Struct.read, M.pure_apply, Prod.mk.injEq, Except.ok.injEq] at h
    obtain ⟨⟨rfl, rfl, rfl⟩, -⟩ := h
    refine ⟨?_, [], by simp, trivial⟩
    simp only [List.length_nil, Nat.add_zero]
    rcases hkk with h | h <;> omega
  | f :: fs, prior, vs, k, K, c, c', r, r', hext, hkk, hr, h => by
    obtain ⟨v, k1, c1, r1, h1, h2⟩ := Struct.read_cons_inv h
    have he : f.extended = true ↔ base ≤ prior.length := by simpa using hext 0 f (by simp)
    have hext' : ∀ i g, fs[i]? = some g → (g.extended = true ↔ base ≤ (prior ++ [v]).length + i) := by
      intro i g hg
      have := hext (i + 1) g (by simpa using hg)
      rw [this, List.length_append, List.length_singleton]
      omega
    have hlen : (prior ++ [v]).length = prior.length + 1 := by simp
    have hr1 : r1.WF := by
      have := safe_readField hk.safe f ⟨params, prior, 0⟩ (prior.length + 1) mode k c r hr
      rw [h1] at this
      exact this.1
    rcases Struct.readField_inv h1 with ⟨e1, e2, rfl, rfl, rfl, rfl⟩ | ⟨e1, e2, rfl, r2, e3, e4⟩ | ⟨e1, rfl, e4⟩
    · -- not present
      have hb := he.1 e1
      have hle : k1 ≤ prior.length - base := by rcases hkk with h | h <;> omega
      have hK : K = k1 := Struct.read_at_end (fun g hg => by
        obtain ⟨i, hi⟩ := List.getElem?_of_mem hg
        exact (hext' i g hi).2 (by rw [hlen]; omega)) e2 h2
      have hnp : Struct.isPresent K base prior.length = false := by
        unfold Struct.isPresent
        rw [hK]
        exact decide_eq_false (by omega)
      obtain ⟨g2, ws, g3, g4⟩ := struct_reads hk params mode base fs _ vs k1 K c1 c' r1 r'
        hext' (.inr ⟨by rw [hlen]; omega, by rw [hlen]; omega, e2⟩) hr h2
      refine ⟨by simp only [hlen, List.length_cons] at *; omega, f.default :: ws, by rw [g3]; simp, ?_, g4⟩
      simp only [FieldDef.Canonical, e1, hnp, Bool.not_false, Bool.and_self, if_true]
    · -- present
      have hb := he.1 e1
      have hkeq : k = prior.length - base := by
        rcases hkk with h | h
        · exact h
        · exact absurd h.2.2 e2
      have hK := Struct.read_numExt h2
      have hp : Struct.isPresent K base prior.length = true := decide_eq_true (by omega)
      have hr2 : r2.WF := by
        have := Reader.safe_alignto 8 r hr
        rw [e3] at this
        exact this.1
      have hfield := field_gives hk mode _ _ r2 _ _ hr2 e4
      obtain ⟨g2, ws, g3, g4⟩ := struct_reads hk params mode base fs _ vs (k + 1) K c1 c' r1 r'
        hext' (.inl (by rw [hlen]; omega)) hr1 h2
      refine ⟨by simp only [hlen, List.length_cons] at *; omega, v :: ws, by rw [g3]; simp, ?_, g4⟩
      simp only [FieldDef.Canonical, e1, hp, Bool.not_true, Bool.and_false, Bool.false_eq_true, if_false]
      exact hfield
    · -- not extended
      have hb : ¬ base ≤ prior.length := fun hb => by rw [he.2 hb] at e1; simp at e1
      have hfield := field_gives hk mode _ _ r _ _ hr e4
      obtain ⟨g2, ws, g3, g4⟩ := struct_reads hk params mode base fs _ vs k1 K c1 c' r1 r'
        hext' (.inl (by rcases hkk with h | h <;> rw [hlen] <;> omega)) hr1 h2
      refine ⟨by simp only [hlen, List.length_cons] at *; omega, v :: ws, by rw [g3]; simp, ?_, g4⟩
      simp only [FieldDef.Canonical, e1, Bool.false_and, Bool.false_eq_true, if_false]
      exact hfield

theorem compound_gives (hk : Reads loose codecs) {d : CompoundDef} {closed : Nat → Bool} {cl : Bool} (hl : d.Layout closed cl)
    (mode : Mode) (c : Ctx) (ps : List Int) :
    Gives ((d.codec codecs).read mode c ps) fun a => a.1.params = .ok ps ∧ CompoundLoose loose d a.1 := by
  cases d with
  | struct fs =>
    refine Gives.bind (P := fun a => a.2.1 ≤ numExtended fs ∧ StructLoose loose ps a.2.1 (Struct.base fs) fs [] a.1)
      (Struct.safe_read hk.safe _ _ _ _ _ _) ?_ fun a ha => gives_pure ⟨rfl, ha.1, rfl, ha.2⟩
    intro r a r' hr h
    obtain ⟨vs, K, c'⟩ := a
    obtain ⟨h1, ws, h2, h3⟩ := struct_reads hk ps mode (Struct.base fs) fs [] vs 0 K c c' r r' (by simpa using hl.2.2.2) (.inl (by simp)) hr h
    simp only [List.nil_append] at h2
    subst h2
    refine ⟨?_, h3⟩
    have := Struct.numExtended_le fs
    simp only [List.length_nil, Nat.zero_add, Struct.base] at h1
    simp only
    omega
  | union fs =>
    refine Gives.seq (safe_intRead _ _ _) fun a => ?_
    refine Gives.bind (P := fun f => Union.select fs a.1 = .ok f) (safe_lift _) (gives_lift fun f hf => hf) fun f hf => ?_
    refine Gives.bind (Branch.safe_read hk.safe _ _ _ _ _) (field_gives hk _ _ _) fun b hb => gives_pure ⟨rfl, rfl, f, hf, ?_⟩
    simp only [FieldDef.Canonical, (hl f (select_field hf)).2.1, Bool.false_and, Bool.false_eq_true, if_false]
    exact hb
  | choice selector cases default =>
    refine Gives.bind (P := fun a => Choice.select selector cases default ps = .ok a) (safe_lift _) (gives_lift fun _ h => h) fun a ha => ?_
    obtain ⟨f, slot⟩ := a
    cases f with
    | none =>
      exact Gives.bind (P := fun a => a.1 = .unset) (safe_pure _) (gives_pure rfl) fun a ha' =>
        gives_pure ⟨rfl, rfl, rfl, none, slot, ha, ha'⟩
    | some f =>
      obtain ⟨s, -, hs2⟩ := except_bind_ok ha
      have hx : f.extended = false := by
        rcases selectCase_field hs2 with ⟨k, hk1, hk2⟩ | hd
        · exact (hl.1 k hk1 f hk2).2.1
        · exact (hl.2 f hd).2.1
      refine Gives.bind (Branch.safe_read hk.safe _ _ _ _ _) (field_gives hk _ _ _) fun b hb =>
        gives_pure ⟨rfl, rfl, rfl, some f, slot, ha, ?_⟩
      simp only [FieldDef.Canonical, hx, Bool.false_and, Bool.false_eq_true, if_false]
      exact hb

theorem schema_reads {defs : Schema} {closed : Nat → Bool} (hl : defs.Layout closed) : ∀ n, Reads (Loose defs n) (defs.codec n)
  | 0 => ⟨fun id => Schema.safeRead defs 0 id, fun _ _ _ _ => gives_throw _ _⟩
  | n + 1 => ⟨fun id => Schema.safeRead defs (n + 1) id, fun id mode c ps => compound_gives (schema_reads hl n) (hl id) mode c ps⟩

/-! ### Objects which differ in offsets -/

section
variable {same : Nat → Val → Val → Prop}

/-- objects with other offsets have the same parameters -/
structure SameLoose (same : Nat → Val → Val → Prop) (loose : Nat → Val → Prop) : Prop where
  loose : ∀ id v v', same id v v' → loose id v → loose id v'
  params : ∀ id v v', same id v v' → v'.params = v.params ∧ v.isNone = false ∧ v'.isNone = false

theorem elem_same (h : SameLoose same loose) {t : ElemType} {targets : List Nat} {fs : List FieldDef}
    (ha : ∀ id args, t = .compound id args → ∀ e ∈ args, e.IgnoresOffsets same targets fs)
    {params : List Int} {prior prior' : List Val} (hp : Struct.SameFields same targets fs prior prior') {i : Nat} {v v' : Val}
    (hs : v' = v ∨ t.Same same v v') (hc : t.Canonical loose ⟨params, prior, 0⟩ i v) : t.Canonical loose ⟨params, prior', 0⟩ i v' := by
  cases t with
  | compound id args =>
    have he : evalArgs args ⟨params, prior', i⟩ = evalArgs args ⟨params, prior, i⟩ :=
      FieldDef.evalArgs_ignores (ha id args rfl) params hp i
    rcases hs with rfl | hs
    · exact ⟨hc.1, hc.2.trans he.symm⟩
    · exact ⟨h.loose _ _ _ hs hc.1, by rw [(h.params _ _ _ hs).1, hc.2]; exact he.symm⟩
  | other b =>
    have : v' = v := by rcases hs with h | h <;> exact h
    rw [this]; exact hc
  | _ => trivial

theorem allIndexed_same {P Q : Nat → Val → Prop} {R : Val → Val → Prop} (h : ∀ i v v', R v v' → P i v → Q i v') :
    ∀ {i : Nat} {xs xs' : List Val}, Elementwise (fun _ => R) i xs xs' → AllIndexed P i xs → AllIndexed Q i xs'
  | _, [], [], _, _ => trivial
  | _, [], _ :: _, he, _ => he.elim
  | _, _ :: _, [], he, _ => he.elim
  | i, x :: xs, y :: ys, he, hc => ⟨h i x y he.1 hc.1, allIndexed_same h he.2 hc.2⟩

theorem allIndexed_true : ∀ {P : Nat → Val → Prop} {i : Nat} {xs : List Val}, (∀ i x, P i x) → AllIndexed P i xs
  | _, _, [], _ => trivial
  | _, _, _ :: _, h => ⟨h _ _, allIndexed_true h⟩

theorem field_same (h : SameLoose same loose) {f : FieldDef} {targets : List Nat} {fs : List FieldDef} (hf : f.OffsetRules same targets fs)
    {target : Bool} (ht : target = true → ∃ b, f.OffsetField b)
    (hd : f.extended = true → (f.array.isSome = true → f.default = .none ∨ f.default = .arr []) ∧
      ∀ cid args, f.array = none → f.type = .compound cid args → f.default = .none)
    {params : List Int} {prior prior' : List Val} (hp : Struct.SameFields same targets fs prior prior') {present : Bool} {v v' : Val}
    (hs : f.Same same target v v') (hc : f.Canonical loose ⟨params, prior, 0⟩ present v) :
    f.Canonical loose ⟨params, prior', 0⟩ present v' := by
  have hnone : f.optional = .auto → v'.isNone = v.isNone := by
    intro ho
    rcases hs with rfl | hs
    · rfl
    · split at hs
      · split at hs
        · rename_i htgt
          obtain ⟨b, hb⟩ := ht htgt
          rw [hb.2.1] at ho
          cases ho
        · cases hty : f.type with
          | compound id args =>
            rw [hty] at hs
            rw [(h.params _ _ _ hs).2.1, (h.params _ _ _ hs).2.2]
          | _ => rw [hty] at hs; rw [show v' = v from hs]
      · obtain ⟨xs, xs', rfl, rfl, _⟩ := hs
        rfl
  have hused : f.isUsed ⟨params, prior', 0⟩ v' = f.isUsed ⟨params, prior, 0⟩ v := by
    unfold FieldDef.isUsed
    split
    · rfl
    · rename_i ho; rw [hnone ho]
    · rename_i e ho; exact (hf.clause e ho).1 params prior prior' 0 hp
  unfold FieldDef.Canonical at hc ⊢
  split at hc
  · rename_i hpr
    rw [if_pos hpr]
    simp only [Bool.and_eq_true] at hpr
    obtain ⟨hd1, hd2⟩ := hd hpr.1
    subst hc
    rcases hs with hs | hs
    · exact hs
    · split at hs
      · rename_i ha
        split at hs
        · rename_i htgt
          obtain ⟨b, hb⟩ := ht htgt
          rw [hb.2.2.1] at hpr
          simp at hpr
        · cases hty : f.type with
          | compound id args =>
            rw [hty] at hs
            have := (h.params _ _ _ hs).2.1
            rw [hd2 id args ha hty] at this
            cases this
          | _ => rw [hty] at hs; exact hs
      · rename_i a ha
        split at hs
        · rename_i htgt
          obtain ⟨b, hb⟩ := ht htgt
          rw [hb.2.2.1] at hpr
          simp at hpr
        · obtain ⟨xs, xs', h1, rfl, h3⟩ := hs
          rcases hd1 (by simp [ha]) with h2 | h2
          · rw [h2] at h1; cases h1
          · rw [h2] at h1 ⊢
            cases h1
            cases xs' with
            | nil => rfl
            | cons => exact h3.elim
  · rename_i hpr
    rw [if_neg hpr, hused]
    refine ⟨fun hu => ?_, fun hu => ?_⟩
    · have hv := hc.1 hu
      unfold FieldDef.CanonicalValue at hv ⊢
      cases ha : f.array with
      | none =>
        rw [ha] at hv
        simp only at hv ⊢
        by_cases htgt : target = true
        · obtain ⟨b, ⟨n, hb⟩, _⟩ := ht htgt
          rw [hb]; trivial
        · refine elem_same h hf.args hp ?_ hv
          rcases hs with hs | hs
          · exact .inl hs
          · rw [ha] at hs
            simp only [htgt] at hs
            exact .inr hs
      | some a =>
        rw [ha] at hv
        obtain ⟨xs, rfl, hall⟩ := hv
        by_cases htgt : target = true
        · obtain ⟨b, ⟨n, hb⟩, _⟩ := ht htgt
          have : ∃ xs', v' = .arr xs' := by
            rcases hs with rfl | hs
            · exact ⟨xs, rfl⟩
            · rw [ha] at hs
              obtain ⟨_, xs', _, h2, _⟩ := hs
              exact ⟨xs', h2⟩
          obtain ⟨xs', rfl⟩ := this
          exact ⟨xs', rfl, allIndexed_true fun i x => by rw [hb]; trivial⟩
        · rcases hs with rfl | hs
          · refine ⟨xs, rfl, ?_⟩
            have key : ∀ (i : Nat) (ys : List Val), AllIndexed (fun i x => f.type.Canonical loose ⟨params, prior, 0⟩ i x) i ys →
                AllIndexed (fun i x => f.type.Canonical loose ⟨params, prior', 0⟩ i x) i ys := by
              intro i ys
              induction ys generalizing i with
              | nil => exact fun h => h
              | cons y ys ih => exact fun hy => ⟨elem_same h hf.args hp (.inl rfl) hy.1, ih _ hy.2⟩
            exact key 0 xs hall
          · rw [ha] at hs
            obtain ⟨ys, xs', h1, rfl, h3⟩ := hs
            cases h1
            rw [if_neg htgt] at h3
            exact ⟨xs', rfl, allIndexed_same (P := fun i x => f.type.Canonical loose ⟨params, prior, 0⟩ i x)
              (Q := fun i x => f.type.Canonical loose ⟨params, prior', 0⟩ i x) (R := fun v v' => f.type.Same same v v')
              (fun i v v' hr hv => elem_same h hf.args hp (.inr hr) hv) h3 hall⟩
    · have hv := hc.2 hu
      subst hv
      rcases hs with hs | hs
      · exact hs
      · split at hs
        · split at hs
          · rename_i htgt
            obtain ⟨b, hb⟩ := ht htgt
            simp [FieldDef.isUsed, hb.2.1] at hu
          · cases hty : f.type with
            | compound id args =>
              rw [hty] at hs
              have := (h.params _ _ _ hs).2.1
              cases this
            | _ => rw [hty] at hs; exact hs
        · obtain ⟨xs, xs', h1, _⟩ := hs
          cases h1

theorem struct_same (h : SameLoose same loose) {all : List FieldDef} (hr : (CompoundDef.struct all).OffsetRules same)
    (hd : ∀ f ∈ all, f.extended = true → (f.array.isSome = true → f.default = .none ∨ f.default = .arr []) ∧
      ∀ cid args, f.array = none → f.type = .compound cid args → f.default = .none)
    {params : List Int} {K base : Nat} : ∀ (fs : List FieldDef) (prior prior' vs vs' : List Val), all.drop prior.length = fs →
      prior'.length = prior.length → Struct.SameFields same (Struct.targets all) all (prior ++ vs) (prior' ++ vs') →
      StructLoose loose params K base fs prior vs → StructLoose loose params K base fs prior' vs'
  | fs, prior, prior', vs, vs', hfs, hlen, hs, hc => by
    have hl : vs'.length = vs.length := by
      have := hs.1
      simp only [List.length_append] at this
      omega
    match fs, vs, vs', hc with
    | [], [], [], _ => trivial
    | [], [], _ :: _, _ => simp at hl
    | _ :: _, _ :: _, [], _ => simp at hl
    | f :: fs, v :: vs, v' :: vs', hc =>
      have hf : all[prior.length]? = some f := by
        have := congrArg (fun l : List FieldDef => l[0]?) hfs
        simpa using this
      have hmem := List.mem_of_getElem? hf
      have hfld : f.Same same (decide (prior.length ∈ Struct.targets all)) v v' := hs.2 prior.length f v v' hf (by simp) (by simp [← hlen])
      constructor
      · rw [hlen]
        refine field_same h (hr.1 f hmem) (fun ht => ?_) (hd f hmem) (Struct.sameFields_left hs hlen) hfld hc.1
        exact Struct.offsetField_of_target hr (of_decide_eq_true ht) hf
      · refine struct_same h hr hd fs (prior ++ [v]) (prior' ++ [v']) vs vs' ?_ (by simp [hlen]) (by simpa using hs) hc.2
        have := congrArg (List.drop 1) hfs
        simpa using this

theorem compound_same (h : SameLoose same loose) {d : CompoundDef} (hr : d.OffsetRules same)
    (hd : ∀ f, d.HasField f → f.extended = true → (f.array.isSome = true → f.default = .none ∨ f.default = .arr []) ∧
      ∀ cid args, f.array = none → f.type = .compound cid args → f.default = .none) {x x' : Val}
    (hs : d.Same same x x') (hc : CompoundLoose loose d x) : CompoundLoose loose d x' := by
  have hnil : Struct.SameFields same [] [] [] [] := sameFields_nil []
  cases d with
  | struct fs =>
    match x, x', hs, hc with
    | .obj ps k tag vs, .obj ps' k' tag' vs', hs, ⟨h1, h2, h3⟩ =>
      obtain ⟨rfl, rfl, rfl, hs⟩ := hs
      exact ⟨h1, h2, struct_same h hr hd fs [] [] vs vs' rfl rfl (by simpa using hs) h3⟩
  | union fs =>
    match x, x', hs, hc with
    | .obj ps k tag [v], .obj ps' k' tag' [v'], hs, ⟨h1, f, h2, h3⟩ =>
      obtain ⟨rfl, rfl, rfl, hs⟩ := hs
      have hmem := select_field h2
      exact ⟨h1, f, h2, field_same h (hr f hmem).2 (target := false) (by simp) (hd f hmem) hnil (hs f h2) h3⟩
  | choice s cs dflt =>
    match x, x', hs, hc with
    | .obj ps k tag [v], .obj ps' k' tag' [v'], hs, ⟨h1, h2, f, slot, h3, h4⟩ =>
      obtain ⟨rfl, rfl, rfl, hs⟩ := hs
      refine ⟨h1, h2, f, slot, h3, ?_⟩
      have hs' := hs f slot h3
      cases f with
      | none => rw [show v' = v from hs']; exact h4
      | some f =>
        obtain ⟨s', -, hs2⟩ := except_bind_ok h3
        have hmem := selectCase_field hs2
        have hro : f.OffsetRules same [] [] := by
          rcases hmem with ⟨k, hk1, hk2⟩ | hd'
          · exact (hr.2.1 k hk1 f hk2).2
          · exact (hr.2.2 f hd').2
        exact field_same h hro (target := false) (by simp) (hd f hmem) hnil hs' h4

theorem compound_params {d : CompoundDef} {x x' : Val} (hs : d.Same same x x') :
    x'.params = x.params ∧ x.isNone = false ∧ x'.isNone = false := by
  cases d with
  | struct fs =>
    match x, x', hs with
    | .obj ps k tag vs, .obj ps' k' tag' vs', ⟨h1, _⟩ => subst h1; exact ⟨rfl, rfl, rfl⟩
  | union fs =>
    match x, x', hs with
    | .obj ps k tag [v], .obj ps' k' tag' [v'], ⟨h1, _⟩ => subst h1; exact ⟨rfl, rfl, rfl⟩
  | choice s cs dflt =>
    match x, x', hs with
    | .obj ps k tag [v], .obj ps' k' tag' [v'], ⟨h1, _⟩ => subst h1; exact ⟨rfl, rfl, rfl⟩

theorem schema_same {defs : Schema} (hr : defs.OffsetRules) (hd : defs.PlainDefaults) : ∀ n, SameLoose (defs.Same n) (Loose defs n)
  | 0 => ⟨fun _ _ _ h => h.elim, fun _ _ _ h => h.elim⟩
  | n + 1 => ⟨fun id v v' hs hc => compound_same (schema_same hr hd n) (hr n id) (hd id) hs hc, fun id v v' hs => compound_params hs⟩

end

end Reread
end Zserio
