import Verif.Spec.Compound
import Verif.Lemmas.PackedLoop
set_option linter.unusedSimpArgs false
/-
Helper lemmas on generated compounds: packing contexts and the methods of element types.
-/
namespace Zserio
open Writer Array'

/-! ### Packing contexts -/

namespace Ctx
open DeltaContext

/-- A packing event: where and what. -/
abbrev Evt := List Nat × Event

/-- `init` over a list of events. -/
def initAll : Ctx → List Evt → Except Err Ctx
  | c, [] => .ok c
  | c, e :: es => do
    let d ← (c e.1).init e.2.1.traits e.2.2
    initAll (c.update e.1 d) es

/-- The events of one context. -/
def evtsAt (q : List Nat) (es : List Evt) : List Event := (es.filter fun e => e.1 = q).map (·.2)

theorem evtsAt_append (q : List Nat) (es es' : List Evt) : evtsAt q (es ++ es') = evtsAt q es ++ evtsAt q es' := by
  simp [evtsAt]

theorem evtsAt_cons_self (q : List Nat) (e : Event) (es : List Evt) : evtsAt q ((q, e) :: es) = e :: evtsAt q es := by
  simp [evtsAt]

theorem evtsAt_cons_ne {q q' : List Nat} (h : q' ≠ q) (e : Event) (es : List Evt) :
    evtsAt q ((q', e) :: es) = evtsAt q es := by
  simp [evtsAt, h]

theorem update_self (c : Ctx) (q : List Nat) (d : DeltaContext) : c.update q d q = d := by simp [Ctx.update]

theorem update_ne (c : Ctx) {q q' : List Nat} (h : q' ≠ q) (d : DeltaContext) : c.update q d q' = c q' := by
  simp [Ctx.update, h]

theorem initAll_append : ∀ (es es' : List Evt) (c : Ctx),
    initAll c (es ++ es') = (initAll c es >>= fun c => initAll c es')
  | [], _, _ => rfl
  | e :: es, es', c => by
    simp only [List.cons_append, initAll]
    rcases (c e.1).init e.2.1.traits e.2.2 with _ | d
    · rfl
    · exact initAll_append es es' _

theorem initAll_at : ∀ (es : List Evt) (c c' : Ctx), initAll c es = .ok c' →
    ∀ q, DeltaContext.initAll (c q) (evtsAt q es) = .ok (c' q)
  | [], c, c', h, q => by
    simp only [initAll, Except.ok.injEq] at h
    rw [h]; rfl
  | (q', e) :: es, c, c', h, q => by
    rw [initAll] at h
    obtain ⟨d, h1, h2⟩ := except_bind_ok h
    have := initAll_at es _ _ h2 q
    by_cases hq : q' = q
    · subst hq
      rw [evtsAt_cons_self, DeltaContext.initAll]
      simp only at h1
      rw [h1, ok_bind]
      simpa [update_self] using this
    · rw [evtsAt_cons_ne hq]
      rwa [update_ne _ (Ne.symm hq)] at this

/-- All contexts of the size, write and read passes are in step for the remaining events. -/
def AllSync (es : List Evt) (cw cs cr : Ctx) : Prop := ∀ q, Sync (evtsAt q es) (cw q) (cs q) (cr q)

theorem allSync_start {es : List Evt} {c : Ctx} (h : initAll Ctx.empty es = .ok c) : AllSync es c c Ctx.empty :=
  fun q => Sync.start _ _ (ready_initAll (initAll_at es _ _ h q))

theorem allSync_empty : AllSync [] Ctx.empty Ctx.empty Ctx.empty := allSync_start rfl

theorem allSync_step {k : IntKind} {q : List Nat} {x : Int} {es : List Evt} {cw cs cr : Ctx}
    (h : AllSync ((q, (k, x)) :: es) cw cs cr) {b0 : List Bool} {cw' : Ctx} {w' : Writer}
    (hw : ctxWrite k q cw x (ofBits b0) = (.ok cw', w')) :
    ∃ bs cs' cr', w' = ofBits (b0 ++ bs) ∧ ctxBitsizeof k q cs x = .ok (bs.length, cs') ∧
      (∀ s, Reader.Parses (ctxRead k q cr) b0.length bs s (x, cr')) ∧ AllSync es cw' cs' cr' := by
  unfold ctxWrite at hw
  obtain ⟨d, w1, h1, h2⟩ := Writer.bind_inv hw
  simp only [M.pure_apply, Prod.mk.injEq, Except.ok.injEq] at h2
  obtain ⟨rfl, rfl⟩ := h2
  have hq := h q
  rw [evtsAt_cons_self] at hq
  obtain ⟨bs, cs', cr', rfl, hs, hr, hsync⟩ := sync_step hq h1
  refine ⟨bs, cs.update q cs', cr.update q cr', rfl, ?_, ?_, ?_⟩
  · rw [ctxBitsizeof, hs]; rfl
  · intro s
    unfold ctxRead
    have := Reader.Parses.map (f := fun (y : Int × DeltaContext) => (y.1, cr.update q y.2)) (hr s)
    exact this
  · intro q'
    by_cases hq' : q = q'
    · subst hq'
      simpa [update_self] using hsync
    · have := h q'
      rw [evtsAt_cons_ne hq'] at this
      simpa [update_ne _ (Ne.symm hq')] using this

end Ctx
open Ctx

/-! ### Lawful methods -/

/-- Which bits may follow: anything after a closed type, nothing after an open one (which is never packed). -/
def MayFollow (closed : Bool) (mode : Mode) (s : List Bool) : Prop := closed = true ∨ (mode = none ∧ s = [])

/-- The three passes over one value with given packing events: whenever the value can be written, the bits are appended, the
size pass predicts their number, every `x'` the value may be read back as is read, and the contexts stay in step. -/
def Methods.Passes (m : Methods) (P : Nat → Val → Val → Prop) (closed : Bool) (mode : Mode) (x : Val) (es : List Evt) : Prop :=
  ∀ rest cw cs cr, AllSync (es ++ rest) cw cs cr → ∀ b0 cw' w', m.write mode cw x (ofBits b0) = (.ok cw', w') →
    ∃ bs cs' cr', w' = ofBits (b0 ++ bs) ∧ m.bitsizeof mode cs b0.length x = .ok (bs.length, cs') ∧
      (∀ n, m.constSize = some n → mode = none → bs.length = n) ∧
      (∀ i x', P i x x' → ∀ s, MayFollow closed mode s → Reader.Parses (m.read mode cr i) b0.length bs s (x', cr')) ∧
      AllSync rest cw' cs' cr'

/-- The methods are lawful: `init_packing_context` announces exactly the packing events of the passes. -/
def Methods.Lawful (m : Methods) (P : Nat → Val → Val → Prop) (closed : Bool) : Prop :=
  ∀ (mode : Mode) (x : Val), ∃ es, (mode = none → es = []) ∧
    (∀ path, mode = some path → ∀ c c', m.initPacking path c x = .ok c' → Ctx.initAll c es = .ok c') ∧
    m.Passes P closed mode x es

/-- The same for the methods of a compound. -/
def Codec.Passes (k : Codec) (P : Val → Val → Prop) (closed : Bool) (mode : Mode) (x : Val) (es : List Evt) : Prop :=
  ∀ rest cw cs cr, AllSync (es ++ rest) cw cs cr → ∀ b0 cw' w', k.write mode cw x (ofBits b0) = (.ok cw', w') →
    ∃ bs cs' cr', w' = ofBits (b0 ++ bs) ∧ k.bitsizeof mode cs b0.length x = .ok (bs.length, cs') ∧
      (∀ ps x', P x x' → x.params = .ok ps → ∀ s, MayFollow closed mode s →
        Reader.Parses (k.read mode cr ps) b0.length bs s (x', cr')) ∧
      AllSync rest cw' cs' cr'

def Codec.Lawful (k : Codec) (P : Val → Val → Prop) (closed : Bool) : Prop :=
  ∀ (mode : Mode) (x : Val), ∃ es, (mode = none → es = []) ∧
    (∀ path, mode = some path → ∀ c c', k.initPacking path c x = .ok c' → Ctx.initAll c es = .ok c') ∧
    k.Passes P closed mode x es

/-- lawful for a stronger relation and a stronger condition -/
theorem Methods.Lawful.mono {m : Methods} {P Q : Nat → Val → Val → Prop} {a b : Bool} (h : m.Lawful P a)
    (hPQ : ∀ i x x', Q i x x' → P i x x') (hab : b = true → a = true) : m.Lawful Q b := by
  intro mode x
  obtain ⟨es, h1, h2, h3⟩ := h mode x
  refine ⟨es, h1, h2, ?_⟩
  intro rest cw cs cr hsync b0 cw' w' hw
  obtain ⟨bs, cs', cr', g1, g2, g3, g4, g5⟩ := h3 rest cw cs cr hsync b0 cw' w' hw
  refine ⟨bs, cs', cr', g1, g2, g3, ?_, g5⟩
  intro i x' hq s hs
  exact g4 i x' (hPQ _ _ _ hq) s (hs.imp hab id)

theorem runs_iff {α : Type} {m : M Writer α} {b0 bs : List Bool} {a : α} :
    Runs m b0 bs a ↔ m (ofBits b0) = (.ok a, ofBits (b0 ++ bs)) := Iff.rfl

/-! ### Element types -/

theorem builtin_proj_valid {b : Builtin} {v : Val} {x : b.Elem} (h : b.proj v = .ok x) : b.Valid x := by
  cases b
  case bitBuffer =>
    cases v
    case bitBuffer y =>
      by_cases hy : y.bitsize ≤ 8 * y.buffer.length
      · have : (if y.bitsize ≤ 8 * y.buffer.length then Except.ok y else .error .type) = Except.ok (ε := Err) x := h
        rw [if_pos hy] at this
        have e : y = x := Except.ok.inj this
        subst e; exact hy
      · have : (if y.bitsize ≤ 8 * y.buffer.length then Except.ok y else .error .type) = Except.ok (ε := Err) x := h
        rw [if_neg hy] at this
        cases this
    all_goals cases h
  all_goals trivial

theorem sizeUnpacked_eq {α : Type} {tr : Traits α} {proj : Val → Except Err α} {v : Val} {x : α} (h : proj v = .ok x)
    {b0 bs : List Bool} (he : SizeExact tr x) (hr : Runs (tr.write x) b0 bs ()) :
    sizeUnpacked tr proj b0.length v = .ok bs.length := by
  obtain ⟨h1, h2⟩ := he b0 bs hr
  unfold sizeUnpacked
  rcases hc : tr.constSize with _ | n
  · simp only [h, ok_bind, h1]
  · simp only [h2 n hc]

theorem lawful_other (b : Builtin) (stored : Nat → Val → Val → Prop) (env : Env) (closed : Bool) :
    (otherMethods b).Lawful (fun i v v' => (ElemType.other b).Stored stored env i v v') closed := by
  intro mode v
  refine ⟨[], fun _ => rfl, ?_, ?_⟩
  · intro path _ c c' h
    simp only [otherMethods, Except.ok.injEq] at h
    rw [h]; rfl
  · intro rest cw cs cr hsync b0 cw' w' hw
    simp only [otherMethods] at hw
    obtain ⟨x, bs, h1, h2⟩ := (appends_lift (b.proj v)).bind_inv hw
    have hx : b.proj v = .ok x := by
      unfold Runs at h1; simp only [M.lift_apply, Prod.mk.injEq] at h1; exact h1.1
    have hb : bs = [] := (Runs.inj h1 (runs_lift hx b0)).2
    subst hb
    rw [List.append_nil] at h2
    have hv := builtin_proj_valid hx
    obtain ⟨_, bs, h3, h4⟩ := (b.appends x hv).bind_inv h2
    simp only [M.pure_apply, Prod.mk.injEq, Except.ok.injEq] at h4
    obtain ⟨rfl, rfl⟩ := h4
    refine ⟨bs, cs, cr, rfl, ?_, ?_, ?_, by simpa using hsync⟩
    · simp only [otherMethods]
      rw [sizeUnpacked_eq hx (b.sizeExact x hv) h3]; rfl
    · intro n hn _
      exact (b.sizeExact x hv _ _ h3).2 n hn
    · rintro i v' ⟨y, hy, rfl⟩ s _
      rw [hx, Except.ok.injEq] at hy
      subst hy
      simp only [otherMethods]
      exact Reader.Parses.map (f := fun x => (b.inj x, cr)) (b.readsTo x hv i _ _ h3 s)

/-- integers, whatever wraps them -/
theorem int_passes (k : IntKind) (mode : Mode) (x : Int) : ∃ es : List Evt, (mode = none → es = []) ∧
    (∀ path, mode = some path → ∀ c c', intInit k path c (.int x) = .ok c' → Ctx.initAll c es = .ok c') ∧
    ∀ rest cw cs cr, AllSync (es ++ rest) cw cs cr → ∀ b0 cw' w', intWrite k mode cw x (ofBits b0) = (.ok cw', w') →
    ∃ bs cs' cr', w' = ofBits (b0 ++ bs) ∧ intSize k mode cs b0.length (.int x) = .ok (bs.length, cs') ∧
      (∀ n, k.traits.constSize = some n → mode = none → bs.length = n) ∧
      (∀ s, Reader.Parses (intRead k mode cr) b0.length bs s (x, cr')) ∧
      AllSync rest cw' cs' cr' := by
  cases mode with
  | none =>
    refine ⟨[], fun _ => rfl, by simp, ?_⟩
    intro rest cw cs cr hsync b0 cw' w' hw
    simp only [intWrite] at hw
    obtain ⟨_, bs, h3, h4⟩ := (k.appends x).bind_inv hw
    simp only [M.pure_apply, Prod.mk.injEq, Except.ok.injEq] at h4
    obtain ⟨rfl, rfl⟩ := h4
    refine ⟨bs, cs, cr, rfl, ?_, ?_, ?_, by simpa using hsync⟩
    · simp only [intSize]
      rw [sizeUnpacked_eq (proj := Val.asInt) (v := .int x) (x := x) rfl (k.sizeExact x) h3]; rfl
    · intro n hn _
      exact (k.sizeExact x _ _ h3).2 n hn
    · intro s
      simp only [intRead]
      exact Reader.Parses.map (f := fun x => (x, cr)) (k.readsTo 0 x _ _ h3 s)
  | some q =>
    refine ⟨[(q, (k, x))], by simp, ?_, ?_⟩
    · rintro path ⟨⟩ c c' h
      simp only [intInit, Val.asInt, ok_bind] at h
      simp only [Ctx.initAll]
      exact h
    · intro rest cw cs cr hsync b0 cw' w' hw
      obtain ⟨bs, cs', cr', h1, h2, h3, h4⟩ := allSync_step hsync hw
      exact ⟨bs, cs', cr', h1, h2, by simp, h3, h4⟩

theorem asInt_ok {v : Val} {x : Int} (h : v.asInt = .ok x) : v = .int x := by
  cases v <;> simp_all [Val.asInt]

theorem lift_inv {α β : Type} {e : Except Err α} {f : α → M Writer β} {w w' : Writer} {b : β}
    (h : (M.lift e >>= f) w = (.ok b, w')) : ∃ a, e = .ok a ∧ f a w = (.ok b, w') := by
  rcases e with e | a
  · rw [M.bind_error (M.lift_apply _ _)] at h; simp at h
  · exact ⟨a, rfl, by rwa [M.bind_ok (M.lift_apply _ _)] at h⟩

theorem lawful_int (k : IntKind) (closed : Bool) : (intMethods k).Lawful (fun _ v v' => v' = v) closed := by
  intro mode v
  by_cases hv : ∃ x, v = .int x
  · obtain ⟨x, rfl⟩ := hv
    obtain ⟨es, h1, h2, h3⟩ := int_passes k mode x
    refine ⟨es, h1, h2, ?_⟩
    intro rest cw cs cr hsync b0 cw' w' hw
    obtain ⟨bs, cs', cr', g1, g2, g3, g4, g5⟩ := h3 rest cw cs cr hsync b0 cw' w' hw
    refine ⟨bs, cs', cr', g1, g2, g3, ?_, g5⟩
    rintro i x' rfl s _
    simp only [intMethods]
    exact Reader.Parses.map (f := fun (y : Int × Ctx) => (Val.int y.1, y.2)) (g4 s)
  · refine ⟨[], fun _ => rfl, ?_, ?_⟩
    · intro path _ c c' h
      simp only [intMethods, intInit] at h
      obtain ⟨x, hx, _⟩ := except_bind_ok h
      exact absurd ⟨x, asInt_ok hx⟩ hv
    · intro rest cw cs cr hsync b0 cw' w' hw
      simp only [intMethods] at hw
      obtain ⟨x, hx, _⟩ := lift_inv hw
      exact absurd ⟨x, asInt_ok hx⟩ hv

theorem lawful_bitmask (k : IntKind) (closed : Bool) : (bitmaskMethods k).Lawful (fun _ v v' => v' = v) closed := by
  intro mode v
  by_cases hv : ∃ x, v = .int x
  · obtain ⟨x, rfl⟩ := hv
    obtain ⟨es, h1, h2, h3⟩ := int_passes k mode x
    refine ⟨es, h1, h2, ?_⟩
    intro rest cw cs cr hsync b0 cw' w' hw
    obtain ⟨bs, cs', cr', g1, g2, g3, g4, g5⟩ := h3 rest cw cs cr hsync b0 cw' w' hw
    refine ⟨bs, cs', cr', g1, g2, by simp [bitmaskMethods], ?_, g5⟩
    rintro i x' rfl s _
    simp only [bitmaskMethods]
    exact Reader.Parses.map (f := fun (y : Int × Ctx) => (Val.int y.1, y.2)) (g4 s)
  · refine ⟨[], fun _ => rfl, ?_, ?_⟩
    · intro path _ c c' h
      simp only [bitmaskMethods, intInit] at h
      obtain ⟨x, hx, _⟩ := except_bind_ok h
      exact absurd ⟨x, asInt_ok hx⟩ hv
    · intro rest cw cs cr hsync b0 cw' w' hw
      simp only [bitmaskMethods] at hw
      obtain ⟨x, hx, _⟩ := lift_inv hw
      exact absurd ⟨x, asInt_ok hx⟩ hv

theorem enumValue_ok {e : EnumDef} {v : Val} {x : Int} (h : enumValue e v = .ok x) : v = .int x ∧ x ∈ e.items := by
  unfold enumValue at h
  obtain ⟨y, hy, h⟩ := except_bind_ok h
  split at h
  · simp only [Except.ok.injEq] at h
    subst h
    exact ⟨asInt_ok hy, by assumption⟩
  · cases h

theorem lawful_enum (e : EnumDef) (closed : Bool) : (enumMethods e).Lawful (fun _ v v' => v' = v) closed := by
  intro mode v
  by_cases hv : ∃ x, enumValue e v = .ok x
  · obtain ⟨x, hx⟩ := hv
    obtain ⟨rfl, hmem⟩ := enumValue_ok hx
    obtain ⟨es, h1, h2, h3⟩ := int_passes e.underlying mode x
    refine ⟨es, h1, ?_, ?_⟩
    · intro path hp c c' h
      simp only [enumMethods, hx, ok_bind] at h
      exact h2 path hp c c' h
    intro rest cw cs cr hsync b0 cw' w' hw
    simp only [enumMethods, enumWrite] at hw
    obtain ⟨y, hy, hw⟩ := lift_inv hw
    rw [hx, Except.ok.injEq] at hy
    subst hy
    split at hw
    · simp at hw
    obtain ⟨bs, cs', cr', g1, g2, g3, g4, g5⟩ := h3 rest cw cs cr hsync b0 cw' w' hw
    refine ⟨bs, cs', cr', g1, ?_, by simp [enumMethods], ?_, g5⟩
    · simp only [enumMethods, enumSize, hx, ok_bind]
      exact g2
    · rintro i x' rfl s _
      simp only [enumMethods, enumRead]
      have := Reader.Parses.bind (bs' := []) (f := fun (y : Int × Ctx) =>
        if y.1 ∈ e.items then (pure (Val.int y.1, y.2) : M Reader _) else M.throw .enumValue) (g4 ([] ++ s))
        (by simp only [if_pos hmem]; exact Reader.parses_pure _ _ _)
      simpa using this
  · refine ⟨[], fun _ => rfl, ?_, ?_⟩
    · intro path _ c c' h
      simp only [enumMethods] at h
      obtain ⟨x, hx, _⟩ := except_bind_ok h
      exact absurd ⟨x, hx⟩ hv
    · intro rest cw cs cr hsync b0 cw' w' hw
      simp only [enumMethods, enumWrite] at hw
      obtain ⟨x, hx, _⟩ := lift_inv hw
      exact absurd ⟨x, hx⟩ hv

theorem lawful_compound {k : Codec} {P : Val → Val → Prop} {closed : Bool} (h : k.Lawful P closed)
    (args : List (Expr Int)) (env : Env) (hP : ∀ x x', P x x' → ∃ ps, x.params = .ok ps) :
    (compoundMethods k args env).Lawful
      (fun i v v' => P v v' ∧ v.params = evalArgs args { env with index := i }) closed := by
  intro mode x
  obtain ⟨es, h1, h2, h3⟩ := h mode x
  refine ⟨es, h1, h2, ?_⟩
  intro rest cw cs cr hsync b0 cw' w' hw
  obtain ⟨bs, cs', cr', g1, g2, g3, g4⟩ := h3 rest cw cs cr hsync b0 cw' w' hw
  refine ⟨bs, cs', cr', g1, g2, by simp [compoundMethods], ?_, g4⟩
  rintro i x' ⟨hx, hps⟩ s hs
  obtain ⟨ps, hp⟩ := hP _ _ hx
  simp only [compoundMethods]
  rw [← hps, hp]
  have := Reader.Parses.bind (m := M.lift (.ok ps)) (bs := []) (f := fun ps => k.read mode cr ps) (p := b0.length)
    (Reader.parses_lift rfl _ _) (by simpa using g3 ps x' hx hp s hs)
  simpa using this

/-- the type needs a closed compound -/
def ElemType.IsClosed (closed : Nat → Bool) : ElemType → Bool
  | .compound id _ => closed id
  | _ => true

theorem lawful_elem {codecs : Nat → Codec} {stored : Nat → Val → Val → Prop} {closed : Nat → Bool}
    (hk : ∀ id, (codecs id).Lawful (stored id) (closed id)) (hP : ∀ id x x', stored id x x' → ∃ ps, x.params = .ok ps)
    {env : Env} {ty : ElemType} {m : Methods} (h : ty.methods codecs env = .ok m) :
    m.Lawful (fun i v v' => ty.Stored stored env i v v') (ty.IsClosed closed) := by
  cases ty with
  | int k =>
    simp only [ElemType.methods, Except.ok.injEq] at h
    subst h; exact lawful_int k _
  | other b =>
    simp only [ElemType.methods, Except.ok.injEq] at h
    subst h; exact lawful_other b stored env _
  | dynBits signed len =>
    simp only [ElemType.methods] at h
    obtain ⟨n, _, h⟩ := except_bind_ok h
    obtain ⟨k, _, h⟩ := except_bind_ok h
    simp only [Except.ok.injEq] at h
    subst h; exact lawful_int k _
  | enum e =>
    simp only [ElemType.methods, Except.ok.injEq] at h
    subst h; exact lawful_enum e _
  | bitmask k =>
    simp only [ElemType.methods, Except.ok.injEq] at h
    subst h; exact lawful_bitmask k _
  | compound id args =>
    simp only [ElemType.methods, Except.ok.injEq] at h
    subst h
    exact lawful_compound (hk id) args env (hP id)

end Zserio
