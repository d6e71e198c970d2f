import Verif.Lemmas.CompoundElem
set_option linter.unusedSimpArgs false
/-
Helper lemmas on generated compounds: array fields.
-/
namespace Zserio
open Writer Array' Ctx

theorem related_iff (P : Nat → Val → Val → Prop) : ∀ (xs xs' : List Val) (i : Nat),
    Related P i xs xs' ↔ Elementwise P i xs xs'
  | [], [], _ => Iff.rfl
  | [], _ :: _, _ => Iff.rfl
  | _ :: _, [], _ => Iff.rfl
  | _ :: xs, _ :: xs', i => by simp only [Related, Elementwise, related_iff P xs xs' (i + 1)]

namespace Methods
variable {m : Methods} {P : Nat → Val → Val → Prop} {closed : Bool}

/-- the passes without packing -/
theorem Lawful.plain (h : m.Lawful P closed) {x : Val} {b0 : List Bool} {c cw' : Ctx} {w' : Writer}
    (hsync : AllSync [] c c Ctx.empty)
    (hw : m.write none c x (ofBits b0) = (.ok cw', w')) :
    ∃ bs cs' cr', w' = ofBits (b0 ++ bs) ∧ m.bitsizeof none c b0.length x = .ok (bs.length, cs') ∧
      (∀ n, m.constSize = some n → bs.length = n) ∧
      (∀ i x', P i x x' → ∀ s, MayFollow closed none s → Reader.Parses (m.read none Ctx.empty i) b0.length bs s (x', cr')) := by
  obtain ⟨es, h1, _, h3⟩ := h none x
  obtain rfl := h1 rfl
  obtain ⟨bs, cs', cr', g1, g2, g3, g4, _⟩ := h3 [] c c Ctx.empty hsync _ _ _ hw
  exact ⟨bs, cs', cr', g1, g2, fun n hn => g3 n hn rfl, g4⟩

theorem Lawful.appends (h : m.Lawful P closed) (x : Val) : Appends (m.traits.write x) := by
  intro b0 a w' hw
  simp only [traits] at hw
  obtain ⟨c, w1, h1, h2⟩ := Writer.bind_inv hw
  obtain ⟨bs, _, _, rfl, _⟩ := h.plain allSync_empty h1
  simp only [M.pure_apply, Prod.mk.injEq] at h2
  exact ⟨bs, h2.2.symm⟩

theorem traits_runs {x : Val} {b0 bs : List Bool} (hr : Runs (m.traits.write x) b0 bs ()) :
    ∃ c, m.write none Ctx.empty x (ofBits b0) = (.ok c, ofBits (b0 ++ bs)) := by
  unfold Runs at hr
  simp only [traits] at hr
  obtain ⟨c, w1, h1, h2⟩ := Writer.bind_inv hr
  simp only [M.pure_apply, Prod.mk.injEq, true_and] at h2
  exact ⟨c, by rw [h1, h2]⟩

theorem ofBits_inj {b0 bs bs' : List Bool} (h : ofBits (b0 ++ bs) = ofBits (b0 ++ bs')) : bs = bs' := by
  have h1 : Runs (fun _ => (.ok (), ofBits (b0 ++ bs))) b0 bs () := rfl
  have h2 : Runs (fun _ => (.ok (), ofBits (b0 ++ bs))) b0 bs' () := by
    show (Except.ok (), ofBits (b0 ++ bs)) = _
    rw [h]
  exact (Runs.inj h1 h2).2

theorem Lawful.sizeExact (h : m.Lawful P closed) (x : Val) : SizeExact m.traits x := by
  intro b0 bs hr
  obtain ⟨c, h1⟩ := traits_runs hr
  obtain ⟨bs', cs', _, e, g2, g3, _⟩ := h.plain allSync_empty h1
  obtain rfl := ofBits_inj e
  refine ⟨?_, g3⟩
  simp only [traits]
  rw [g2]; rfl

theorem Lawful.readsTo (h : m.Lawful P true) {i : Nat} {x x' : Val} (hx : P i x x') : ReadsTo m.traits i x x' := by
  intro b0 bs hr s
  obtain ⟨c, h1⟩ := traits_runs hr
  obtain ⟨bs', cs', _, e, _, _, g4⟩ := h.plain allSync_empty h1
  obtain rfl := ofBits_inj e
  simp only [traits]
  exact Reader.Parses.map (f := fun (y : Val × Ctx) => y.1) (g4 i x' hx s (Or.inl rfl))

theorem Lawful.readsList (h : m.Lawful P true) : ∀ (xs xs' : List Val) (i : Nat), Elementwise P i xs xs' →
    ReadsList m.traits i xs xs'
  | [], [], _, _ => trivial
  | [], _ :: _, _, h' => h'.elim
  | _ :: _, [], _, h' => h'.elim
  | _ :: xs, _ :: xs', i, h' => ⟨h.readsTo h'.1, h.readsList xs xs' (i + 1) h'.2⟩

/-- The packing events of an element. -/
noncomputable def events (h : m.Lawful P closed) (x : Val) : List Evt := (h (some []) x).choose

theorem events_init (h : m.Lawful P closed) {x : Val} {c c' : Ctx} (hi : m.initPacking [] c x = .ok c') :
    Ctx.initAll c (events h x) = .ok c' := (h (some []) x).choose_spec.2.1 [] rfl c c' hi

theorem packedStep (h : m.Lawful P true) :
    PackedStep m.packedTraits P (fun _ xs cw cs cr => AllSync (xs.flatMap (events h)) cw cs cr) := by
  intro i x xs cw cs cr hR b0 cw' w' hw
  rw [List.flatMap_cons] at hR
  obtain ⟨bs, cs', cr', g1, g2, _, g4, g5⟩ := (h (some []) x).choose_spec.2.2 _ cw cs cr hR b0 cw' w' hw
  exact ⟨bs, cs', cr', g1, g2, fun x' hx s => g4 i x' hx s (Or.inl rfl), g5⟩

theorem packedInit (h : m.Lawful P true) : ∀ (xs : List Val) (c c' : Ctx),
    initContextLoop m.packedTraits c xs = .ok c' → Ctx.initAll c (xs.flatMap (events h)) = .ok c'
  | [], c, c', hi => hi
  | x :: xs, c, c', hi => by
    rw [initContextLoop] at hi
    obtain ⟨c1, h1, h2⟩ := except_bind_ok hi
    rw [List.flatMap_cons, Ctx.initAll_append, events_init h h1, ok_bind]
    exact packedInit h xs c1 c' h2

end Methods

namespace FieldDef
variable {m : Methods} {P : Nat → Val → Val → Prop}

theorem arrayCfg_offsets (f : FieldDef) (a : ArrayDef) :
    (f.arrayCfg a).setOffset.isSome = (f.arrayCfg a).checkOffset.isSome := by
  simp only [arrayCfg]
  cases f.offset with
  | none => rfl
  | some o => rcases o with ⟨o, _ | _⟩ <;> rfl

theorem array_passes (hm : m.Lawful P true) (f : FieldDef) (a : ArrayDef) (mode : Mode) (fields xs : List Val)
    {b0 : List Bool} {w' : Writer} (h : f.writeArray a m mode fields xs (ofBits b0) = (.ok (), w')) :
    ∃ bs, w' = ofBits (b0 ++ bs) ∧ f.bitsizeofArray a m mode b0.length xs = .ok bs.length ∧
      ∀ xs', Elementwise P 0 xs xs' → ∀ size s,
        ((f.arrayCfg a).isImplicit = false → (f.arrayCfg a).isAuto = false → size = xs.length) →
        ((f.arrayCfg a).isImplicit = true → f.arrayPacked a mode = false ∧ (f.arrayCfg a).checkOffset = none ∧
          (f.arrayCfg a).isAuto = false ∧ (∃ n, m.constSize = some n ∧ 0 < n) ∧ s = []) →
        Reader.Parses (f.readArray a m mode fields size) b0.length bs s xs' := by
  unfold writeArray at h
  unfold bitsizeofArray readArray
  cases hp : f.arrayPacked a mode
  · simp only [hp, Bool.false_eq_true, if_false] at h ⊢
    obtain ⟨bits, rfl, hn, hw⟩ := write_inv (fun x _ => hm.appends x) h
    refine ⟨_, rfl, bitsizeof_eq (fun x _ => hm.sizeExact x) (f.arrayCfg_offsets a) hn hw, ?_⟩
    intro xs' hrel size s hsize himp
    have hr := hm.readsList xs xs' 0 hrel
    cases hi : (f.arrayCfg a).isImplicit
    · exact parses_read (fun x _ => hm.sizeExact x) hi hn hw hr s size (hsize hi)
    · obtain ⟨-, hc, ha, ⟨n, hn1, hn2⟩, rfl⟩ := himp hi
      rw [hc, ha] at hw
      simp only [prefixBits, Bool.false_eq_true, if_false, List.append_nil] at hw
      rw [ha]
      simp only [prefixBits, Bool.false_eq_true, if_false, List.nil_append]
      exact parses_read_implicit (fun x _ => hm.sizeExact x) hi hn1 hn2 hw hr [] hn2 size
  · simp only [hp, if_true] at h ⊢
    obtain ⟨bits, rfl, hs, hr⟩ := writePacked_facts (Methods.packedStep hm)
      (fun c hc => allSync_start (Methods.packedInit hm xs _ c hc)) h
    refine ⟨bits, rfl, hs (f.arrayCfg_offsets a), ?_⟩
    intro xs' hrel size s hsize himp
    cases hi : (f.arrayCfg a).isImplicit
    · exact hr hi size (hsize hi) xs' ((related_iff P xs xs' 0).2 hrel) s
    · exact absurd (himp hi).1 (by simp)

end FieldDef
end Zserio
