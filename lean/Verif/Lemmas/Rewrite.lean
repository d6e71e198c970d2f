import Verif.Spec.Rewrite
import Verif.Lemmas.RewriteBuiltin
import Verif.Lemmas.CompoundArray
set_option linter.unusedSimpArgs false
/-
What has been read can be written again: element types and arrays.
-/
namespace Zserio
open Writer

/-- The value can be written at every position, and initialising its offsets does not change it. -/
structure Methods.Rewrites (m : Methods) (v : Val) : Prop where
  write : ∀ c b0, ∃ bs, Runs (m.write none c v) b0 bs c
  init : ∀ c p, ∃ e, m.initOffsets none c p v = .ok (e, v, c)

/-- The object can be written at every position, and initialising its offsets does not change it. -/
structure Codec.Rewrites (k : Codec) (v : Val) : Prop where
  write : ∀ c b0, ∃ bs, Runs (k.write none c v) b0 bs c
  init : ∀ c p, ∃ e, k.initOffsets none c p v = .ok (e, v, c)

/-- What the methods of the compound read can be written again, unless it is one of the exceptions. -/
def Codec.Rereads (k : Codec) (rewritable canonical : Val → Prop) : Prop :=
  ∀ c ps r x c' r', r.WF → k.read none c ps r = (.ok (x, c'), r') →
    c' = c ∧ x.params = .ok ps ∧ (rewritable x → k.Rewrites x ∧ canonical x)

theorem sizeUnpacked_ok {α : Type} {tr : Traits α} {proj : Val → Except Err α} {v : Val} {x : α} (h : proj v = .ok x)
    (he : Array'.SizeExact tr x) (hr : ∀ b0, ∃ bs, Runs (tr.write x) b0 bs ()) (p : Nat) :
    ∃ n, sizeUnpacked tr proj p v = .ok n := by
  obtain ⟨bs, h1⟩ := hr (zeros p)
  have := sizeUnpacked_eq h he h1
  rw [length_zeros] at this
  exact ⟨_, this⟩

theorem intSize_ok {k : IntKind} {x : Int} (h : k.InRange x) (c : Ctx) (p : Nat) :
    ∃ n, intSize k none c p (.int x) = .ok (n, c) := by
  obtain ⟨n, hn⟩ := sizeUnpacked_ok (proj := Val.asInt) (v := .int x) (x := x) rfl (k.sizeExact x) (k.runs_of_inRange x h) p
  exact ⟨n, by simp only [intSize, hn, ok_bind]⟩

theorem intRead_inv {k : IntKind} {c c' : Ctx} {x : Int} {r r' : Reader} (hr : r.WF)
    (h : intRead k none c r = (.ok (x, c'), r')) : c' = c ∧ k.InRange x := by
  unfold intRead at h
  obtain ⟨y, r1, h1, h2⟩ := M.bind_inv h
  simp only [M.pure_apply, Prod.mk.injEq, Except.ok.injEq] at h2
  obtain ⟨⟨rfl, rfl⟩, -⟩ := h2
  exact ⟨rfl, k.read_inRange hr h1⟩

theorem intWrite_runs {k : IntKind} {x : Int} (h : k.InRange x) (c : Ctx) (b0 : List Bool) :
    ∃ bs, Runs (intWrite k none c x) b0 bs c := by
  obtain ⟨bs, h1⟩ := k.runs_of_inRange x h b0
  exact ⟨bs ++ [], h1.bind (runs_pure _ _)⟩

theorem runs_lift_bind {α β : Type} {x : Except Err α} {a : α} {f : α → M Writer β} {b0 : List Bool} {b : β} (h : x = .ok a)
    (h' : ∃ bs, Runs (f a) b0 bs b) : ∃ bs, Runs (M.lift x >>= f) b0 bs b := by
  obtain ⟨bs, h'⟩ := h'
  exact ⟨[] ++ bs, (runs_lift h b0).bind (by simpa using h')⟩

theorem runs_bind {α β : Type} {m : M Writer α} {a : α} {f : α → M Writer β} {b0 : List Bool} {b : β}
    (h : ∃ bs, Runs m b0 bs a) (h' : ∀ b1, ∃ bs, Runs (f a) b1 bs b) : ∃ bs, Runs (m >>= f) b0 bs b := by
  obtain ⟨bs, h⟩ := h
  obtain ⟨bs', h'⟩ := h' (b0 ++ bs)
  exact ⟨bs ++ bs', h.bind h'⟩

theorem intMethods_rewrites {k : IntKind} {x : Int} (h : k.InRange x) : (intMethods k).Rewrites (.int x) where
  write := fun c b0 => runs_lift_bind rfl (intWrite_runs h c b0)
  init := fun c p => by
    obtain ⟨n, hn⟩ := intSize_ok h c p
    exact ⟨p + n, by simp only [intMethods, hn, ok_bind]⟩

theorem bitmaskMethods_rewrites {k : IntKind} {x : Int} (h : k.InRange x) : (bitmaskMethods k).Rewrites (.int x) where
  write := fun c b0 => runs_lift_bind rfl (intWrite_runs h c b0)
  init := fun c p => by
    obtain ⟨n, hn⟩ := intSize_ok h c p
    exact ⟨p + n, by simp only [bitmaskMethods, bitmaskSize, Val.asInt, hn, ok_bind]⟩

theorem enumMethods_rewrites {e : EnumDef} {x : Int} (hi : x ∈ e.items) (hr : x ∉ e.removed) (h : e.underlying.InRange x) :
    (enumMethods e).Rewrites (.int x) := by
  have he : enumValue e (.int x) = .ok x := by simp only [enumValue, Val.asInt, ok_bind, if_pos hi]
  constructor
  · intro c b0
    refine runs_lift_bind he ?_
    rw [if_neg hr]
    exact intWrite_runs h c b0
  · intro c p
    obtain ⟨n, hn⟩ := intSize_ok h c p
    exact ⟨p + n, by simp only [enumMethods, enumSize, he, hn, ok_bind]⟩

theorem builtin_valid_of_proj {b : Builtin} {x : b.Elem} (h : b.proj (b.inj x) = .ok x) : b.Valid x := builtin_proj_valid h

theorem otherMethods_rewrites {b : Builtin} {x : b.Elem} (h : b.proj (b.inj x) = .ok x)
    (hw : ∀ b0, ∃ bs, Runs (b.traits.write x) b0 bs ()) : (otherMethods b).Rewrites (b.inj x) where
  write := fun c b0 => runs_lift_bind h (runs_bind (hw b0) fun b1 => ⟨_, runs_pure _ _⟩)
  init := fun c p => by
    obtain ⟨n, hn⟩ := sizeUnpacked_ok h (b.sizeExact x (builtin_proj_valid h)) hw p
    exact ⟨p + n, by simp only [otherMethods, hn, ok_bind]⟩

theorem inj_isNone (b : Builtin) (x : b.Elem) : (b.inj x).isNone = false := by cases b <;> rfl

theorem params_isNone {v : Val} {ps : List Int} (h : v.params = .ok ps) : v.isNone = false := by
  cases v <;> first | rfl | cases h

variable {codecs : Nat → Codec} {rewritable canonical : Nat → Val → Prop}

/-- The values read for an element type. -/
theorem methods_reread (hk : ∀ id, (codecs id).Rereads (rewritable id) (canonical id)) {ty : ElemType} {env : Env} {m : Methods}
    (hm : ty.methods codecs env = .ok m) {c c' : Ctx} {i : Nat} {v : Val} {r r' : Reader} (hr : r.WF)
    (h : m.read none c i r = (.ok (v, c'), r')) :
    c' = c ∧ v.isNone = false ∧
      (∀ id args, ty = .compound id args → ∃ ps, v.params = .ok ps ∧ evalArgs args { env with index := i } = .ok ps) ∧
      (ty.Rewritable rewritable v → m.Rewrites v ∧ ty.Canonical canonical env i v) := by
  cases ty with
  | int k =>
    simp only [ElemType.methods, Except.ok.injEq] at hm; subst hm
    obtain ⟨⟨x, c1⟩, r1, h1, h2⟩ := M.bind_inv h
    simp only [M.pure_apply, Prod.mk.injEq, Except.ok.injEq] at h2
    obtain ⟨⟨rfl, rfl⟩, -⟩ := h2
    obtain ⟨rfl, hx⟩ := intRead_inv hr h1
    exact ⟨rfl, rfl, by simp, fun _ => ⟨intMethods_rewrites hx, trivial⟩⟩
  | dynBits signed length =>
    simp only [ElemType.methods] at hm
    obtain ⟨n, -, hm⟩ := except_bind_ok hm
    obtain ⟨k, -, hm⟩ := except_bind_ok hm
    cases hm
    obtain ⟨⟨x, c1⟩, r1, h1, h2⟩ := M.bind_inv h
    simp only [M.pure_apply, Prod.mk.injEq, Except.ok.injEq] at h2
    obtain ⟨⟨rfl, rfl⟩, -⟩ := h2
    obtain ⟨rfl, hx⟩ := intRead_inv hr h1
    exact ⟨rfl, rfl, by simp, fun _ => ⟨intMethods_rewrites hx, trivial⟩⟩
  | bitmask k =>
    simp only [ElemType.methods, Except.ok.injEq] at hm; subst hm
    obtain ⟨⟨x, c1⟩, r1, h1, h2⟩ := M.bind_inv h
    simp only [M.pure_apply, Prod.mk.injEq, Except.ok.injEq] at h2
    obtain ⟨⟨rfl, rfl⟩, -⟩ := h2
    obtain ⟨rfl, hx⟩ := intRead_inv hr h1
    exact ⟨rfl, rfl, by simp, fun _ => ⟨bitmaskMethods_rewrites hx, trivial⟩⟩
  | enum e =>
    simp only [ElemType.methods, Except.ok.injEq] at hm; subst hm
    obtain ⟨⟨x, c1⟩, r1, h1, h2⟩ := M.bind_inv (show (intRead e.underlying none c >>= fun p =>
      if p.1 ∈ e.items then pure (Val.int p.1, p.2) else M.throw .enumValue) r = _ from h)
    simp only at h2
    obtain ⟨rfl, hx⟩ := intRead_inv hr h1
    split at h2
    · rename_i hi
      simp only [M.pure_apply, Prod.mk.injEq, Except.ok.injEq] at h2
      obtain ⟨⟨rfl, rfl⟩, -⟩ := h2
      exact ⟨rfl, rfl, by simp, fun hrw => ⟨enumMethods_rewrites hi (hrw x rfl) hx, trivial⟩⟩
    · simp at h2
  | other b =>
    simp only [ElemType.methods, Except.ok.injEq] at hm; subst hm
    obtain ⟨x, r1, h1, h2⟩ := M.bind_inv h
    simp only [M.pure_apply, Prod.mk.injEq, Except.ok.injEq] at h2
    obtain ⟨⟨rfl, rfl⟩, -⟩ := h2
    obtain ⟨g1, g2, g3⟩ := b.reread hr h1
    exact ⟨rfl, inj_isNone b x, by simp, fun _ => ⟨otherMethods_rewrites g1 g3, x, g1, g2⟩⟩
  | compound id args =>
    simp only [ElemType.methods, Except.ok.injEq] at hm; subst hm
    obtain ⟨ps, r1, h1, h2⟩ := M.bind_inv h
    rw [M.lift_apply] at h1
    simp only [Prod.mk.injEq] at h1
    obtain ⟨h1, rfl⟩ := h1
    obtain ⟨g1, g2, g3⟩ := hk id c ps r v c' r' hr h2
    refine ⟨g1, params_isNone g2, ?_, fun hrw => ?_⟩
    · rintro _ _ ⟨⟩
      exact ⟨ps, g2, h1⟩
    · obtain ⟨k1, k2⟩ := g3 hrw
      exact ⟨⟨k1.write, k1.init⟩, k2, g2.trans h1.symm⟩

/-! ### Arrays -/

variable {m : Methods}

theorem traits_write_runs {v : Val} (h : m.Rewrites v) (b0 : List Bool) : ∃ bs, Runs (m.traits.write v) b0 bs () :=
  runs_bind (h.write Ctx.empty b0) fun _ => ⟨_, runs_pure _ _⟩

theorem traits_init_ok {v : Val} (h : m.Rewrites v) (p : Nat) : ∃ e, m.traits.initOffsets p v = .ok (e, v) := by
  obtain ⟨e, he⟩ := h.init Ctx.empty p
  exact ⟨e, by simp only [Methods.traits, he, ok_bind]⟩

theorem writeLoop_runs {σ : Type} {s : σ} : ∀ {xs : List Val} (_ : ∀ x ∈ xs, m.Rewrites x) (i : Nat) (b0 : List Bool),
    ∃ bs, Runs (Array'.writeLoop m.traits none s i xs) b0 bs ()
  | [], _, _, _ => ⟨_, runs_pure _ _⟩
  | x :: xs, h, i, b0 => runs_bind ⟨_, runs_pure () b0⟩ fun b1 =>
      runs_bind (traits_write_runs (h x (by simp)) b1) fun b2 => writeLoop_runs (fun y hy => h y (by simp [hy])) (i + 1) b2

theorem write_runs {σ : Type} {s : σ} {xs : List Val} (h : ∀ x ∈ xs, m.Rewrites x) {cfg : ArrayCfg σ} (hc : cfg.checkOffset = none)
    (hn : cfg.isAuto = true → xs.length < 2 ^ 31) (b0 : List Bool) : ∃ bs, Runs (Array'.write m.traits cfg s xs) b0 bs () := by
  unfold Array'.write
  rw [hc]
  exact runs_bind ⟨_, Array'.runs_writePrefix _ _ hn b0⟩ fun b1 => writeLoop_runs h 0 b1

theorem initLoop_ok {σ : Type} {s : σ} : ∀ {xs : List Val} (_ : ∀ x ∈ xs, m.Rewrites x) (p i : Nat),
    ∃ e, Array'.initOffsetsLoop m.traits (none : Option (Nat → Nat → σ → Except Err σ)) p i xs s = .ok (e, xs, s)
  | [], _, p, _ => ⟨p, rfl⟩
  | x :: xs, h, p, i => by
    obtain ⟨e, he⟩ := traits_init_ok (h x (by simp)) p
    obtain ⟨e', he'⟩ := initLoop_ok (s := s) (xs := xs) (fun y hy => h y (by simp [hy])) e (i + 1)
    exact ⟨e', by simp only [Array'.initOffsetsLoop, Array'.offsetStep, he, he', ok_bind]⟩

theorem init_ok {σ : Type} {s : σ} {xs : List Val} (h : ∀ x ∈ xs, m.Rewrites x) {cfg : ArrayCfg σ} (hc : cfg.setOffset = none)
    (hn : cfg.isAuto = true → xs.length < 2 ^ 31) (p : Nat) :
    ∃ e, Array'.initOffsets m.traits cfg p xs s = .ok (e, xs, s) := by
  unfold Array'.initOffsets
  rw [hc, Array'.sizePrefix_eq hn, ok_bind]
  exact initLoop_ok h _ 0

/-- the elements read, with their indices -/
theorem readLoop_inv {σ : Type} {s : σ} {P : Nat → Val → Prop}
    (hP : ∀ i v r r', r.WF → m.traits.read i r = (.ok v, r') → r'.WF ∧ P i v) :
    ∀ {n i : Nat} {xs : List Val} {r r' : Reader}, r.WF →
      Array'.readLoop m.traits (none : Option (Nat → Nat → σ → Except Err Unit)) s i n r = (.ok xs, r') →
      xs.length = n ∧ AllIndexed P i xs
  | 0, i, xs, r, r', _, h => by
    simp only [Array'.readLoop, M.pure_apply, Prod.mk.injEq, Except.ok.injEq] at h
    rw [← h.1]
    exact ⟨rfl, trivial⟩
  | n + 1, i, xs, r, r', hr, h => by
    simp only [Array'.readLoop] at h
    obtain ⟨_, r1, h1, h2⟩ := M.bind_inv h
    simp only [Array'.readCheck, M.pure_apply, Prod.mk.injEq, true_and] at h1
    subst h1
    obtain ⟨x, r2, h3, h4⟩ := M.bind_inv h2
    obtain ⟨ys, r3, h5, h6⟩ := M.bind_inv h4
    simp only [M.pure_apply, Prod.mk.injEq, Except.ok.injEq] at h6
    obtain ⟨hr2, hx⟩ := hP i x r r2 hr h3
    obtain ⟨k1, k2⟩ := readLoop_inv hP hr2 h5
    rw [← h6.1]
    exact ⟨by simp [k1], hx, k2⟩

/-- What `read` returns: the length fits, and every element has been read. -/
theorem arrayRead_inv {σ : Type} {s : σ} {P : Nat → Val → Prop}
    (hP : ∀ i v r r', r.WF → m.traits.read i r = (.ok v, r') → r'.WF ∧ P i v) {cfg : ArrayCfg σ} (hc : cfg.checkOffset = none)
    {size : Nat} {xs : List Val} {r r' : Reader} (hr : r.WF) (h : Array'.read m.traits cfg s size r = (.ok xs, r')) :
    (cfg.isImplicit = false → cfg.isAuto = true → xs.length < 2 ^ 31) ∧
      (cfg.isImplicit = false → cfg.isAuto = false → xs.length = size) ∧ AllIndexed P 0 xs := by
  unfold Array'.read at h
  split at h
  · rename_i hi
    simp only [hi, Bool.true_eq_false, false_imp_iff, true_and]
    rcases hcs : m.traits.constSize with _ | es
    · rw [hcs] at h; simp at h
    · rw [hcs] at h
      simp only at h
      rw [M.bind_ok (M.get_apply _)] at h
      split at h
      · simp at h
      · exact (readLoop_inv hP hr h).2
  · rename_i hi
    obtain ⟨n, r1, h1, h2⟩ := M.bind_inv h
    have hr1 : r1.WF ∧ (cfg.isAuto = true → n < 2 ^ 31) ∧ (cfg.isAuto = false → n = size) := by
      unfold Array'.readSize at h1
      split at h1
      · rename_i ha
        obtain ⟨g1, g2⟩ := Reader.readVarsize_inv hr h1
        exact ⟨g1, fun _ => g2, by simp [ha]⟩
      · rename_i ha
        simp only [M.pure_apply, Prod.mk.injEq, Except.ok.injEq] at h1
        obtain ⟨rfl, rfl⟩ := h1
        exact ⟨hr, fun h => absurd h ha, fun _ => rfl⟩
    obtain ⟨hr1, g1, g2⟩ := hr1
    have key : xs.length = n ∧ AllIndexed P 0 xs := by
      rw [hc] at h2
      rcases hcs : m.traits.constSize with _ | es
      · rw [hcs] at h2
        exact readLoop_inv hP hr1 h2
      · rw [hcs] at h2
        simp only at h2
        rw [M.bind_ok (M.get_apply _)] at h2
        split at h2
        · simp at h2
        · exact readLoop_inv hP hr1 h2
    rw [key.1]
    exact ⟨fun _ => g1, fun _ => g2, key.2⟩

theorem allIndexed_mono {P Q : Nat → Val → Prop} : ∀ {i : Nat} {xs : List Val}, AllIndexed P i xs →
    (∀ j x, x ∈ xs → P j x → Q j x) → AllIndexed Q i xs
  | _, [], _, _ => trivial
  | i, x :: xs, h, hPQ => ⟨hPQ i x (by simp) h.1, allIndexed_mono h.2 fun j y hy => hPQ j y (by simp [hy])⟩

theorem allIndexed_mem {P : Val → Prop} : ∀ {i : Nat} {xs : List Val}, AllIndexed (fun _ => P) i xs → ∀ x ∈ xs, P x
  | _, [], _, x, hx => by cases hx
  | i, y :: ys, h, x, hx => by
    rcases List.mem_cons.1 hx with rfl | hx
    · exact h.1
    · exact allIndexed_mem h.2 x hx

end Zserio
