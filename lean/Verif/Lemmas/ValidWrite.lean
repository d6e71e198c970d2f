import Verif.Spec.Valid
import Verif.Lemmas.Rewrite
set_option linter.unusedSimpArgs false
/-
Valid values can be written: outcomes, element types and arrays.
-/
namespace Zserio
open Writer Ctx

/-! ### Outcomes -/

/-- The call returns; if `off` is allowed, it may also fail for a wrong offset. -/
def Outcome {α : Type} (off : Prop) (m : M Writer α) (b0 : List Bool) (post : α → Prop) : Prop :=
  (off ∧ ∃ w', m (ofBits b0) = (.error .offset, w')) ∨ ∃ bs a, Runs m b0 bs a ∧ post a

variable {off : Prop}

theorem outcome_pure {α : Type} {a : α} {b0 : List Bool} {post : α → Prop} (h : post a) : Outcome off (pure a) b0 post :=
  .inr ⟨[], a, runs_pure _ _, h⟩

theorem outcome_runs {α : Type} {m : M Writer α} {a : α} {b0 : List Bool} {post : α → Prop} (h : ∃ bs, Runs m b0 bs a) (hp : post a) :
    Outcome off m b0 post := by
  obtain ⟨bs, h⟩ := h
  exact .inr ⟨bs, a, h, hp⟩

theorem Outcome.bind {α β : Type} {m : M Writer α} {f : α → M Writer β} {b0 : List Bool} {P : α → Prop} {Q : β → Prop}
    (h : Outcome off m b0 P) (h' : ∀ a, P a → ∀ b1, Outcome off (f a) b1 Q) : Outcome off (m >>= f) b0 Q := by
  rcases h with ⟨ho, w', h⟩ | ⟨bs, a, h, hp⟩
  · exact .inl ⟨ho, w', by rw [M.bind_error h]⟩
  · rcases h' a hp (b0 ++ bs) with ⟨ho, w', h2⟩ | ⟨bs', b, h2, hq⟩
    · refine .inl ⟨ho, w', ?_⟩
      unfold Runs at h
      rw [M.bind_ok h, h2]
    · exact .inr ⟨_, b, h.bind h2, hq⟩

theorem outcome_lift_bind {α β : Type} {x : Except Err α} {a : α} {f : α → M Writer β} {b0 : List Bool} {Q : β → Prop}
    (h : x = .ok a) (h' : Outcome off (f a) b0 Q) : Outcome off (M.lift x >>= f) b0 Q := by
  subst h
  exact h'

theorem Outcome.mono {α : Type} {m : M Writer α} {b0 : List Bool} {P Q : α → Prop} (h : Outcome off m b0 P) (hq : ∀ a, P a → Q a) :
    Outcome off m b0 Q := by
  rcases h with h | ⟨bs, a, h, hp⟩
  · exact .inl h
  · exact .inr ⟨bs, a, h, hq a hp⟩

/-! ### Passes with packing events -/

theorem Ctx.initAll_ok : ∀ (es : List Evt) (c : Ctx), (∀ e ∈ es, e.2.1.InRange e.2.2) → ∃ c', initAll c es = .ok c'
  | [], c, _ => ⟨c, rfl⟩
  | e :: es, c, h => by
    obtain ⟨d, hd⟩ := DeltaContext.initAll_ok [e.2] (c e.1) (by simpa using h e (by simp))
    simp only [DeltaContext.initAll] at hd
    obtain ⟨d1, hd1, -⟩ := except_bind_ok hd
    obtain ⟨c', hc'⟩ := initAll_ok es (c.update e.1 d1) (fun x hx => h x (by simp [hx]))
    exact ⟨c', by rw [initAll, hd1, ok_bind, hc']⟩

/-- One pass: `ip` announces the packing events, `w` writes, `i` initialises offsets (which changes nothing if there are none). -/
def Pass {β : Type} (off : Prop) (mode : Mode) (ip : List Nat → Ctx → Except Err Ctx) (w : Ctx → M Writer Ctx)
    (i : Ctx → Nat → Except Err β) (mk : Nat → Ctx → β) : Prop :=
  ∃ es : List Evt, (mode = none → es = []) ∧ (∀ e ∈ es, e.2.1.InRange e.2.2) ∧
    (∀ path, mode = some path → ∀ c, ip path c = Ctx.initAll c es) ∧
    ∀ rest cw cs cr, AllSync (es ++ rest) cw cs cr → ∀ b0, Outcome off (w cw) b0 fun cw' =>
      ∃ cs' cr', AllSync rest cw' cs' cr' ∧ (¬off → ∀ p, ∃ e, i cs p = .ok (mk e cs'))

/-- The value can be written by the methods of its type. -/
def Methods.Writes (off : Prop) (m : Methods) (v : Val) : Prop :=
  ∀ mode, Pass off mode (fun path c => m.initPacking path c v) (fun c => m.write mode c v) (fun c p => m.initOffsets mode c p v)
    (fun e c => (e, v, c))

/-- The object can be written by its methods. -/
def Codec.Writes (off : Prop) (k : Codec) (v : Val) : Prop :=
  ∀ mode, Pass off mode (fun path c => k.initPacking path c v) (fun c => k.write mode c v) (fun c p => k.initOffsets mode c p v)
    (fun e c => (e, v, c))

/-- a pass without events -/
theorem Pass.quiet {β : Type} {mode : Mode} {ip : List Nat → Ctx → Except Err Ctx} {w : Ctx → M Writer Ctx}
    {i : Ctx → Nat → Except Err β} {mk : Nat → Ctx → β} (hip : ∀ path c, mode = some path → ip path c = .ok c)
    (hw : ∀ c b0, Outcome off (w c) b0 (· = c)) (hi : ¬off → ∀ c p, ∃ e, i c p = .ok (mk e c)) : Pass off mode ip w i mk := by
  refine ⟨[], fun _ => rfl, by simp, fun path hm c => hip path c hm, ?_⟩
  intro rest cw cs cr hs b0
  refine (hw cw b0).mono ?_
  rintro c rfl
  exact ⟨cs, cr, by simpa using hs, fun ho p => hi ho cs p⟩

/-- a pass with one integer -/
theorem Pass.int {β : Type} {mode : Mode} {ip : List Nat → Ctx → Except Err Ctx} {w : Ctx → M Writer Ctx}
    {i : Ctx → Nat → Except Err β} {mk : Nat → Ctx → β} {k : IntKind} {x : Int} (hx : k.InRange x)
    (hip : ∀ path c, mode = some path → ip path c = intInit k path c (.int x))
    (hw : ∀ c, w c = intWrite k mode c x)
    (hi : ∀ c p n c', intSize k mode c p (.int x) = .ok (n, c') → ∃ e, i c p = .ok (mk e c')) : Pass off mode ip w i mk := by
  cases mode with
  | none =>
    refine Pass.quiet (by simp) ?_ ?_
    · intro c b0
      rw [hw]
      exact outcome_runs (intWrite_runs hx c b0) rfl
    · intro _ c p
      obtain ⟨n, hn⟩ := intSize_ok hx c p
      exact hi c p n c hn
  | some path =>
    refine ⟨[(path, (k, x))], by simp, by simpa using hx, ?_, ?_⟩
    · rintro _ ⟨⟩ c
      rw [hip path c rfl, intInit]
      simp only [Val.asInt, ok_bind, initAll]
    · intro rest cw cs cr hs b0
      have hs' : AllSync ((path, (k, x)) :: rest) cw cs cr := hs
      have hq := hs' path
      rw [evtsAt_cons_self] at hq
      obtain ⟨d, w', h1⟩ := DeltaContext.write_ok hq hx b0
      have h2 : ctxWrite k path cw x (ofBits b0) = (.ok (cw.update path d), w') := by
        unfold ctxWrite
        rw [M.bind_ok h1]; rfl
      obtain ⟨bs, cs', cr', rfl, h3, -, h4⟩ := allSync_step hs' h2
      refine .inr ⟨bs, cw.update path d, ?_, cs', cr', h4, fun _ p => ?_⟩
      · rw [hw]; exact h2
      · refine hi cs p bs.length cs' ?_
        simp only [intSize, Val.asInt, ok_bind]
        exact h3

/-! ### Element types -/

theorem intMethods_writes {k : IntKind} {x : Int} (hx : k.InRange x) : (intMethods k).Writes off (.int x) := fun mode =>
  Pass.int hx (fun _ _ _ => rfl) (fun _ => rfl) fun c p n c' h => ⟨p + n, by simp only [intMethods, h, ok_bind]⟩

theorem bitmaskMethods_writes {k : IntKind} {x : Int} (hx : k.InRange x) : (bitmaskMethods k).Writes off (.int x) := fun mode =>
  Pass.int hx (fun _ _ _ => rfl) (fun _ => rfl) fun c p n c' h =>
    ⟨p + n, by simp only [bitmaskMethods, bitmaskSize, Val.asInt, h, ok_bind]⟩

theorem enumMethods_writes {e : EnumDef} {x : Int} (hi : x ∈ e.items) (hr : x ∉ e.removed) (hx : e.underlying.InRange x) :
    (enumMethods e).Writes off (.int x) := fun mode => by
  have he : enumValue e (.int x) = .ok x := by simp only [enumValue, Val.asInt, ok_bind, if_pos hi]
  refine Pass.int hx (fun path c _ => ?_) (fun c => ?_) fun c p n c' h => ⟨p + n, ?_⟩
  · simp only [enumMethods, he, ok_bind]
  · simp only [enumMethods, enumWrite, he]
    show (M.lift (Except.ok x) >>= _) = _
    funext w
    rw [M.bind_ok (M.lift_apply _ _)]
    rw [if_neg hr]
  · simp only [enumMethods, enumSize, he, h, ok_bind]

theorem Builtin.runs_of_writable (b : Builtin) {v : Val} {x : b.Elem} (hp : b.proj v = .ok x) (h : b.Writable x) (b0 : List Bool) :
    ∃ bs, Runs (b.traits.write x) b0 bs () := by
  cases b with
  | bitField n => exact (IntKind.bitField n).runs_of_inRange x h b0
  | signedBitField n => exact (IntKind.signedBitField n).runs_of_inRange x h b0
  | var t => exact (IntKind.var t).runs_of_inRange x h b0
  | float16 =>
    obtain ⟨z, h1, hz⟩ := h
    exact ⟨natBits 16 z, ((WCall.float16 x).runs_iff b0 _).2 (by simp only [WCall.spec, h1, patternBits, if_pos hz])⟩
  | float32 =>
    obtain ⟨z, h1, hz⟩ := h
    exact ⟨natBits 32 z, ((WCall.float32 x).runs_iff b0 _).2 (by simp only [WCall.spec, h1, patternBits, if_pos hz])⟩
  | float64 => exact ⟨_, ((WCall.float64 x).runs_iff b0 _).2 rfl⟩
  | bool => exact ⟨_, ((WCall.bool x).runs_iff b0 _).2 rfl⟩
  | bytes => exact ⟨_, ((WCall.bytes x).runs_iff b0 _).2 (if_pos h)⟩
  | string =>
    obtain ⟨l, h1, h2⟩ := h
    refine ⟨VarType.varsize.encode l.length ++ bytesBits l, ((WCall.string x).runs_iff b0 _).2 ?_⟩
    simp only [WCall.spec, h1, if_pos h2]
  | bitBuffer =>
    have hfit : x.bitsize ≤ 8 * x.buffer.length := builtin_proj_valid hp
    have e : (⟨x.buffer, x.bitsize⟩ : BitBuffer) = x := rfl
    refine ⟨VarType.varsize.encode x.bitsize ++ (bytesBits x.buffer).take x.bitsize.toNat, ?_⟩
    show Runs (writeBitBuffer x) b0 _ ()
    rw [← bitBuffer_run_eq x hfit]
    refine ((WCall.bitBuffer x.buffer (some x.bitsize)).runs_iff b0 _).2 ?_
    simp only [WCall.spec, Option.getD_some]
    obtain ⟨h1, h2⟩ : 0 ≤ x.bitsize ∧ x.bitsize < 2 ^ 31 := h
    rw [if_pos (by refine ⟨h1, hfit, ?_⟩; omega)]

theorem otherMethods_writes {b : Builtin} {v : Val} {x : b.Elem} (hp : b.proj v = .ok x) (h : b.Writable x) :
    (otherMethods b).Writes off v := fun mode => by
  refine Pass.quiet (fun _ _ _ => rfl) (fun c b0 => ?_) fun _ c p => ?_
  · exact outcome_runs (runs_lift_bind hp (runs_bind (b.runs_of_writable hp h b0) fun b1 => ⟨_, runs_pure _ _⟩)) rfl
  · obtain ⟨n, hn⟩ := sizeUnpacked_ok hp (b.sizeExact x (builtin_proj_valid hp)) (b.runs_of_writable hp h) p
    exact ⟨p + n, by simp only [otherMethods, hn, ok_bind]⟩

variable {codecs : Nat → Codec} {valid : Nat → Val → Prop}

/-- the methods of the element type exist and write the valid values -/
theorem ElemType.writes (hk : ∀ id v, valid id v → (codecs id).Writes off v) {ty : ElemType} {env : Env} {m : Methods}
    (hm : ty.methods codecs env = .ok m) {v : Val} (hv : ty.Valid valid env v) : m.Writes off v := by
  cases ty with
  | int k =>
    obtain ⟨x, rfl, hx⟩ := hv
    obtain rfl := Except.ok.inj hm
    exact intMethods_writes hx
  | bitmask k =>
    obtain ⟨x, rfl, hx⟩ := hv
    obtain rfl := Except.ok.inj hm
    exact bitmaskMethods_writes hx
  | dynBits signed length =>
    obtain ⟨n, k, x, h1, h2, rfl, hx⟩ := hv
    simp only [ElemType.methods, h1, h2, ok_bind, Except.ok.injEq] at hm
    obtain rfl := hm
    exact intMethods_writes hx
  | enum e =>
    obtain ⟨x, rfl, hi, hr, hx⟩ := hv
    obtain rfl := Except.ok.inj hm
    exact enumMethods_writes hi hr hx
  | other b =>
    obtain ⟨x, hp, hx⟩ := hv
    obtain rfl := Except.ok.inj hm
    exact otherMethods_writes hp hx
  | compound id args =>
    obtain rfl := Except.ok.inj hm
    exact hk id v hv

theorem ElemType.methods_ok {ty : ElemType} {env : Env} (codecs : Nat → Codec)
    (h : ∀ signed length, ty = .dynBits signed length → ∃ n k, length env = .ok n ∧ dynKind signed n = .ok k) :
    ∃ m, ty.methods codecs env = .ok m := by
  cases ty with
  | dynBits signed length =>
    obtain ⟨n, k, h1, h2⟩ := h signed length rfl
    exact ⟨intMethods k, by simp only [ElemType.methods, h1, h2, ok_bind]⟩
  | _ => exact ⟨_, rfl⟩

/-! ### Arrays -/

section arrays
variable {σ : Type} {m : Methods} {chk : Option (Nat → Nat → σ → Except Err Unit)} {s : σ}

theorem writeLoop_outcome : ∀ {xs : List Val} (_ : ∀ x ∈ xs, m.Writes off x) (i : Nat)
    (_ : ∀ j < xs.length, ∀ b0, Outcome off (Array'.writeCheck chk (i + j) s) b0 fun _ => True) (b0 : List Bool),
    Outcome off (Array'.writeLoop m.traits chk s i xs) b0 fun _ => True
  | [], _, _, _, _ => outcome_pure trivial
  | x :: xs, h, i, hc, b0 => by
    unfold Array'.writeLoop
    refine Outcome.bind (hc 0 (by simp) b0) fun _ _ b1 => ?_
    refine Outcome.bind (P := fun _ => True) ?_ fun _ _ b2 => ?_
    · obtain ⟨es, he, -, -, h4⟩ := h x (by simp) none
      obtain rfl := he rfl
      exact Outcome.bind (h4 [] _ _ _ allSync_empty b1) fun _ _ b2 => outcome_pure trivial
    · refine writeLoop_outcome (fun y hy => h y (by simp [hy])) (i + 1) (fun j hj b0 => ?_) b2
      have := hc (j + 1) (by simpa using hj) b0
      rwa [show i + 1 + j = i + (j + 1) by omega]

theorem initLoop_writes (ho : ¬off) : ∀ {xs : List Val} (_ : ∀ x ∈ xs, m.Writes off x) (p i : Nat),
    ∃ e, Array'.initOffsetsLoop m.traits (none : Option (Nat → Nat → σ → Except Err σ)) p i xs s = .ok (e, xs, s)
  | [], _, p, _ => ⟨p, rfl⟩
  | x :: xs, h, p, i => by
    obtain ⟨es, he, -, -, h4⟩ := h x (by simp) none
    obtain rfl := he rfl
    rcases h4 [] _ _ _ allSync_empty [] with h4 | ⟨_, _, _, cs', cr', -, h5⟩
    · exact absurd h4.1 ho
    obtain ⟨e, he⟩ := h5 ho p
    obtain ⟨e', he'⟩ := initLoop_writes ho (xs := xs) (fun y hy => h y (by simp [hy])) e (i + 1)
    have : m.traits.initOffsets p x = .ok (e, x) := by simp only [Methods.traits, he, ok_bind]
    exact ⟨e', by simp only [Array'.initOffsetsLoop, Array'.offsetStep, this, he', ok_bind]⟩

/-- the events of a list of elements -/
def Events (off : Prop) (m : Methods) (chk : Option (Nat → Nat → σ → Except Err Unit)) (s : σ) (xs : List Val) : Prop :=
  ∃ es : List Evt, (∀ e ∈ es, e.2.1.InRange e.2.2) ∧ (∀ c, Array'.initContextLoop m.packedTraits c xs = Ctx.initAll c es) ∧
    ∀ cw cs cr, AllSync es cw cs cr → ∀ i,
      ((∀ j < xs.length, ∀ b0, Outcome off (Array'.writeCheck chk (i + j) s) b0 fun _ => True) →
        ∀ b0, Outcome off (Array'.writePackedLoop m.packedTraits chk s cw i xs) b0 fun _ => True) ∧
      (¬off → ∀ p, ∃ e, Array'.initOffsetsPackedLoop m.packedTraits (none : Option (Nat → Nat → σ → Except Err σ)) cs p i xs s = .ok (e, xs, s))

theorem events_writes : ∀ {xs : List Val} (_ : ∀ x ∈ xs, m.Writes off x), Events off m chk s xs
  | [], _ => ⟨[], by simp, fun c => rfl, fun cw cs cr _ i => ⟨fun _ b0 => outcome_pure trivial, fun _ p => ⟨p, rfl⟩⟩⟩
  | x :: xs, h => by
    obtain ⟨es, -, h2, h3, h4⟩ := h x (by simp) (some [])
    obtain ⟨es', g2, g3, g4⟩ := events_writes (xs := xs) fun y hy => h y (by simp [hy])
    refine ⟨es ++ es', ?_, ?_, ?_⟩
    · intro e he
      rcases List.mem_append.1 he with he | he
      · exact h2 e he
      · exact g2 e he
    · intro c
      rw [initAll_append, ← h3 [] rfl c]
      show (m.initPacking [] c x >>= fun c => Array'.initContextLoop m.packedTraits c xs) = _
      simp only [g3]
    · intro cw cs cr hs i
      have h5 := h4 es' cw cs cr hs
      refine ⟨fun hc b0 => ?_, fun ho p => ?_⟩
      · unfold Array'.writePackedLoop
        refine Outcome.bind (hc 0 (by simp) b0) fun _ _ b1 => ?_
        refine Outcome.bind (h5 b1) fun cw' hcw' b2 => ?_
        obtain ⟨cs', cr', h6, -⟩ := hcw'
        refine (g4 cw' cs' cr' h6 (i + 1)).1 (fun j hj b0 => ?_) b2
        have := hc (j + 1) (by simpa using hj) b0
        rwa [show i + 1 + j = i + (j + 1) by omega]
      · rcases h5 [] with h5 | ⟨_, cw', _, cs', cr', h6, h7⟩
        · exact absurd h5.1 ho
        obtain ⟨e, he⟩ := h7 ho p
        obtain ⟨e', he'⟩ := (g4 cw' cs' cr' h6 (i + 1)).2 ho e
        refine ⟨e', ?_⟩
        have : m.packedTraits.initOffsets cs p x = .ok (e, x, cs') := he
        simp only [Array'.initOffsetsPackedLoop, Array'.offsetStep, this, he', ok_bind]

/-- a whole array, packed or not -/
theorem array_writes {f : FieldDef} {a : ArrayDef} {mode : Mode} {fields xs : List Val} (h : ∀ x ∈ xs, m.Writes off x)
    (hn : a.kind = .auto → xs.length < 2 ^ 31) (ho : ¬off → f.offset = none)
    (hc : ∀ j < xs.length, ∀ b0, Outcome off (Array'.writeCheck (f.arrayCfg a).checkOffset j fields) b0 fun _ => True) :
    (∀ b0, Outcome off (f.writeArray a m mode fields xs) b0 fun _ => True) ∧
    (¬off → ∀ p, ∃ e, f.initOffsetsArray a m mode p xs fields = .ok (e, xs, fields)) := by
  have hn' : (f.arrayCfg a).isAuto = true → xs.length < 2 ^ 31 := by
    intro ha
    apply hn
    rcases a with ⟨_ | _ | _, _⟩ <;> simp [FieldDef.arrayCfg] at ha ⊢
  have hset : ¬off → (f.arrayCfg a).setOffset = none := fun hoff => by simp [FieldDef.arrayCfg, ho hoff]
  have hc' : ∀ j < xs.length, ∀ b0, Outcome off (Array'.writeCheck (f.arrayCfg a).checkOffset (0 + j) fields) b0 fun _ => True := by
    simpa using hc
  unfold FieldDef.writeArray FieldDef.initOffsetsArray
  by_cases hp : f.arrayPacked a mode = true
  · simp only [if_pos hp]
    obtain ⟨es, g2, g3, g4⟩ := events_writes (chk := (f.arrayCfg a).checkOffset) (s := fields) h
    obtain ⟨c, hcx⟩ := Ctx.initAll_ok es Ctx.empty g2
    have hl : Array'.initContextLoop m.packedTraits m.packedTraits.createContext xs = .ok c := (g3 _).trans hcx
    obtain ⟨g5, g6⟩ := g4 _ _ _ (allSync_start hcx) 0
    refine ⟨fun b0 => ?_, fun hoff p => ?_⟩
    · unfold Array'.writePacked
      refine Outcome.bind (outcome_runs ⟨_, Array'.runs_writePrefix _ _ hn' b0⟩ (post := fun _ => True) trivial) fun _ _ b1 => ?_
      split
      · exact outcome_lift_bind hl (g5 hc' b1)
      · exact outcome_pure trivial
    · unfold Array'.initOffsetsPacked
      rw [hset hoff, Array'.sizePrefix_eq hn', ok_bind]
      split
      · rw [hl, ok_bind]; exact g6 hoff _
      · exact ⟨_, rfl⟩
  · simp only [if_neg hp]
    refine ⟨fun b0 => ?_, fun hoff p => ?_⟩
    · unfold Array'.write
      exact Outcome.bind (outcome_runs ⟨_, Array'.runs_writePrefix _ _ hn' b0⟩ (post := fun _ => True) trivial) fun _ _ b1 =>
        writeLoop_outcome h 0 hc' b1
    · unfold Array'.initOffsets
      rw [hset hoff, Array'.sizePrefix_eq hn', ok_bind]
      exact initLoop_writes hoff h _ 0

end arrays
end Zserio
