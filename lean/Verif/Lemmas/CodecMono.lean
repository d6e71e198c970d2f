import Verif.Model.Serialization
set_option linter.unusedSimpArgs false
/-
The methods of compounds depend on the methods of the compounds they refer to only as far as they call them.  `b` says whether the result
may be better than a `RecursionError`; `P` says for which values the methods of the compounds agree.
-/
namespace Zserio.Mono

/-- the same result, or (if `b`) the first is a `RecursionError` -/
def ELe {α : Type} (b : Prop) (x y : Except Err α) : Prop := (b ∧ x = .error .recursion) ∨ x = y

def MLe {σ α : Type} (b : Prop) (x y : M σ α) : Prop := ∀ s, (b ∧ (x s).1 = .error .recursion) ∨ x s = y s

variable {b : Prop} {P : Val → Prop}

theorem ELe.refl {α : Type} (x : Except Err α) : ELe b x x := .inr rfl
theorem MLe.refl {σ α : Type} (x : M σ α) : MLe b x x := fun _ => .inr rfl

theorem ELe.bind {α β : Type} {x y : Except Err α} {f g : α → Except Err β} (h : ELe b x y) (hf : ∀ a, x = .ok a → ELe b (f a) (g a)) :
    ELe b (x >>= f) (y >>= g) := by
  rcases h with ⟨hb, rfl⟩ | rfl
  · exact .inl ⟨hb, rfl⟩
  · cases x with
    | error e => exact .inr rfl
    | ok a => exact hf a rfl

theorem MLe.bind {σ α β : Type} {x y : M σ α} {f g : α → M σ β} (h : MLe b x y) (hf : ∀ a, MLe b (f a) (g a)) :
    MLe b (x >>= f) (y >>= g) := by
  intro s
  show (b ∧ (M.bind x f s).1 = _) ∨ M.bind x f s = M.bind y g s
  unfold M.bind
  rcases h s with ⟨hb, h1⟩ | h1
  · left
    refine ⟨hb, ?_⟩
    cases hx : x s with
    | mk r s' =>
      rw [hx] at h1
      cases h1
      rfl
  · rw [← h1]
    cases hx : x s with
    | mk r s' =>
      cases r with
      | error e => exact .inr rfl
      | ok a => exact hf a s'

theorem MLe.lift {σ α : Type} {x y : Except Err α} (h : ELe b x y) : MLe b (M.lift x : M σ α) (M.lift y) := by
  rcases h with ⟨hb, rfl⟩ | rfl
  · exact fun s => .inl ⟨hb, rfl⟩
  · exact MLe.refl _

theorem MLe.bindLift {σ α β : Type} (x : Except Err α) {f g : α → M σ β} (h : ∀ a, x = .ok a → MLe b (f a) (g a)) :
    MLe b ((M.lift x : M σ α) >>= f) ((M.lift x : M σ α) >>= g) := by
  cases x with
  | error e => exact MLe.refl _
  | ok a => exact h a rfl

macro "mono" : tactic => `(tactic| (repeat' (first
  | exact ELe.refl _ | exact MLe.refl _ | assumption
  | (refine ELe.bind ?_ (fun _ _ => ?_)) | (refine MLe.bind ?_ (fun _ => ?_)) | (refine MLe.lift ?_)
  | split)))

/-! ### Arrays -/

structure TraitsLe (b : Prop) (P : Val → Prop) (t t' : Traits Val) : Prop where
  constSize : t.constSize = t'.constSize
  bitsizeof : ∀ p v, P v → ELe b (t.bitsizeof p v) (t'.bitsizeof p v)
  initOffsets : ∀ p v, P v → ELe b (t.initOffsets p v) (t'.initOffsets p v)
  read : b → ∀ i, MLe b (t.read i) (t'.read i)
  write : ∀ v, P v → MLe b (t.write v) (t'.write v)

structure PackedLe (b : Prop) (P : Val → Prop) (t t' : PackedTraits Ctx Val) : Prop where
  createContext : t.createContext = t'.createContext
  initContext : ∀ c v, P v → ELe b (t.initContext c v) (t'.initContext c v)
  bitsizeof : ∀ c p v, P v → ELe b (t.bitsizeof c p v) (t'.bitsizeof c p v)
  initOffsets : ∀ c p v, P v → ELe b (t.initOffsets c p v) (t'.initOffsets c p v)
  read : b → ∀ c i, MLe b (t.read c i) (t'.read c i)
  write : ∀ c v, P v → MLe b (t.write c v) (t'.write c v)

section arrays
variable {t t' : Traits Val} {q q' : PackedTraits Ctx Val} {σ : Type}

theorem bitsizeofLoop (h : TraitsLe b P t t') (al : Bool) : ∀ (xs : List Val) (p : Nat), (∀ x ∈ xs, P x) →
    ELe b (Array'.bitsizeofLoop t al p xs) (Array'.bitsizeofLoop t' al p xs)
  | [], p, _ => ELe.refl _
  | x :: xs, p, hx => by
    have h1 := fun p => h.bitsizeof p x (hx x (by simp))
    have h2 := fun p => bitsizeofLoop h al xs p fun x hm => hx x (by simp [hm])
    simp only [Array'.bitsizeofLoop]
    refine ELe.bind (h1 _) fun n _ => h2 _

theorem bitsizeofElements (h : TraitsLe b P t t') (al : Bool) (p : Nat) (xs : List Val) (hx : ∀ x ∈ xs, P x) :
    ELe b (Array'.bitsizeofElements t al p xs) (Array'.bitsizeofElements t' al p xs) := by
  have h1 := bitsizeofLoop h al xs p hx
  unfold Array'.bitsizeofElements
  rw [h.constSize]
  mono

theorem bitsizeofArr (h : TraitsLe b P t t') (cfg : ArrayCfg σ) (p : Nat) (xs : List Val) (hx : ∀ x ∈ xs, P x) :
    ELe b (Array'.bitsizeof t cfg p xs) (Array'.bitsizeof t' cfg p xs) := by
  unfold Array'.bitsizeof
  refine ELe.bind (ELe.refl _) fun e _ => ELe.bind (bitsizeofElements h _ _ xs hx) fun _ _ => ELe.refl _

theorem initOffsetsLoop (h : TraitsLe b P t t') (so : Option (Nat → Nat → σ → Except Err σ)) : ∀ (xs : List Val) (p i : Nat) (s : σ),
    (∀ x ∈ xs, P x) → ELe b (Array'.initOffsetsLoop t so p i xs s) (Array'.initOffsetsLoop t' so p i xs s)
  | [], p, i, s, _ => ELe.refl _
  | x :: xs, p, i, s, hx => by
    simp only [Array'.initOffsetsLoop]
    refine ELe.bind (ELe.refl _) fun r _ => ELe.bind (h.initOffsets _ _ (hx x (by simp))) fun r _ =>
      ELe.bind (initOffsetsLoop h so xs _ _ _ fun x hm => hx x (by simp [hm])) fun _ _ => ELe.refl _

theorem initOffsetsArr (h : TraitsLe b P t t') (cfg : ArrayCfg σ) (p : Nat) (xs : List Val) (s : σ) (hx : ∀ x ∈ xs, P x) :
    ELe b (Array'.initOffsets t cfg p xs s) (Array'.initOffsets t' cfg p xs s) := by
  unfold Array'.initOffsets
  exact ELe.bind (ELe.refl _) fun e _ => initOffsetsLoop h _ xs _ _ _ hx

theorem readLoop (hb : b) (h : TraitsLe b P t t') (co : Option (Nat → Nat → σ → Except Err Unit)) (s : σ) : ∀ (n i : Nat),
    MLe b (Array'.readLoop t co s i n) (Array'.readLoop t' co s i n)
  | 0, i => MLe.refl _
  | n + 1, i => by
    simp only [Array'.readLoop]
    exact MLe.bind (MLe.refl _) fun _ => MLe.bind (h.read hb i) fun _ => MLe.bind (readLoop hb h co s n (i + 1)) fun _ => MLe.refl _

theorem readArr (hb : b) (h : TraitsLe b P t t') (cfg : ArrayCfg σ) (s : σ) (size : Nat) :
    MLe b (Array'.read t cfg s size) (Array'.read t' cfg s size) := by
  unfold Array'.read
  rw [h.constSize]
  have := fun co n i => readLoop (σ := σ) hb h co s n i
  split
  · split
    · exact MLe.refl _
    · refine MLe.bind (MLe.refl _) fun r => ?_
      split
      · exact MLe.refl _
      · exact this _ _ _
  · refine MLe.bind (MLe.refl _) fun r => ?_
    split
    · refine MLe.bind (MLe.refl _) fun r => ?_
      split
      · exact MLe.refl _
      · exact this _ _ _
    · exact this _ _ _

theorem writeLoop (h : TraitsLe b P t t') (co : Option (Nat → Nat → σ → Except Err Unit)) (s : σ) : ∀ (xs : List Val) (i : Nat),
    (∀ x ∈ xs, P x) → MLe b (Array'.writeLoop t co s i xs) (Array'.writeLoop t' co s i xs)
  | [], i, _ => MLe.refl _
  | x :: xs, i, hx => by
    simp only [Array'.writeLoop]
    exact MLe.bind (MLe.refl _) fun _ => MLe.bind (h.write x (hx x (by simp))) fun _ =>
      writeLoop h co s xs (i + 1) fun x hm => hx x (by simp [hm])

theorem writeArr (h : TraitsLe b P t t') (cfg : ArrayCfg σ) (s : σ) (xs : List Val) (hx : ∀ x ∈ xs, P x) :
    MLe b (Array'.write t cfg s xs) (Array'.write t' cfg s xs) := by
  unfold Array'.write
  exact MLe.bind (MLe.refl _) fun _ => writeLoop h _ s xs 0 hx

theorem initContextLoop (h : PackedLe b P q q') : ∀ (xs : List Val) (c : Ctx), (∀ x ∈ xs, P x) →
    ELe b (Array'.initContextLoop q c xs) (Array'.initContextLoop q' c xs)
  | [], c, _ => ELe.refl _
  | x :: xs, c, hx => by
    simp only [Array'.initContextLoop]
    exact ELe.bind (h.initContext _ _ (hx x (by simp))) fun _ _ => initContextLoop h xs _ fun x hm => hx x (by simp [hm])

theorem bitsizeofPackedLoop (h : PackedLe b P q q') (al : Bool) : ∀ (xs : List Val) (c : Ctx) (p : Nat), (∀ x ∈ xs, P x) →
    ELe b (Array'.bitsizeofPackedLoop q al c p xs) (Array'.bitsizeofPackedLoop q' al c p xs)
  | [], c, p, _ => ELe.refl _
  | x :: xs, c, p, hx => by
    simp only [Array'.bitsizeofPackedLoop]
    exact ELe.bind (h.bitsizeof _ _ _ (hx x (by simp))) fun _ _ => bitsizeofPackedLoop h al xs _ _ fun x hm => hx x (by simp [hm])

theorem bitsizeofPackedArr (h : PackedLe b P q q') (cfg : ArrayCfg σ) (p : Nat) (xs : List Val) (hx : ∀ x ∈ xs, P x) :
    ELe b (Array'.bitsizeofPacked q cfg p xs) (Array'.bitsizeofPacked q' cfg p xs) := by
  unfold Array'.bitsizeofPacked Array'.bitsizeofPackedElements
  rw [h.createContext]
  refine ELe.bind (ELe.refl _) fun e _ => ELe.bind ?_ fun _ _ => ELe.refl _
  split
  · exact ELe.bind (initContextLoop h xs _ hx) fun _ _ => bitsizeofPackedLoop h _ xs _ _ hx
  · exact ELe.refl _

theorem initOffsetsPackedLoop (h : PackedLe b P q q') (so : Option (Nat → Nat → σ → Except Err σ)) :
    ∀ (xs : List Val) (c : Ctx) (p i : Nat) (s : σ), (∀ x ∈ xs, P x) →
    ELe b (Array'.initOffsetsPackedLoop q so c p i xs s) (Array'.initOffsetsPackedLoop q' so c p i xs s)
  | [], c, p, i, s, _ => ELe.refl _
  | x :: xs, c, p, i, s, hx => by
    simp only [Array'.initOffsetsPackedLoop]
    refine ELe.bind (ELe.refl _) fun r _ => ELe.bind (h.initOffsets _ _ _ (hx x (by simp))) fun r _ =>
      ELe.bind (initOffsetsPackedLoop h so xs _ _ _ _ fun x hm => hx x (by simp [hm])) fun _ _ => ELe.refl _

theorem initOffsetsPackedArr (h : PackedLe b P q q') (cfg : ArrayCfg σ) (p : Nat) (xs : List Val) (s : σ) (hx : ∀ x ∈ xs, P x) :
    ELe b (Array'.initOffsetsPacked q cfg p xs s) (Array'.initOffsetsPacked q' cfg p xs s) := by
  unfold Array'.initOffsetsPacked
  rw [h.createContext]
  refine ELe.bind (ELe.refl _) fun e _ => ?_
  split
  · exact ELe.bind (initContextLoop h xs _ hx) fun _ _ => initOffsetsPackedLoop h _ xs _ _ _ _ hx
  · exact ELe.refl _

theorem readPackedLoop (hb : b) (h : PackedLe b P q q') (co : Option (Nat → Nat → σ → Except Err Unit)) (s : σ) : ∀ (n i : Nat) (c : Ctx),
    MLe b (Array'.readPackedLoop q co s c i n) (Array'.readPackedLoop q' co s c i n)
  | 0, i, c => MLe.refl _
  | n + 1, i, c => by
    simp only [Array'.readPackedLoop]
    exact MLe.bind (MLe.refl _) fun _ => MLe.bind (h.read hb c i) fun _ => MLe.bind (readPackedLoop hb h co s n (i + 1) _) fun _ =>
      MLe.refl _

theorem readPackedArr (hb : b) (h : PackedLe b P q q') (cfg : ArrayCfg σ) (s : σ) (size : Nat) :
    MLe b (Array'.readPacked q cfg s size) (Array'.readPacked q' cfg s size) := by
  unfold Array'.readPacked
  rw [h.createContext]
  split
  · exact MLe.refl _
  · refine MLe.bind (MLe.refl _) fun r => ?_
    split
    · exact readPackedLoop hb h _ s _ _ _
    · exact MLe.refl _

theorem writePackedLoop (h : PackedLe b P q q') (co : Option (Nat → Nat → σ → Except Err Unit)) (s : σ) :
    ∀ (xs : List Val) (c : Ctx) (i : Nat), (∀ x ∈ xs, P x) →
    MLe b (Array'.writePackedLoop q co s c i xs) (Array'.writePackedLoop q' co s c i xs)
  | [], c, i, _ => MLe.refl _
  | x :: xs, c, i, hx => by
    simp only [Array'.writePackedLoop]
    exact MLe.bind (MLe.refl _) fun _ => MLe.bind (h.write _ x (hx x (by simp))) fun _ =>
      writePackedLoop h co s xs _ (i + 1) fun x hm => hx x (by simp [hm])

theorem writePackedArr (h : PackedLe b P q q') (cfg : ArrayCfg σ) (s : σ) (xs : List Val) (hx : ∀ x ∈ xs, P x) :
    MLe b (Array'.writePacked q cfg s xs) (Array'.writePacked q' cfg s xs) := by
  unfold Array'.writePacked
  rw [h.createContext]
  refine MLe.bind (MLe.refl _) fun _ => ?_
  split
  · exact MLe.bind (MLe.lift (initContextLoop h xs _ hx)) fun _ => writePackedLoop h _ s xs _ 0 hx
  · exact MLe.refl _

end arrays

/-! ### Values of fields -/

structure MethodsLe (b : Prop) (P : Val → Prop) (m m' : Methods) : Prop where
  constSize : m.constSize = m'.constSize
  initPacking : ∀ path c v, P v → ELe b (m.initPacking path c v) (m'.initPacking path c v)
  bitsizeof : ∀ mode c p v, P v → ELe b (m.bitsizeof mode c p v) (m'.bitsizeof mode c p v)
  initOffsets : ∀ mode c p v, P v → ELe b (m.initOffsets mode c p v) (m'.initOffsets mode c p v)
  write : ∀ mode c v, P v → MLe b (m.write mode c v) (m'.write mode c v)
  read : b → ∀ mode c i, MLe b (m.read mode c i) (m'.read mode c i)

structure CodecLe (b : Prop) (P : Val → Prop) (m m' : Codec) : Prop where
  initPacking : ∀ path c v, P v → ELe b (m.initPacking path c v) (m'.initPacking path c v)
  bitsizeof : ∀ mode c p v, P v → ELe b (m.bitsizeof mode c p v) (m'.bitsizeof mode c p v)
  initOffsets : ∀ mode c p v, P v → ELe b (m.initOffsets mode c p v) (m'.initOffsets mode c p v)
  write : ∀ mode c v, P v → MLe b (m.write mode c v) (m'.write mode c v)
  read : b → ∀ mode c ps, MLe b (m.read mode c ps) (m'.read mode c ps)

theorem MethodsLe.refl (m : Methods) : MethodsLe b P m m :=
  ⟨rfl, fun _ _ _ _ => ELe.refl _, fun _ _ _ _ _ => ELe.refl _, fun _ _ _ _ _ => ELe.refl _, fun _ _ _ _ => MLe.refl _,
    fun _ _ _ _ => MLe.refl _⟩

theorem MethodsLe.traits {m m' : Methods} (h : MethodsLe b P m m') : TraitsLe b P m.traits m'.traits where
  constSize := h.constSize
  bitsizeof := fun p v hv => ELe.bind (h.bitsizeof _ _ _ _ hv) fun _ _ => ELe.refl _
  initOffsets := fun p v hv => ELe.bind (h.initOffsets _ _ _ _ hv) fun _ _ => ELe.refl _
  read := fun hb i => MLe.bind (h.read hb _ _ _) fun _ => MLe.refl _
  write := fun v hv => MLe.bind (h.write _ _ _ hv) fun _ => MLe.refl _

theorem MethodsLe.packed {m m' : Methods} (h : MethodsLe b P m m') : PackedLe b P m.packedTraits m'.packedTraits where
  createContext := rfl
  initContext := fun c v hv => h.initPacking _ _ _ hv
  bitsizeof := fun c p v hv => h.bitsizeof _ _ _ _ hv
  initOffsets := fun c p v hv => h.initOffsets _ _ _ _ hv
  read := fun hb c i => h.read hb _ _ _
  write := fun c v hv => h.write _ _ _ hv

/-- the methods of an element type: both raise the same, or there are methods on both sides -/
theorem methods {k k' : Nat → Codec} (h : ∀ id, CodecLe b P (k id) (k' id)) (env : Env) (ty : ElemType) :
    (∃ e, ty.methods k env = .error e ∧ ty.methods k' env = .error e) ∨
      ∃ m m', ty.methods k env = .ok m ∧ ty.methods k' env = .ok m' ∧ MethodsLe b P m m' := by
  cases ty with
  | int i => exact .inr ⟨_, _, rfl, rfl, MethodsLe.refl _⟩
  | other o => exact .inr ⟨_, _, rfl, rfl, MethodsLe.refl _⟩
  | dynBits s l =>
    have : ElemType.methods k env (.dynBits s l) = ElemType.methods k' env (.dynBits s l) := rfl
    rw [this]
    cases ElemType.methods k' env (.dynBits s l) with
    | error e => exact .inl ⟨e, rfl, rfl⟩
    | ok m => exact .inr ⟨m, m, rfl, rfl, MethodsLe.refl m⟩
  | enum e => exact .inr ⟨_, _, rfl, rfl, MethodsLe.refl _⟩
  | bitmask i => exact .inr ⟨_, _, rfl, rfl, MethodsLe.refl _⟩
  | compound id args =>
    have hid := h id
    refine .inr ⟨_, _, rfl, rfl, ⟨rfl, hid.initPacking, hid.bitsizeof, hid.initOffsets, hid.write, fun hb mode c i => ?_⟩⟩
    exact MLe.bind (MLe.refl _) fun ps => hid.read hb mode c ps

/-- the value of a field: itself, or the elements of an array -/
def Q (P : Val → Prop) (v : Val) : Prop := P v ∧ ∀ xs, v = .arr xs → ∀ x ∈ xs, P x

theorem asArr_ok {v : Val} {xs : List Val} (h : v.asArr = .ok xs) : v = .arr xs := by
  cases v <;> simp only [Val.asArr, Except.ok.injEq, reduceCtorEq] at h
  rw [h]

section fields
variable {k k' : Nat → Codec} (h : ∀ id, CodecLe b P (k id) (k' id)) (f : FieldDef)
include h

theorem bitsizeofValue (env : Env) (slot : Nat) (mode : Mode) (c : Ctx) (p : Nat) (v : Val) (hv : Q P v) :
    ELe b (f.bitsizeofValue k env slot mode c p v) (f.bitsizeofValue k' env slot mode c p v) := by
  unfold FieldDef.bitsizeofValue
  rcases methods h env f.type with ⟨e, h1, h2⟩ | ⟨m, m', h1, h2, hm⟩ <;> rw [h1, h2]
  · exact ELe.refl _
  · show ELe b (match f.array with | none => _ | some a => _) (match f.array with | none => _ | some a => _)
    split
    · exact hm.bitsizeof _ _ _ _ hv.1
    · refine ELe.bind (ELe.refl _) fun xs hxs => ELe.bind ?_ fun _ _ => ELe.refl _
      have hx := hv.2 xs (asArr_ok hxs)
      unfold FieldDef.bitsizeofArray
      split
      · exact bitsizeofPackedArr hm.packed _ _ _ hx
      · exact bitsizeofArr hm.traits _ _ _ hx

theorem bitsizeofField (env : Env) (slot : Nat) (present : Bool) (mode : Mode) (c : Ctx) (p : Nat) (v : Val) (hv : Q P v) :
    ELe b (f.bitsizeof k env slot present mode c p v) (f.bitsizeof k' env slot present mode c p v) := by
  have hin : ∀ p, ELe b (f.bitsizeofInner k env slot mode c p v) (f.bitsizeofInner k' env slot mode c p v) := fun p =>
    ELe.bind (bitsizeofValue h f env slot mode c _ v hv) fun _ _ => ELe.refl _
  have hopt : ∀ p, ELe b (f.bitsizeofOptional k env slot mode c p v) (f.bitsizeofOptional k' env slot mode c p v) := fun p => by
    refine ELe.bind (ELe.refl _) fun u _ => ?_
    split
    · exact hin _
    · exact ELe.refl _
  unfold FieldDef.bitsizeof
  split
  · split
    · exact hopt _
    · exact ELe.refl _
  · exact hopt _

theorem initOffsetsValue (env : Env) (slot : Nat) (mode : Mode) (c : Ctx) (p : Nat) (v : Val) (hv : Q P v) :
    ELe b (f.initOffsetsValue k env slot mode c p v) (f.initOffsetsValue k' env slot mode c p v) := by
  unfold FieldDef.initOffsetsValue
  rcases methods h env f.type with ⟨e, h1, h2⟩ | ⟨m, m', h1, h2, hm⟩ <;> rw [h1, h2]
  · exact ELe.refl _
  · show ELe b (match f.array with | none => _ | some a => _) (match f.array with | none => _ | some a => _)
    split
    · exact ELe.bind (hm.initOffsets _ _ _ _ hv.1) fun _ _ => ELe.refl _
    · refine ELe.bind (ELe.refl _) fun xs hxs => ELe.bind ?_ fun _ _ => ELe.refl _
      have hx := hv.2 xs (asArr_ok hxs)
      unfold FieldDef.initOffsetsArray
      split
      · exact initOffsetsPackedArr hm.packed _ _ _ _ hx
      · exact initOffsetsArr hm.traits _ _ _ _ hx

theorem initOffsetsField (env : Env) (slot : Nat) (present : Bool) (mode : Mode) (c : Ctx) (p : Nat) (v : Val) (hv : Q P v) :
    ELe b (f.initOffsets k env slot present mode c p v) (f.initOffsets k' env slot present mode c p v) := by
  have hin : ∀ p, ELe b (f.initOffsetsInner k env slot mode c p v) (f.initOffsetsInner k' env slot mode c p v) := fun p =>
    ELe.bind (ELe.refl _) fun _ _ => initOffsetsValue h f _ slot mode c _ v hv
  have hopt : ∀ p, ELe b (f.initOffsetsOptional k env slot mode c p v) (f.initOffsetsOptional k' env slot mode c p v) := fun p => by
    refine ELe.bind (ELe.refl _) fun u _ => ?_
    split
    · exact hin _
    · exact ELe.refl _
  unfold FieldDef.initOffsets
  split
  · split
    · exact hopt _
    · exact ELe.refl _
  · exact hopt _

theorem readField' (hb : b) (env : Env) (slot : Nat) (mode : Mode) (c : Ctx) :
    MLe b (f.read k env slot mode c) (f.read k' env slot mode c) := by
  have hval : MLe b (f.readValue k env slot mode c) (f.readValue k' env slot mode c) := by
    unfold FieldDef.readValue
    rcases methods h env f.type with ⟨e, h1, h2⟩ | ⟨m, m', h1, h2, hm⟩ <;> rw [h1, h2]
    · exact MLe.refl _
    · show MLe b (match f.array with | none => _ | some a => _) (match f.array with | none => _ | some a => _)
      split
      · exact hm.read hb _ _ _
      · refine MLe.bind (MLe.refl _) fun size => MLe.bind ?_ fun _ => MLe.refl _
        unfold FieldDef.readArray
        split
        · exact readPackedArr hb hm.packed _ _ _
        · exact readArr hb hm.traits _ _ _
  refine MLe.bind (MLe.refl _) fun used => ?_
  split
  · exact MLe.bind (MLe.refl _) fun _ => MLe.bind (MLe.refl _) fun _ => MLe.bind hval fun _ => MLe.refl _
  · exact MLe.refl _

theorem writeField (env : Env) (slot : Nat) (present : Bool) (mode : Mode) (c : Ctx) (v : Val) (hv : Q P v) :
    MLe b (f.write k env slot present mode c v) (f.write k' env slot present mode c v) := by
  have hval : MLe b (f.writeValue k env slot mode c v) (f.writeValue k' env slot mode c v) := by
    unfold FieldDef.writeValue
    rcases methods h env f.type with ⟨e, h1, h2⟩ | ⟨m, m', h1, h2, hm⟩ <;> rw [h1, h2]
    · exact MLe.refl _
    · show MLe b (match f.array with | none => _ | some a => _) (match f.array with | none => _ | some a => _)
      split
      · exact hm.write _ _ _ hv.1
      · refine MLe.bindLift _ fun xs hxs => MLe.bind ?_ fun _ => MLe.refl _
        have hx := hv.2 xs (asArr_ok hxs)
        unfold FieldDef.writeArray
        split
        · exact writePackedArr hm.packed _ _ _ hx
        · exact writeArr hm.traits _ _ _ hx
  have hopt : MLe b (f.writeOptional k env slot mode c v) (f.writeOptional k' env slot mode c v) := by
    refine MLe.bind (MLe.refl _) fun u => MLe.bind (MLe.refl _) fun _ => ?_
    split
    · exact MLe.bind (MLe.refl _) fun _ => MLe.bind (MLe.refl _) fun _ => MLe.bind (MLe.refl _) fun _ => hval
    · exact MLe.refl _
  unfold FieldDef.write
  split
  · split
    · exact MLe.bind (MLe.refl _) fun _ => hopt
    · exact MLe.refl _
  · exact hopt

theorem initPackingField (env : Env) (slot : Nat) (present : Bool) (path : List Nat) (c : Ctx) (v : Val) (hv : Q P v) :
    ELe b (f.initPacking k env slot present path c v) (f.initPacking k' env slot present path c v) := by
  have hin : ELe b (f.initPackingInner k env slot path c v) (f.initPackingInner k' env slot path c v) := by
    unfold FieldDef.initPackingInner
    split
    · rcases methods h env f.type with ⟨e, h1, h2⟩ | ⟨m, m', h1, h2, hm⟩ <;> rw [h1, h2]
      · exact ELe.refl _
      · exact hm.initPacking _ _ _ hv.1
    · exact ELe.refl _
  unfold FieldDef.initPacking
  split
  · split
    · exact ELe.refl _
    · refine ELe.bind (ELe.refl _) fun u _ => ?_
      split
      · exact hin
      · exact ELe.refl _
  · exact ELe.refl _

end fields

/-! ### Compounds -/

section compounds
variable {k k' : Nat → Codec} (h : ∀ id, CodecLe b P (k id) (k' id))
include h

theorem structSize (ps : List Int) (n base : Nat) (mode : Mode) : ∀ (fs : List FieldDef) (prior vs : List Val) (c : Ctx) (p : Nat),
    (∀ v ∈ vs, Q P v) → ELe b (Struct.bitsizeof k ps n base mode fs prior vs c p) (Struct.bitsizeof k' ps n base mode fs prior vs c p)
  | [], prior, [], c, p, _ => ELe.refl _
  | [], prior, _ :: _, c, p, _ => ELe.refl _
  | _ :: _, prior, [], c, p, _ => ELe.refl _
  | f :: fs, prior, v :: vs, c, p, hv => by
    simp only [Struct.bitsizeof]
    exact ELe.bind (bitsizeofField h f _ _ _ _ _ _ v (hv v (by simp))) fun _ _ =>
      structSize ps n base mode fs _ vs _ _ fun u hu => hv u (by simp [hu])

theorem structInit (ps : List Int) (n base : Nat) (mode : Mode) : ∀ (fs : List FieldDef) (prior vs : List Val) (c : Ctx) (p : Nat),
    (∀ v ∈ vs, Q P v) → ELe b (Struct.initOffsets k ps n base mode fs prior vs c p) (Struct.initOffsets k' ps n base mode fs prior vs c p)
  | [], prior, [], c, p, _ => ELe.refl _
  | [], prior, _ :: _, c, p, _ => ELe.refl _
  | _ :: _, prior, [], c, p, _ => ELe.refl _
  | f :: fs, prior, v :: vs, c, p, hv => by
    simp only [Struct.initOffsets]
    exact ELe.bind (initOffsetsField h f _ _ _ _ _ _ v (hv v (by simp))) fun _ _ =>
      structInit ps n base mode fs _ vs _ _ fun u hu => hv u (by simp [hu])

theorem structWrite (ps : List Int) (n base : Nat) (mode : Mode) : ∀ (fs : List FieldDef) (prior vs : List Val) (c : Ctx),
    (∀ v ∈ vs, Q P v) → MLe b (Struct.write k ps n base mode fs prior vs c) (Struct.write k' ps n base mode fs prior vs c)
  | [], prior, [], c, _ => MLe.refl _
  | [], prior, _ :: _, c, _ => MLe.refl _
  | _ :: _, prior, [], c, _ => MLe.refl _
  | f :: fs, prior, v :: vs, c, hv => by
    simp only [Struct.write]
    exact MLe.bind (writeField h f _ _ _ _ _ v (hv v (by simp))) fun _ =>
      structWrite ps n base mode fs _ vs _ fun u hu => hv u (by simp [hu])

theorem structPacking (ps : List Int) (n base : Nat) (path : List Nat) : ∀ (fs : List FieldDef) (prior vs : List Val) (c : Ctx),
    (∀ v ∈ vs, Q P v) → ELe b (Struct.initPacking k ps n base path fs prior vs c) (Struct.initPacking k' ps n base path fs prior vs c)
  | [], prior, [], c, _ => ELe.refl _
  | [], prior, _ :: _, c, _ => ELe.refl _
  | _ :: _, prior, [], c, _ => ELe.refl _
  | f :: fs, prior, v :: vs, c, hv => by
    simp only [Struct.initPacking]
    exact ELe.bind (initPackingField h f _ _ _ _ _ v (hv v (by simp))) fun _ _ =>
      structPacking ps n base path fs _ vs _ fun u hu => hv u (by simp [hu])

theorem structRead (hb : b) (ps : List Int) (mode : Mode) : ∀ (fs : List FieldDef) (prior : List Val) (n : Nat) (c : Ctx),
    MLe b (Struct.read k ps mode fs prior n c) (Struct.read k' ps mode fs prior n c)
  | [], prior, n, c => MLe.refl _
  | f :: fs, prior, n, c => by
    simp only [Struct.read]
    refine MLe.bind ?_ fun _ => structRead hb ps mode fs _ _ _
    unfold Struct.readField
    have hf := readField' h f hb
    split
    · refine MLe.bind (MLe.refl _) fun r => ?_
      split
      · exact MLe.refl _
      · exact MLe.bind (MLe.refl _) fun _ => MLe.bind (hf _ _ _ _) fun _ => MLe.refl _
    · exact MLe.bind (hf _ _ _ _) fun _ => MLe.refl _

theorem branchSize (f : Option FieldDef) (ps : List Int) (slot : Nat) (mode : Mode) (c : Ctx) (p : Nat) (v : Val) (hv : Q P v) :
    ELe b (Branch.bitsizeof k f ps slot mode c p v) (Branch.bitsizeof k' f ps slot mode c p v) := by
  cases f with
  | none => exact ELe.refl _
  | some f => exact bitsizeofField h f _ _ _ _ _ _ v hv

theorem branchInit (f : Option FieldDef) (ps : List Int) (slot : Nat) (mode : Mode) (c : Ctx) (p : Nat) (v : Val) (hv : Q P v) :
    ELe b (Branch.initOffsets k f ps slot mode c p v) (Branch.initOffsets k' f ps slot mode c p v) := by
  cases f with
  | none => exact ELe.refl _
  | some f => exact ELe.bind (initOffsetsField h f _ _ _ _ _ _ v hv) fun _ _ => ELe.refl _

theorem branchWrite (f : Option FieldDef) (ps : List Int) (slot : Nat) (mode : Mode) (c : Ctx) (v : Val) (hv : Q P v) :
    MLe b (Branch.write k f ps slot mode c v) (Branch.write k' f ps slot mode c v) := by
  cases f with
  | none => exact MLe.refl _
  | some f => exact writeField h f _ _ _ _ _ v hv

theorem branchPacking (f : Option FieldDef) (ps : List Int) (slot : Nat) (path : List Nat) (c : Ctx) (v : Val) (hv : Q P v) :
    ELe b (Branch.initPacking k f ps slot path c v) (Branch.initPacking k' f ps slot path c v) := by
  cases f with
  | none => exact ELe.refl _
  | some f => exact initPackingField h f _ _ _ _ _ v hv

theorem branchRead (hb : b) (f : Option FieldDef) (ps : List Int) (slot : Nat) (mode : Mode) (c : Ctx) :
    MLe b (Branch.read k f ps slot mode c) (Branch.read k' f ps slot mode c) := by
  cases f with
  | none => exact MLe.refl _
  | some f => exact readField' h f hb _ _ _ _

/-- the methods of a compound agree for values whose members agree -/
theorem compound (P' : Val → Prop) (hP : ∀ ps n tag vs, P' (.obj ps n tag vs) → ∀ v ∈ vs, Q P v) (d : CompoundDef) :
    CodecLe b P' (d.codec k) (d.codec k') := by
  cases d with
  | struct fs =>
    refine ⟨fun path c v hv => ?_, fun mode c p v hv => ?_, fun mode c p v hv => ?_, fun mode c v hv => ?_, fun hb mode c ps => ?_⟩
    · cases v with
      | obj ps n tag vs => exact structPacking h ps n _ path fs [] vs c (hP _ _ _ _ hv)
      | _ => exact ELe.refl _
    · cases v with
      | obj ps n tag vs => exact ELe.bind (structSize h ps n _ mode fs [] vs c p (hP _ _ _ _ hv)) fun _ _ => ELe.refl _
      | _ => exact ELe.refl _
    · cases v with
      | obj ps n tag vs => exact ELe.bind (structInit h ps n _ mode fs [] vs c p (hP _ _ _ _ hv)) fun _ _ => ELe.refl _
      | _ => exact ELe.refl _
    · cases v with
      | obj ps n tag vs => exact structWrite h ps n _ mode fs [] vs c (hP _ _ _ _ hv)
      | _ => exact MLe.refl _
    · exact MLe.bind (structRead h hb ps mode fs [] 0 c) fun _ => MLe.refl _
  | union fs =>
    refine ⟨fun path c v hv => ?_, fun mode c p v hv => ?_, fun mode c p v hv => ?_, fun mode c v hv => ?_, fun hb mode c ps => ?_⟩
    · cases v with
      | obj ps n tag vs =>
        match vs, hv with
        | [], _ => exact ELe.refl _
        | _ :: _ :: _, _ => exact ELe.refl _
        | [v], hv => exact ELe.bind (ELe.refl _) fun _ _ => ELe.bind (ELe.refl _) fun _ _ =>
            branchPacking h _ _ _ _ _ v (hP _ _ _ _ hv v (by simp))
      | _ => exact ELe.refl _
    · cases v with
      | obj ps n tag vs =>
        match vs, hv with
        | [], _ => exact ELe.refl _
        | _ :: _ :: _, _ => exact ELe.refl _
        | [v], hv => 
          refine ELe.bind (ELe.refl _) fun _ _ => ?_
          refine ELe.bind (ELe.refl _) fun _ _ => ?_
          refine ELe.bind ?_ fun _ _ => ELe.refl _
          exact branchSize h _ _ _ _ _ _ v (hP _ _ _ _ hv v (by simp))
      | _ => exact ELe.refl _
    · cases v with
      | obj ps n tag vs =>
        match vs, hv with
        | [], _ => exact ELe.refl _
        | _ :: _ :: _, _ => exact ELe.refl _
        | [v], hv => 
          refine ELe.bind (ELe.refl _) fun _ _ => ?_
          refine ELe.bind (ELe.refl _) fun _ _ => ?_
          refine ELe.bind ?_ fun _ _ => ELe.refl _
          exact branchInit h _ _ _ _ _ _ v (hP _ _ _ _ hv v (by simp))
      | _ => exact ELe.refl _
    · cases v with
      | obj ps n tag vs =>
        match vs, hv with
        | [], _ => exact MLe.refl _
        | _ :: _ :: _, _ => exact MLe.refl _
        | [v], hv => exact MLe.bind (MLe.refl _) fun _ => MLe.bind (MLe.refl _) fun _ =>
            branchWrite h _ _ _ _ _ v (hP _ _ _ _ hv v (by simp))
      | _ => exact MLe.refl _
    · exact MLe.bind (MLe.refl _) fun _ => MLe.bind (MLe.refl _) fun _ => MLe.bind (branchRead h hb _ _ _ _ _) fun _ => MLe.refl _
  | choice sel cs de =>
    refine ⟨fun path c v hv => ?_, fun mode c p v hv => ?_, fun mode c p v hv => ?_, fun mode c v hv => ?_, fun hb mode c ps => ?_⟩
    · cases v with
      | obj ps n tag vs =>
        match vs, hv with
        | [], _ => exact ELe.refl _
        | _ :: _ :: _, _ => exact ELe.refl _
        | [v], hv => exact ELe.bind (ELe.refl _) fun _ _ => branchPacking h _ _ _ _ _ v (hP _ _ _ _ hv v (by simp))
      | _ => exact ELe.refl _
    · cases v with
      | obj ps n tag vs =>
        match vs, hv with
        | [], _ => exact ELe.refl _
        | _ :: _ :: _, _ => exact ELe.refl _
        | [v], hv => 
          refine ELe.bind (ELe.refl _) fun _ _ => ?_
          refine ELe.bind ?_ fun _ _ => ELe.refl _
          exact branchSize h _ _ _ _ _ _ v (hP _ _ _ _ hv v (by simp))
      | _ => exact ELe.refl _
    · cases v with
      | obj ps n tag vs =>
        match vs, hv with
        | [], _ => exact ELe.refl _
        | _ :: _ :: _, _ => exact ELe.refl _
        | [v], hv => 
          refine ELe.bind (ELe.refl _) fun _ _ => ?_
          refine ELe.bind ?_ fun _ _ => ELe.refl _
          exact branchInit h _ _ _ _ _ _ v (hP _ _ _ _ hv v (by simp))
      | _ => exact ELe.refl _
    · cases v with
      | obj ps n tag vs =>
        match vs, hv with
        | [], _ => exact MLe.refl _
        | _ :: _ :: _, _ => exact MLe.refl _
        | [v], hv => exact MLe.bind (MLe.refl _) fun _ => branchWrite h _ _ _ _ _ v (hP _ _ _ _ hv v (by simp))
      | _ => exact MLe.refl _
    · exact MLe.bind (MLe.refl _) fun _ => MLe.bind (branchRead h hb _ _ _ _ _) fun _ => MLe.refl _

end compounds

/-! ### The limit -/

/-- with a higher limit only `RecursionError`s can disappear -/
theorem codec_mono (defs : Schema) : ∀ n m, n ≤ m → ∀ id, CodecLe True (fun _ => True) (defs.codec n id) (defs.codec m id)
  | 0, m, _, id => ⟨fun _ _ _ _ => .inl ⟨trivial, rfl⟩, fun _ _ _ _ _ => .inl ⟨trivial, rfl⟩, fun _ _ _ _ _ => .inl ⟨trivial, rfl⟩,
      fun _ _ _ _ _ => .inl ⟨trivial, rfl⟩, fun _ _ _ _ _ => .inl ⟨trivial, rfl⟩⟩
  | n + 1, m + 1, hle, id => compound (codec_mono defs n m (by omega)) _ (fun _ _ _ _ _ _ _ => ⟨trivial, fun _ _ _ _ => trivial⟩) (defs id)

end Zserio.Mono
