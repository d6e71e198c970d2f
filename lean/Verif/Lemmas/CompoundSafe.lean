import Verif.Lemmas.ReaderAny
import Verif.Model.Serialization
set_option linter.unusedSimpArgs false
/-
Helper lemmas: reading compounds from arbitrary input never leaves the stream.
-/
namespace Zserio
open Reader

/-- inversion of a successful sequence of calls -/
theorem M.bind_inv {σ α β : Type} {m : M σ α} {f : α → M σ β} {s s' : σ} {b : β} (h : (m >>= f) s = (.ok b, s')) :
    ∃ a s1, m s = (.ok a, s1) ∧ f a s1 = (.ok b, s') := by
  rw [M.bind_apply] at h
  rcases hm : m s with ⟨e | a, s1⟩
  · rw [hm] at h; simp at h
  · rw [hm] at h; exact ⟨a, s1, rfl, h⟩

theorem raises_bind {α β : Type} (x : Except Err α) {f : α → Except Err β} (h : ∀ a, x = .ok a → ∃ e, f a = .error e) :
    ∃ e, (x >>= f) = .error e := by
  rcases x with e | a
  · exact ⟨e, rfl⟩
  · exact h a rfl

theorem M.raises_bind {σ α β : Type} (m : M σ α) {f : α → M σ β} (s : σ)
    (h : ∀ a s1, m s = (.ok a, s1) → ∃ e s', f a s1 = (.error e, s')) : ∃ e s', (m >>= f) s = (.error e, s') := by
  rw [M.bind_apply]
  rcases hm : m s with ⟨e | a, s1⟩
  · exact ⟨e, s1, rfl⟩
  · exact h a s1 hm

theorem safe_builtin (b : Builtin) (i : Nat) : Safe (b.traits.read i) := by
  cases b with
  | bitField n => exact safe_asInt (safe_readBits n)
  | signedBitField n => exact safe_ite (safe_throw _) (safe_readSignedBitsUnchecked _)
  | var t => exact safe_readVar t
  | float16 => exact (safe_readBitsUnchecked _).bind (fun _ => safe_pure _)
  | float32 => exact (safe_readBitsUnchecked _).bind (fun _ => safe_pure _)
  | float64 => exact (safe_readBitsUnchecked _).bind (fun _ => safe_pure _)
  | bool => exact (safe_readBitsUnchecked _).bind (fun _ => safe_pure _)
  | bytes => exact safe_readBytes
  | string => exact safe_readString
  | bitBuffer => exact safe_readBitBuffer

theorem safe_intKind (k : IntKind) (i : Nat) : Safe (k.traits.read i) := by
  cases k with
  | bitField n => exact safe_builtin (.bitField n) i
  | signedBitField n => exact safe_builtin (.signedBitField n) i
  | var t => exact safe_builtin (.var t) i

theorem safe_readUnpacked (c : DeltaContext) (k : IntKind) : Safe (c.readUnpacked k.traits) :=
  (safe_intKind k 0).bind (fun _ => safe_pure _)

theorem safe_deltaRead (c : DeltaContext) (k : IntKind) : Safe (c.read k.traits) := by
  unfold DeltaContext.read
  refine safe_ite ?_ (safe_ite (safe_readUnpacked _ _) ?_)
  · refine Safe.bind ?_ (fun _ => safe_readUnpacked _ _)
    unfold DeltaContext.readDescriptor
    refine Safe.bind ((safe_readBitsUnchecked _).bind (fun _ => safe_pure _)) (fun b => ?_)
    exact safe_ite ((safe_readBitsUnchecked _).bind (fun _ => safe_pure _)) (safe_pure _)
  · split
    · exact safe_throw _
    · exact safe_ite ((safe_readSignedBitsUnchecked _).bind (fun _ => safe_pure _)) (safe_pure _)

theorem safe_intRead (k : IntKind) (mode : Mode) (c : Ctx) : Safe (intRead k mode c) := by
  cases mode with
  | none => exact (safe_intKind k 0).bind (fun _ => safe_pure _)
  | some path => exact (safe_deltaRead _ _).bind (fun _ => safe_pure _)

section Arrays
variable {σ α κ : Type}

theorem safe_readCheck (chk : Option (Nat → Nat → σ → Except Err Unit)) (i : Nat) (s : σ) : Safe (Array'.readCheck chk i s) := by
  cases chk with
  | none => exact safe_pure _
  | some f => exact (safe_alignto 8).bind (fun _ => safe_get_bind (fun _ => safe_lift _))

theorem safe_readLoop (tr : Traits α) (h : ∀ i, Safe (tr.read i)) (chk : Option (Nat → Nat → σ → Except Err Unit)) (s : σ) :
    ∀ n i, Safe (Array'.readLoop tr chk s i n)
  | 0, _ => safe_pure _
  | n + 1, i => (safe_readCheck chk i s).bind (fun _ => (h i).bind (fun _ =>
      (safe_readLoop tr h chk s n (i + 1)).bind (fun _ => safe_pure _)))

theorem safe_readSize (a : Bool) (n : Nat) : Safe (Array'.readSize a n) := safe_ite safe_varsize (safe_pure _)

theorem safe_arrayRead (tr : Traits α) (h : ∀ i, Safe (tr.read i)) (cfg : ArrayCfg σ) (s : σ) (size : Nat) :
    Safe (Array'.read tr cfg s size) := by
  unfold Array'.read
  refine safe_ite ?_ ?_
  · split
    · exact safe_throw _
    · exact safe_get_bind (fun _ => safe_ite (safe_throw _) (safe_readLoop tr h _ s _ _))
  · refine (safe_readSize _ _).bind (fun n => ?_)
    split
    · refine safe_get_bind (fun _ => safe_ite ?_ ?_)
      · exact safe_throw _
      · exact safe_readLoop tr h _ s _ _
    · exact safe_readLoop tr h _ s _ _

theorem safe_readPackedLoop (pt : PackedTraits κ α) (h : ∀ c i, Safe (pt.read c i))
    (chk : Option (Nat → Nat → σ → Except Err Unit)) (s : σ) : ∀ n c i, Safe (Array'.readPackedLoop pt chk s c i n)
  | 0, _, _ => safe_pure _
  | n + 1, c, i => (safe_readCheck chk i s).bind (fun _ => (h c i).bind (fun _ =>
      (safe_readPackedLoop pt h chk s n _ (i + 1)).bind (fun _ => safe_pure _)))

theorem safe_readPacked (pt : PackedTraits κ α) (h : ∀ c i, Safe (pt.read c i)) (cfg : ArrayCfg σ) (s : σ) (size : Nat) :
    Safe (Array'.readPacked pt cfg s size) := by
  unfold Array'.readPacked
  refine safe_ite (safe_throw _) ?_
  exact (safe_readSize _ _).bind (fun n => safe_ite (safe_readPackedLoop pt h _ s _ _ _) (safe_pure _))

end Arrays

/-- reading with the methods never leaves the stream -/
def Codec.SafeRead (k : Codec) : Prop := ∀ mode c ps, Safe (k.read mode c ps)

variable {codecs : Nat → Codec}

theorem safe_methods (hk : ∀ id, (codecs id).SafeRead) {ty : ElemType} {env : Env} {m : Methods}
    (h : ty.methods codecs env = .ok m) (mode : Mode) (c : Ctx) (i : Nat) : Safe (m.read mode c i) := by
  cases ty with
  | int k => simp only [ElemType.methods, Except.ok.injEq] at h; subst h
             exact (safe_intRead k mode c).bind (fun _ => safe_pure _)
  | other b => simp only [ElemType.methods, Except.ok.injEq] at h; subst h
               exact (safe_builtin b i).bind (fun _ => safe_pure _)
  | dynBits signed len =>
    simp only [ElemType.methods] at h
    obtain ⟨n, hn, h⟩ := except_bind_ok h
    obtain ⟨k, hk, h⟩ := except_bind_ok h
    simp only [Except.ok.injEq] at h
    subst h
    exact (safe_intRead k mode c).bind (fun _ => safe_pure _)
  | enum e => simp only [ElemType.methods, Except.ok.injEq] at h; subst h
              exact (safe_intRead _ mode c).bind (fun _ => safe_ite (safe_pure _) (safe_throw _))
  | bitmask k => simp only [ElemType.methods, Except.ok.injEq] at h; subst h
                 exact (safe_intRead k mode c).bind (fun _ => safe_pure _)
  | compound id args => simp only [ElemType.methods, Except.ok.injEq] at h; subst h
                        exact (safe_lift _).bind (fun _ => hk id mode c _)

theorem safe_lift_bind {α β : Type} {x : Except Err α} {f : α → M Reader β} (h : ∀ a, x = .ok a → Safe (f a)) :
    Safe (M.lift x >>= f) := by
  rcases hx : x with e | a
  · intro r hr
    rw [M.bind_error (M.lift_apply _ _)]
    exact ⟨hr, rfl, rfl⟩
  · intro r hr
    rw [M.bind_ok (M.lift_apply _ _)]
    exact h a hx r hr

namespace FieldDef

theorem safe_readValue (hk : ∀ id, (codecs id).SafeRead) (f : FieldDef) (env : Env) (slot : Nat) (mode : Mode) (c : Ctx) :
    Safe (f.readValue codecs env slot mode c) := by
  unfold readValue
  refine safe_lift_bind (fun m hm => ?_)
  have hs := safe_methods hk hm
  split
  · exact hs _ _ _
  · next a _ =>
    refine (safe_lift _).bind (fun size => Safe.bind ?_ (fun _ => safe_pure _))
    unfold readArray
    have h1 : ∀ c i, Safe (m.packedTraits.read c i) := fun c i => hs (some []) c i
    have h2 : ∀ i, Safe (m.traits.read i) := fun i => (hs none Ctx.empty i).bind (fun _ => safe_pure _)
    exact safe_ite (safe_readPacked _ h1 _ _ _) (safe_arrayRead _ h2 _ _ _)

theorem safe_read (hk : ∀ id, (codecs id).SafeRead) (f : FieldDef) (env : Env) (slot : Nat) (mode : Mode) (c : Ctx) :
    Safe (f.read codecs env slot mode c) := by
  unfold FieldDef.read
  refine Safe.bind ?_ (fun used => safe_ite ?_ (safe_pure _))
  · unfold readUsed
    split
    · exact safe_pure _
    · exact (safe_readBitsUnchecked _).bind (fun _ => safe_pure _)
    · exact safe_lift _
  · unfold readInner
    refine Safe.bind ?_ (fun _ => Safe.bind ?_ (fun _ => (safe_readValue hk f env slot mode c).bind (fun _ =>
      (safe_lift _).bind (fun _ => safe_pure _))))
    · unfold readAlign
      split
      · exact safe_alignto _
      · exact safe_pure _
    · unfold readOffset
      split
      · exact (safe_alignto _).bind (fun _ => safe_get_bind (fun _ => safe_lift _))
      · exact safe_pure _

end FieldDef

theorem Struct.safe_read (hk : ∀ id, (codecs id).SafeRead) (params : List Int) (mode : Mode) :
    ∀ (fs : List FieldDef) (prior : List Val) (k : Nat) (c : Ctx), Safe (Struct.read codecs params mode fs prior k c)
  | [], _, _, _ => safe_pure _
  | f :: fs, prior, k, c => by
    rw [Struct.read]
    refine Safe.bind ?_ (fun _ => Struct.safe_read hk params mode fs _ _ _)
    unfold Struct.readField
    have := FieldDef.safe_read hk f ⟨params, prior, 0⟩ (prior.length + 1) mode c
    refine safe_ite (safe_get_bind (fun _ => safe_ite (safe_pure _) ?_)) (this.bind (fun _ => safe_pure _))
    exact (safe_alignto _).bind (fun _ => this.bind (fun _ => safe_pure _))

theorem Branch.safe_read (hk : ∀ id, (codecs id).SafeRead) (f : Option FieldDef) (params : List Int) (slot : Nat) (mode : Mode)
    (c : Ctx) : Safe (Branch.read codecs f params slot mode c) := by
  cases f with
  | none => exact safe_pure _
  | some f => exact FieldDef.safe_read hk f _ _ _ _

theorem CompoundDef.safeRead (hk : ∀ id, (codecs id).SafeRead) (d : CompoundDef) : (d.codec codecs).SafeRead := by
  intro mode c ps
  cases d with
  | struct fs => exact (Struct.safe_read hk ps mode fs [] 0 c).bind (fun _ => safe_pure _)
  | union fs =>
    exact (safe_intRead _ _ _).bind (fun _ => (safe_lift _).bind (fun _ => (Branch.safe_read hk _ _ _ _ _).bind (fun _ => safe_pure _)))
  | choice selector cases default =>
    exact (safe_lift _).bind (fun _ => (Branch.safe_read hk _ _ _ _ _).bind (fun _ => safe_pure _))

theorem Schema.safeRead (defs : Schema) : ∀ n id, (defs.codec n id).SafeRead
  | 0, _ => fun _ _ _ => safe_throw _
  | n + 1, id => CompoundDef.safeRead (fun id => Schema.safeRead defs n id) (defs id)

end Zserio
