import Verif.Spec.RuntimeCalls
import Verif.Lemmas.BuiltinTraits
import Verif.Lemmas.CompoundCanonical
/-
C114: the generated code calls the functions of the runtime library which implement the encoding of the type of a field.
-/
set_option linter.unusedSimpArgs false

namespace Zserio.RuntimeCalls
open Writer Reader

/-- Every built-in type has exactly one encoding in the documentation. -/
theorem C114_documented (t : BuiltInType) : ∃ b, Documented t b ∧ ∀ b', Documented t b' → b' = b := by
  cases t with
  | bool => exact ⟨_, .bool, fun _ h => by cases h; rfl⟩
  | bytes => exact ⟨_, .bytes, fun _ h => by cases h; rfl⟩
  | string => exact ⟨_, .string, fun _ h => by cases h; rfl⟩
  | extern => exact ⟨_, .extern, fun _ h => by cases h; rfl⟩
  | std t => cases t <;> exact ⟨_, by constructor, fun _ h => by cases h; rfl⟩
  | var t => cases t <;> exact ⟨_, by constructor, fun _ h => by cases h; rfl⟩
  | float t => cases t <;> exact ⟨_, by constructor, fun _ h => by cases h; rfl⟩
  | fixedBits s n => cases s <;> exact ⟨_, by constructor, fun _ h => by cases h; rfl⟩
  | dynBits s n => cases s <;> exact ⟨_, by constructor, fun _ h => by cases h; rfl⟩

/-- The generated `write` method calls a method which the bit stream writer has, and it writes the documented encoding of the type, for fields
of the type itself and of its subtypes. -/
theorem C114_write {t : TypeRef} {b : Builtin} (h : Documented t.baseType b) :
    writeCall t = some (fun v => do
      let x ← M.lift (b.proj v)
      b.traits.write x) := by
  unfold writeCall runtimeFunction
  generalize hb : t.baseType = bt at h
  cases h <;> rfl

/-- The generated `read` method calls a method which the bit stream reader has, and it reads the documented encoding. -/
theorem C114_read {t : TypeRef} {b : Builtin} (h : Documented t.baseType b) (i : Nat) :
    readCall t = some (do
      let x ← b.traits.read i
      pure (b.inj x)) := by
  unfold readCall runtimeFunction
  generalize hb : t.baseType = bt at h
  cases h <;> rfl

/-- The generated `bitsizeof` and `initialize_offsets` methods take the number of bits of the documented encoding: a number, or the result of a
function which the runtime library has. -/
theorem C114_size {t : TypeRef} {b : Builtin} (h : Documented t.baseType b) (p : Nat) :
    sizeCall t = some fun v => sizeUnpacked b.traits b.proj p v := by
  unfold sizeCall runtimeFunction bitSizeValue
  generalize hb : t.baseType = bt at h
  cases h <;> rfl

private theorem nativeTraits_eq (t : TypeRef) : nativeTraits t = builtInTraits t.baseType := by
  induction t with
  | builtIn t => rfl
  | subtype t ih => exact ih

/-- The generated code gives arrays (and contexts of packed fields) array traits which the runtime library has, made with the arguments they
need, and they are those of the documented encoding of the elements. -/
theorem C114_traits {t : TypeRef} {b : Builtin} (h : Documented t.baseType b) : traitsCall t = some ⟨b, b.traits⟩ := by
  unfold traitsCall bitSizeValue
  rw [nativeTraits_eq]
  generalize hb : t.baseType = bt at h
  cases h <;> rfl

/-- What the generated code calls for a field of a built-in type fits together: whatever `write` appends for a value, the size for this value is
the number of bits appended, and `read` at the same place takes just these bits and gives the value back (floats in the stored precision, bit
buffers with cleared unused bits). -/
theorem C114_field (t : TypeRef) : ∃ b write read size,
    Documented t.baseType b ∧ writeCall t = some write ∧ readCall t = some read ∧ sizeCall t = some size ∧
    ∀ v b0 bs, Runs (write v) b0 bs () → size v = .ok bs.length ∧
      ∃ x, v = b.inj x ∧ ∀ rest, Parses read b0.length bs rest (b.inj (b.stored x)) := by
  obtain ⟨b, hd, _⟩ := C114_documented t.baseType
  refine ⟨b, _, _, fun v => sizeUnpacked b.traits b.proj 0 v, hd, C114_write hd, C114_read hd 0, C114_size hd 0, ?_⟩
  intro v b0 bs hr
  have hs := C114_size hd 0
  rw [C114_size hd b0.length] at hs
  have hs' : sizeUnpacked b.traits b.proj b0.length v = sizeUnpacked b.traits b.proj 0 v := congrFun (Option.some.inj hs) v
  cases hp : b.proj v with
  | error e =>
    exfalso
    unfold Runs at hr
    rw [hp] at hr
    simp [M.lift, bind, M.bind] at hr
  | ok x =>
    have hv : b.Valid x := by
      cases b <;> try trivial
      cases v
      case bitBuffer y =>
        simp only [Builtin.proj] at hp
        split at hp
        · next h1 =>
          cases hp
          exact h1
        · cases hp
      all_goals cases hp
    have hr' : Runs (b.traits.write x) b0 bs () := by
      unfold Runs at hr ⊢
      rw [hp] at hr
      exact hr
    have he := b.sizeExact x hv b0 bs hr'
    refine ⟨?_, x, ?_, ?_⟩
    · show sizeUnpacked b.traits b.proj 0 v = _
      rw [← hs']
      unfold sizeUnpacked
      cases hc : b.traits.constSize with
      | some n => simp only; rw [he.2 n hc]
      | none =>
        simp only [hp]
        exact he.1
    · exact Builtin.proj_inj b v x hp
    · intro rest r hwf hpos hrest
      have h3 := b.readsTo x hv 0 b0 bs hr' rest r hwf hpos hrest
      show (do let x ← b.traits.read 0; pure (b.inj x) : M Reader Val) r = _
      simp [bind, M.bind, h3]

/-! ### Concrete cases -/

/-- `subtype varsize Length; Length f;` -/
example : (runtimeFunction (.subtype (.builtIn (.var .varsize)))).suffix = py! "varsize" := by decide +kernel
/-- `varuint32 f;` -/
example : runtimeFunction (.builtIn (.var .varuint32)) = ⟨py! "varuint32", none⟩ := by decide +kernel
/-- `varint f;` -/
example : runtimeFunction (.builtIn (.var .varint)) = ⟨py! "varint", none⟩ := by decide +kernel
/-- `int<7> f;` -/
example : runtimeFunction (.builtIn (.dynBits true 7)) = ⟨py! "signed_bits", some 7⟩ := by decide +kernel
example : ∃ c, traitsCall (.subtype (.builtIn (.std .int16))) = some c ∧ c.1 = .signedBitField 16 :=
  ⟨_, C114_traits (by exact .int16), rfl⟩
example : ∃ w, writeCall (.builtIn (.fixedBits false 3)) = some w ∧ Runs (w (.int 5)) [true] [true, false, true] () :=
  ⟨_, rfl, by unfold Runs; decide +kernel⟩

end Zserio.RuntimeCalls
