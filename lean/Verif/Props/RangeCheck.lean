import Verif.Lemmas.Written
import Verif.Props.Valid
set_option linter.unusedSimpArgs false
/-
C85: what the checks of generated `write` methods guarantee for every schema, packed or not, and what the option for range checks
(`-withRangeCheckCode`) adds.

`defs` is any schema, `n` the depth calls can be nested, `id` any compound of it.  `defs.Part id x f env v` (Spec/Written.lean): `v`
is the value of the used field `f` of `x` or of any object nested in it.  `f.rangeCheck`: the range of the field is checked.
-/
namespace Zserio
open Writer

/-- **C85.** What every written object satisfies. -/
theorem C85_written (defs : Schema) (n id : Nat) (x : Val) (w w1 : Writer) (hw : w.Reachable)
    (h : (defs.codec n id).writeTo x w = (.ok (), w1)) : defs.Held n false id x := by
  obtain ⟨b0, rfl⟩ := hw.eq_ofBits
  obtain ⟨c, w2, h1, -⟩ := Writer.bind_inv (show ((defs.codec n id).write none Ctx.empty x >>= fun _ => pure ()) (ofBits b0) = _ from h)
  exact (Schema.write_held defs n id none _ _ _ _ _ h1).1

/-- **C85.** After a write, every range-checked field with an integer type has a value between the bounds of its type: wherever the
object is nested, in packed arrays too. -/
theorem C85_range (defs : Schema) (n id : Nat) (x : Val) (w w1 : Writer) (hw : w.Reachable)
    (h : (defs.codec n id).writeTo x w = (.ok (), w1)) (f : FieldDef) (env : Env) (v : Val) (hp : defs.Part id x f env v)
    (hc : f.rangeCheck = true) (ha : f.array = none) (k : IntKind) (ht : f.type = .int k) : ∃ i, v = .int i ∧ k.Between i := by
  obtain ⟨m, q, hv⟩ := hp.written (C85_written defs n id x w w1 hw h)
  have := hv.value ha
  rw [ht, hc] at this
  obtain ⟨i, hi, -, h2⟩ := this
  exact ⟨i, hi, h2 rfl⟩

/-- **C85.** The same for fields whose number of bits is an expression; the number of bits then is one to 64. -/
theorem C85_range_dynamic (defs : Schema) (n id : Nat) (x : Val) (w w1 : Writer) (hw : w.Reachable)
    (h : (defs.codec n id).writeTo x w = (.ok (), w1)) (f : FieldDef) (env : Env) (v : Val) (hp : defs.Part id x f env v)
    (hc : f.rangeCheck = true) (ha : f.array = none) (signed : Bool) (length : Expr Int) (ht : f.type = .dynBits signed length) :
    ∃ b i : Int, length env = .ok b ∧ 1 ≤ b ∧ b ≤ 64 ∧ v = .int i ∧
      if signed then -(2 ^ (b.toNat - 1)) ≤ i ∧ i < 2 ^ (b.toNat - 1) else 0 ≤ i ∧ i < 2 ^ b.toNat := by
  obtain ⟨m, q, hv⟩ := hp.written (C85_written defs n id x w w1 hw h)
  have := hv.value ha
  rw [ht, hc] at this
  obtain ⟨b, k, i, h1, h2, hi, h3⟩ := this
  have h3 := h3 (.inr rfl)
  unfold dynKind at h2
  split at h2
  · cases h2
  · obtain rfl := Except.ok.inj h2
    refine ⟨b, i, h1, ?_⟩
    cases signed
    · simp only [Bool.false_eq_true, if_false] at h3 ⊢
      exact ⟨by have := h3.1; omega, by have := h3.1; omega, hi, h3.2⟩
    · simp only [if_true] at h3 ⊢
      exact ⟨by have := h3.1; omega, by have := h3.1; omega, hi, h3.2⟩

/-- **C85.** After a write, every constraint of the schema holds for every used field: wherever the object is nested, with or
without packed arrays and range checks. -/
theorem C85_constraint (defs : Schema) (n id : Nat) (x : Val) (w w1 : Writer) (hw : w.Reachable)
    (h : (defs.codec n id).writeTo x w = (.ok (), w1)) (f : FieldDef) (env : Env) (v : Val) (hp : defs.Part id x f env v)
    (e : Expr Bool) (hc : f.constraint = some e) : e { env with fields := env.fields ++ [v] } = .ok true := by
  obtain ⟨m, q, hv⟩ := hp.written (C85_written defs n id x w w1 hw h)
  exact hv.constraint e hc

/-- **C85.** After a write, every array with a length in the schema had this length. -/
theorem C85_length (defs : Schema) (n id : Nat) (x : Val) (w w1 : Writer) (hw : w.Reachable)
    (h : (defs.codec n id).writeTo x w = (.ok (), w1)) (f : FieldDef) (env : Env) (v : Val) (hp : defs.Part id x f env v)
    (a : ArrayDef) (ha : f.array = some a) (length : Expr Int) (hl : a.kind = .fixed length) :
    ∃ xs, v = .arr xs ∧ length env = .ok (xs.length : Int) := by
  obtain ⟨m, q, hv⟩ := hp.written (C85_written defs n id x w w1 hw h)
  obtain ⟨xs, h1, -, -, h2, -⟩ := hv.elements a ha
  exact ⟨xs, h1, h2 length hl⟩

/-- **C85.** After a write, the objects in the fields were created with the arguments of the schema. -/
theorem C85_params (defs : Schema) (n id : Nat) (x : Val) (w w1 : Writer) (hw : w.Reachable)
    (h : (defs.codec n id).writeTo x w = (.ok (), w1)) (f : FieldDef) (env : Env) (v : Val) (hp : defs.Part id x f env v)
    (ha : f.array = none) (j : Nat) (args : List (Expr Int)) (ht : f.type = .compound j args) (hne : args ≠ []) :
    ∃ ps, v.params = .ok ps ∧ evalArgs args env = .ok ps := by
  obtain ⟨m, q, hv⟩ := hp.written (C85_written defs n id x w w1 hw h)
  exact hv.params j args ha ht hne

/-- **C85.** After a write, every enumeration field and every element of an array of enumerations was an item which has not been
removed. -/
theorem C85_enum (defs : Schema) (n id : Nat) (x : Val) (w w1 : Writer) (hw : w.Reachable)
    (h : (defs.codec n id).writeTo x w = (.ok (), w1)) (f : FieldDef) (env : Env) (v : Val) (hp : defs.Part id x f env v)
    (e : EnumDef) (ht : f.type = .enum e) :
    (f.array = none → ∃ i, v = .int i ∧ i ∈ e.items ∧ i ∉ e.removed) ∧
    (f.array ≠ none → ∃ xs, v = .arr xs ∧ ∀ y ∈ xs, ∃ i, y = .int i ∧ i ∈ e.items ∧ i ∉ e.removed) := by
  obtain ⟨m, q, hv⟩ := hp.written (C85_written defs n id x w w1 hw h)
  constructor
  · intro ha
    have := hv.value ha
    rw [ht] at this
    obtain ⟨i, hi, h1, h2, -⟩ := this
    exact ⟨i, hi, h1, h2⟩
  · intro ha
    obtain ⟨a, ha⟩ := Option.ne_none_iff_exists'.1 ha
    obtain ⟨xs, h1, h2, -⟩ := hv.elements a ha
    refine ⟨xs, h1, fun y hy => ?_⟩
    have := h2 y hy
    rw [ht] at this
    obtain ⟨i, hi, h3, h4, -⟩ := this
    exact ⟨i, hi, h3, h4⟩

/-- **C85.** If packed arrays hold enumerations and objects whose integer fields are range checked, then what has been written was
valid. -/
theorem C85_valid (defs : Schema) (hs : defs.PackedSafe) (n id : Nat) (x : Val) (w w1 : Writer) (hw : w.Reachable)
    (h : (defs.codec n id).writeTo x w = (.ok (), w1)) : defs.Valid n id x :=
  Schema.held_valid hs n false id nofun x (C85_written defs n id x w w1 hw h)

/-- **C85.** … and without offsets, `serialize` succeeds exactly for the valid objects. -/
theorem C85_serialize_iff (defs : Schema) (ho : defs.NoOffsets) (hs : defs.PackedSafe) (n id : Nat) (x : Val) :
    (∃ b x1, serialize (defs.codec n id) x = .ok (b, x1)) ↔ defs.Valid n id x := by
  constructor
  · rintro ⟨b, x1, h⟩
    obtain ⟨⟨e, h1⟩, w1, h2⟩ := serialize_written h
    have hv := C85_valid defs hs n id x1 _ w1 ⟨[], rfl⟩ h2
    obtain rfl : x1 = x := Schema.initialize_same ho h1
    exact hv
  · intro h
    obtain ⟨b, hb⟩ := C75_serialized defs ho n id x h
    exact ⟨b, x, hb⟩

/-- without packed arrays nothing has to be range checked -/
theorem C85_noPacked (defs : Schema) (hp : defs.NoPacked) : defs.PackedSafe := by
  have all : ∀ {id : Nat} {f : FieldDef} {P : FieldDef → Prop}, (defs id).HasField f → (defs id).AllFields P → P f := by
    intro id f P hf hall
    cases hd : defs id with
    | struct fs => rw [hd] at hf hall; exact hall f hf
    | union fs => rw [hd] at hf hall; exact hall f hf
    | choice s cs d =>
      rw [hd] at hf hall
      rcases hf with ⟨k, hk, hkf⟩ | h
      · exact hall.1 k hk f hkf
      · exact hall.2 f h
  have none : ∀ id, ¬ defs.InPacked id := by
    intro id h
    induction h with
    | element hf ha hpk hi ht =>
      have := all hf (hp _) _ ha hpk
      rw [hi] at this; cases this
    | nested _ _ _ _ ih => exact ih
  refine ⟨?_, fun id _ _ h => absurd h (none id), fun id _ h => absurd h (none id), fun id _ h => absurd h (none id)⟩
  intro id f a hf ha hpk hi
  have := all hf (hp id) a ha hpk
  rw [hi] at this; cases this

/-! ### Examples -/

/-- `struct Sample { uint8 value : value != 3; bit:4 low; };  struct Track { packed Sample samples[]; };` with range checks -/
def trackSchema (check : Bool) : Schema
  | 0 => .struct
    [ { type := .int (.bitField 8), packable := true, rangeCheck := check,
        constraint := some fun env => .ok (env.fields[0]? matches some (Val.int 3) |> not) }
    , { type := .dynBits false fun _ => .ok 4, packable := true, rangeCheck := check } ]
  | _ => .struct [{ type := .compound 0 [], array := some ⟨.auto, true⟩, packable := true, rangeCheck := check }]

def trackObj (last : Int) : Val :=
  .obj [] 0 0 [.arr ([250, 251, 252, 253, 254, 253, 254, 253, 254, 255, last].map fun i => .obj [] 0 0 [.int i, .int 5])]

theorem trackSchema_safe : (trackSchema true).PackedSafe := by
  have field : ∀ {id : Nat} {f : FieldDef}, ((trackSchema true) id).HasField f →
      (f.array = none → f.SafeField) ∧ f.type.SafeElement ∨ f.array = none ∧ f.SafeField := by
    intro id f h
    match id with
    | 0 =>
      simp only [trackSchema, CompoundDef.HasField, List.mem_cons, List.not_mem_nil, or_false] at h
      rcases h with rfl | rfl
      · exact .inr ⟨rfl, by simp [FieldDef.SafeField]⟩
      · exact .inr ⟨rfl, by simp [FieldDef.SafeField]⟩
    | k + 1 =>
      simp only [trackSchema, CompoundDef.HasField, List.mem_cons, List.not_mem_nil, or_false] at h
      subst h
      exact .inl ⟨nofun, by simp [ElemType.SafeElement]⟩
  constructor
  · intro id f a hf ha _ _
    rcases field hf with h | h
    · exact h.2
    · rw [ha] at h; cases h.1
  · intro id f a _ hf ha _
    rcases field hf with h | h
    · exact h.2
    · rw [ha] at h; cases h.1
  · intro id f _ hf ha _
    rcases field hf with h | h
    · exact h.1 ha
    · exact h.2
  · intro id fs _ h
    match id with
    | 0 => cases h
    | k + 1 => cases h

/-- with range checks, the object with 255 can be written and the object with 256 cannot -/
example : (trackSchema true).NoOffsets ∧ (∃ b x, serialize ((trackSchema true).codec 2 1) (trackObj 255) = .ok (b, x)) ∧
    serialize ((trackSchema true).codec 2 1) (trackObj 256) = .error .range ∧
    serialize ((trackSchema true).codec 2 1) (trackObj 3) = .error .constraint := by
  refine ⟨?_, ⟨⟨[11, 131, 245, 1, 85, 119, 80], 54⟩, trackObj 255, by decide +kernel⟩, by decide +kernel, by decide +kernel⟩
  intro id
  match id with
  | 0 | (k + 1) => simp [trackSchema, CompoundDef.AllFields]

/-- an element of the packed array is a part of the object -/
example : (trackSchema true).Part 1 (trackObj 255) { type := .dynBits false fun _ => .ok 4, packable := true, rangeCheck := true }
    ⟨[], [.int 255], 0⟩ (.int 5) := by
  refine .element (j := 0) (args := []) (a := ⟨.auto, true⟩) (y := .obj [] 0 0 [.int 255, .int 5])
    (.ofStruct (i := 0) rfl rfl rfl (.inl rfl) rfl) rfl rfl (by simp) ?_
  exact .ofStruct (i := 1) rfl rfl rfl (.inl rfl) rfl

/-- **Without range checks** the number 256 is written into a field of type `uint8` in a packed array. -/
theorem C85_unchecked : ∃ b, serialize ((trackSchema false).codec 2 1) (trackObj 256) = .ok (b, trackObj 256) := by
  exact ⟨⟨[11, 131, 245, 1, 85, 119, 84], 54⟩, by decide +kernel⟩

/-- `struct Bytes { packed uint8 a[]; };` with range checks -/
def checkedBytes : Schema := fun _ =>
  .struct [{ type := .int (.bitField 8), array := some ⟨.auto, true⟩, packable := true, rangeCheck := true }]

/-- **The range check does not cover the elements of arrays:** the schema `struct Bytes { packed uint8 a[]; };` with range checks
still writes 256. -/
theorem C85_elements_deviates : ∃ b x, serialize (checkedBytes.codec 1 0) x = .ok (b, x) ∧
    x = .obj [] 0 0 [.arr ([250, 251, 252, 253, 254, 255, 256, 257, 258, 259].map .int)] :=
  ⟨⟨[10, 131, 244, 170, 170, 128], 41⟩, _, by decide +kernel, rfl⟩

end Zserio
