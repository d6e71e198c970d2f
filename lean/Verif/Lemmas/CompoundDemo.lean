import Verif.Spec.CompoundDemo
import Verif.Lemmas.Compound
set_option linter.unusedSimpArgs false
/-
The example schema satisfies the layout rules, the example objects are canonical.
-/
namespace Zserio

/-- the example schema satisfies the layout rules -/
theorem demo_layout : Demo.schema.Layout Demo.closed := by
  intro id
  match id with
  | 0 | 1 | 2 | 3 | 4 | 5 | 6 | 7 | (k + 8) =>
    simp [Demo.schema, Demo.item, Demo.any, Demo.sel, Demo.main, Demo.opened, Demo.versioned, Demo.indexed, Demo.versioned1, CompoundDef.Layout,
      FieldDef.ArrayOk, FieldDef.Closed, Demo.closed, ElemType.FixedSize, Struct.base, numExtended]
    try
      intro i f hf
      rcases i with _ | _ | _ | _ | _ | _ | _ | _ | _ | _ | i <;> simp at hf <;> subst hf <;> simp

theorem demo_item_canonical (p x : Int) (y : Val) (h : p ≤ 3 → y = .none) : Demo.schema.Canonical 1 0 (Demo.itemObj p x y) := by
  by_cases hp : 3 < p
  · simp [Schema.Canonical, Demo.schema, Demo.item, Demo.itemObj, CompoundDef.Canonical, Struct.Canonical, FieldDef.Canonical,
      FieldDef.CanonicalValue, ElemType.Canonical, FieldDef.isUsed, Demo.param, Bind.bind, Except.bind, hp]
  · simp [Schema.Canonical, Demo.schema, Demo.item, Demo.itemObj, CompoundDef.Canonical, Struct.Canonical, FieldDef.Canonical,
      FieldDef.CanonicalValue, ElemType.Canonical, FieldDef.isUsed, Demo.param, Bind.bind, Except.bind, hp]
    exact h (by omega)
theorem demo_item_canonical2 (p x : Int) (y : Val) (h : p ≤ 3 → y = .none) : Demo.schema.Canonical 2 0 (Demo.itemObj p x y) := by
  by_cases hp : 3 < p
  · simp [Schema.Canonical, Demo.schema, Demo.item, Demo.itemObj, CompoundDef.Canonical, Struct.Canonical, FieldDef.Canonical,
      FieldDef.CanonicalValue, ElemType.Canonical, FieldDef.isUsed, Demo.param, Bind.bind, Except.bind, hp]
  · simp [Schema.Canonical, Demo.schema, Demo.item, Demo.itemObj, CompoundDef.Canonical, Struct.Canonical, FieldDef.Canonical,
      FieldDef.CanonicalValue, ElemType.Canonical, FieldDef.isUsed, Demo.param, Bind.bind, Except.bind, hp]
    exact h (by omega)

theorem demo_any_canonical : Demo.schema.Canonical 2 1 (.obj [] 0 2 [Demo.itemObj 5 64 (.int 1)]) := by
  rw [Schema.Canonical]
  refine ⟨rfl, _, rfl, ?_⟩
  simp [FieldDef.Canonical, FieldDef.CanonicalValue, ElemType.Canonical, FieldDef.isUsed]
  exact ⟨demo_item_canonical 5 64 _ (by simp), rfl⟩

theorem demo_sel_canonical : Demo.schema.Canonical 2 2 (.obj [3] 0 0 [.unset]) := by
  rw [Schema.Canonical]
  exact ⟨rfl, rfl, none, _, rfl, rfl⟩

theorem demo_f32 : Builtin.float32.stored (4609434218613702656 : UInt64) = (4609434218613702656 : UInt64) := by
  have : storedFloat32 4609434218613702656 = 4609434218613702656 := by decide +kernel
  exact this

theorem demo_bits : Builtin.bitBuffer.stored (⟨[171, 224], 11⟩ : BitBuffer) = (⟨[171, 224], 11⟩ : BitBuffer) := by
  have : BitBuffer.stored ⟨[171, 224], 11⟩ = ⟨[171, 224], 11⟩ := by decide +kernel
  exact this

theorem demo_main_canonical (off : Int) : Demo.schema.Canonical 3 3 (Demo.mainObj off) := by
  rw [Schema.Canonical]
  simp only [Demo.schema, Demo.main, Demo.mainObj, CompoundDef.Canonical, Struct.Canonical, FieldDef.Canonical,
    FieldDef.CanonicalValue, ElemType.Canonical, Builtin.proj, FieldDef.isUsed]
  simp [AllIndexed, Val.isNone]
  refine ⟨⟨⟨demo_item_canonical2 _ _ _ (by simp), rfl⟩, ⟨demo_item_canonical2 _ _ _ (by simp), rfl⟩, ⟨demo_item_canonical2 _ _ _ (by simp), rfl⟩,
    ⟨demo_item_canonical2 _ _ _ (by simp), rfl⟩, demo_item_canonical2 _ _ _ (by simp), rfl⟩, ⟨demo_any_canonical, rfl⟩, ⟨demo_sel_canonical, rfl⟩,
    ⟨_, rfl, demo_f32⟩, ⟨_, rfl, demo_bits⟩⟩

/-- an object of the first version, with or without its extended field -/
theorem demo_versioned1_canonical (k : Nat) (h : k ≤ 1) :
    Demo.schema.Canonical 3 7 (.obj [] k 0 [.int 5, if k = 1 then .str [0x20AC, 65] else .str []]) := by
  rw [Schema.Canonical]
  obtain rfl | rfl : k = 0 ∨ k = 1 := by omega
  · simp only [Demo.schema, Demo.versioned1, CompoundDef.Canonical, Struct.Canonical, FieldDef.Canonical,
      FieldDef.CanonicalValue, ElemType.Canonical, Builtin.proj, FieldDef.isUsed]
    simp [AllIndexed, Struct.isPresent, Struct.base, numExtended]
  · simp only [Demo.schema, Demo.versioned1, CompoundDef.Canonical, Struct.Canonical, FieldDef.Canonical,
      FieldDef.CanonicalValue, ElemType.Canonical, Builtin.proj, FieldDef.isUsed]
    simp [AllIndexed, Struct.isPresent, Struct.base, numExtended]
    refine ⟨⟨_, rfl, rfl⟩, ?_⟩
    intro p e c c' h
    have h2 : Except.ok (p + 40, c) = Except.ok (e, c') := h
    simp at h2; omega

theorem demo_versioned_canonical : Demo.schema.Canonical 3 5 Demo.versionedObj := by
  rw [Schema.Canonical]
  simp only [Demo.schema, Demo.versioned, Demo.versionedObj, CompoundDef.Canonical, Struct.Canonical, FieldDef.Canonical,
    FieldDef.CanonicalValue, ElemType.Canonical, Builtin.proj, FieldDef.isUsed]
  simp [AllIndexed, Struct.isPresent, Struct.base, numExtended]
  refine ⟨⟨_, rfl, rfl⟩, ?_, ?_⟩
  · intro p e c c' h
    have h2 : Except.ok (p + 40, c) = Except.ok (e, c') := h
    simp at h2; omega
  · intro p e c c' h
    have h2 : Except.ok (p + 16, c) = Except.ok (e, c') := h
    simp at h2; omega

end Zserio
