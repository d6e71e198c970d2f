import Verif.Lemmas.CompoundIdentity
import Verif.Lemmas.CompoundDemo
/-
C37: equal generated objects have equal hash codes and hash codes are 32-bit numbers.
C51: `==` of generated objects is an equivalence.

`(defs.eqHash kinds n id).eq x y` is the result of `x == y` for objects of the compound `id` of the schema `defs`, `.hash x` the
result of `hash(x)`; `n` bounds the nesting of the objects.
-/
namespace Zserio

/-- **C37**, every hash code is in [0, 2^32). -/
theorem C37_hash_range (defs : Schema) (kinds : Nat → List ParamKind) (n id : Nat) (x : Val) (h : Int)
    (hh : (defs.eqHash kinds n id).hash x = .ok h) : 0 ≤ h ∧ h < 2 ^ 32 := by
  rcases n with _ | n
  · simp [Schema.eqHash] at hh
  · simp only [Schema.eqHash] at hh
    have hp := fun ps => hashParams_is32 (kinds id) ps seed_is32
    rcases hd : defs id with fs | fs | ⟨selector, cases, default⟩ <;> rw [hd] at hh
    · simp only [CompoundDef.eqHash, Struct.eqHash] at hh
      split at hh
      · exact Struct.hash_is32 _ _ _ fs [] _ _ _ (hp _) hh
      · simp at hh
    · simp only [CompoundDef.eqHash, Union.eqHash] at hh
      split at hh
      · exact Branch.hash_is32 _ (hashInt32_is32 _ _) hh
      · simp at hh
    · simp only [CompoundDef.eqHash, Choice.eqHash] at hh
      split at hh
      · obtain ⟨s, -, hh⟩ := except_bind_ok hh
        split at hh
        · exact Branch.hash_is32 _ (hp _) hh
        · obtain rfl := Except.ok.inj hh
          exact hp _
      · simp at hh

/-- **C37**, objects that compare equal have the same hash (or none of them has).

Partial: objects containing `-0.0` are excluded, see `C37_zero_signs`, and so are schemas with optional clauses that depend on values
which `__eq__` ignores, see `C37_unused_field`. -/
theorem C37_equal_hash_partial (defs : Schema) (kinds : Nat → List ParamKind) (n id : Nat) (hst : defs.StableClauses kinds n)
    (x y : Val) (hx : x.NoNegativeZero) (hy : y.NoNegativeZero) (h : (defs.eqHash kinds n id).eq x y = .ok true) :
    (defs.eqHash kinds n id).hash x = (defs.eqHash kinds n id).hash y :=
  defs.consistent kinds n hst id x y hx hy h

/-- **C51**, an object is equal to itself if it contains no NaN (and if the comparison does not raise). -/
theorem C51_reflexive (defs : Schema) (kinds : Nat → List ParamKind) (n id : Nat) (x : Val) (hx : x.NoNaN) (b : Bool)
    (h : (defs.eqHash kinds n id).eq x x = .ok b) : b = true :=
  defs.eq_refl kinds n id x hx b h

/-- **C51**, `==` is symmetric.  Partial: clauses must be stable, see `C37_unused_field`. -/
theorem C51_symmetric_partial (defs : Schema) (kinds : Nat → List ParamKind) (n id : Nat) (hst : defs.StableClauses kinds n)
    (x y : Val) (h : (defs.eqHash kinds n id).eq x y = .ok true) : (defs.eqHash kinds n id).eq y x = .ok true :=
  (defs.eq_symmTrans kinds n hst id).1 x y h

/-- **C51**, `==` is transitive.  Partial: clauses must be stable, see `C37_unused_field`. -/
theorem C51_transitive_partial (defs : Schema) (kinds : Nat → List ParamKind) (n id : Nat) (hst : defs.StableClauses kinds n)
    (x y z : Val) (h : (defs.eqHash kinds n id).eq x y = .ok true) (h' : (defs.eqHash kinds n id).eq y z = .ok true) :
    (defs.eqHash kinds n id).eq x z = .ok true :=
  (defs.eq_symmTrans kinds n hst id).2 x y z h h'

/-- plain fields of objects that compare equal hold the same value -/
theorem Struct.eq_plain {cs : Nat → EqHash} (params : List Int) (k l base : Nat) :
    ∀ (fs : List FieldDef) (pv pu vs us : List Val), Struct.eq cs params k l base fs pv pu vs us = .ok true →
      ∀ (j : Nat) (g : FieldDef), fs[j]? = some g → g.Plain → vs[j]? = us[j]?
  | [], _, _, _, _, _ => by
    intro j g hg
    simp at hg
  | _ :: _, _, _, [], _, h => by simp [Struct.eq] at h
  | _ :: _, _, _, _ :: _, [], h => by simp [Struct.eq] at h
  | f :: fs, pv, pu, v :: vs, u :: us, h => by
    simp only [Struct.eq] at h
    obtain ⟨b, hb, h⟩ := except_bind_ok h
    cases b with
    | false => simp at h
    | true =>
      rintro (_ | j) g hg hp
      · simp only [List.getElem?_cons_zero, Option.some.injEq] at hg ⊢
        subst hg
        obtain ⟨h1, h2, h3, h4⟩ := hp
        simp only [FieldDef.eq, h2, FieldDef.eqOptional, h1, FieldDef.eqValue, h3, Bool.false_eq_true, if_false, ElemType.eq] at hb
        rcases eqOrNone_true hb with ⟨rfl, rfl⟩ | ⟨-, -, -, -, h5⟩
        · rfl
        · have key := @asInt_same
          rcases h4 with ⟨_, h4⟩ | ⟨_, _, h4⟩ | ⟨_, h4⟩ | ⟨_, h4⟩ | h4 <;> rw [h4] at h5
          · exact key h5
          · exact key h5
          · exact key h5
          · exact key h5
          · simp only [ElemType.eqValue] at h5
            obtain ⟨x, hx, h5⟩ := except_bind_ok h5
            obtain ⟨y, hy, h5⟩ := except_bind_ok h5
            cases v <;> simp [Builtin.proj] at hx
            cases u <;> simp [Builtin.proj] at hy
            obtain rfl := Except.ok.inj hx
            obtain rfl := Except.ok.inj hy
            simp only [Builtin.eqElem, same, Except.ok.injEq, decide_eq_true_eq] at h5
            rw [h5]
      · simp only [List.getElem?_cons_succ] at hg ⊢
        exact Struct.eq_plain params k l base fs _ _ vs us (by simpa using h) j g hg hp

/-- **C37**, the condition on clauses holds if they depend only on parameters and on integer and boolean fields which are not
optional. -/
theorem C37_stable_clauses (defs : Schema) (hp : defs.PlainClauses) (kinds : Nat → List ParamKind) (n : Nat) :
    defs.StableClauses kinds n := by
  intro id fs hd i f e hf he m _ params k l vs us heq
  have hl := Struct.eq_length params k l _ _ _ _ _ _ heq
  have hi : i < fs.length := by
    rcases Nat.lt_or_ge i fs.length with h | h
    · exact h
    · rw [List.getElem?_eq_none h] at hf; simp at hf
  refine hp id fs hd i f e hf he params vs us ?_ ?_ ?_
  · rw [hl.1]; simp; omega
  · rw [hl.2]; simp; omega
  · intro j g hj hg hpl
    exact Struct.eq_plain params k l _ _ _ _ _ _ heq j g (by rw [List.getElem?_take, if_pos hj]; exact hg) hpl

/-! ### The clauses of the example schema are plain and its objects compare and hash. -/

/-- the parameters of the compounds of the example schema: `int32` -/
def Demo.kinds : Nat → List ParamKind
  | 0 | 2 | 3 => [.integer false]
  | _ => []

theorem demo_plain_clauses : Demo.schema.PlainClauses := by
  intro id fs hd i f e hf he params vs us _ _ _
  match id with
  | 0 =>
    obtain rfl := CompoundDef.struct.inj hd
    match i with
    | 0 => simp at hf; subst hf; cases he
    | 1 =>
      simp at hf; subst hf
      cases he
      rfl
    | i + 2 => simp at hf
  | 1 | 2 => cases hd
  | 3 | 4 | 5 | 6 | 7 =>
    all_goals
      obtain rfl := CompoundDef.struct.inj hd
      have hm := List.mem_of_getElem? hf
      simp only [List.mem_cons, List.not_mem_nil, or_false] at hm
      rcases hm with rfl | rfl | rfl | rfl | rfl | rfl | rfl | rfl | rfl | rfl <;> cases he
  | k + 8 =>
    obtain rfl := CompoundDef.struct.inj hd
    simp at hf


/-- two objects that differ only in a field that is not used and in the bits of the bit buffer after its end -/
def Demo.mainObj' (bits : UInt8) : Val := .obj [42] 0 0 [
  .int 3, .int 17, .bool true, .int 1,
  .arr [itemObj 0 100 (.int bits.toNat), itemObj 5 127 (.int (-70000))],
  .arr [.int (-1), .int 32767, .int 5],
  .obj [] 0 2 [itemObj 5 64 (.int 1)],
  .obj [2] 0 0 [.str [0x20AC, 65]],
  .float 0x3FF8000000000000,
  .bitBuffer ⟨[0xAB, bits], 3⟩]

example : (Demo.schema.eqHash Demo.kinds 4 3).eq (Demo.mainObj' 0) (Demo.mainObj' 255) = .ok true ∧
    (Demo.schema.eqHash Demo.kinds 4 3).hash (Demo.mainObj' 0) = .ok 82809316 ∧
    (Demo.mainObj' 0).NoNegativeZero ∧ (Demo.mainObj' 255).NoNegativeZero ∧ (Demo.mainObj' 0).NoNaN ∧
    Demo.schema.StableClauses Demo.kinds 4 := by
  refine ⟨by decide +kernel, by decide +kernel, ?_, ?_, ?_, C37_stable_clauses _ demo_plain_clauses _ _⟩
  · intro x hx; simp [Demo.mainObj', Demo.itemObj, Val.floats, Val.floatsList] at hx; subst hx; decide
  · intro x hx; simp [Demo.mainObj', Demo.itemObj, Val.floats, Val.floatsList] at hx; subst hx; decide
  · intro x hx; simp [Demo.mainObj', Demo.itemObj, Val.floats, Val.floatsList] at hx; subst hx; decide

/-- objects that differ in the number of extended fields or in one element are not equal -/
example : (Demo.schema.eqHash Demo.kinds 4 5).eq (.obj [] 2 0 [.int 5, .str [], .int 0]) (.obj [] 1 0 [.int 5, .str [], .int 0])
      = .ok false ∧
    (Demo.schema.eqHash Demo.kinds 4 6).eq (Demo.indexedObj 1 2 3) (Demo.indexedObj 1 2 4) = .ok false := ⟨by rfl, by rfl⟩

/-- **C51**, two canonical objects (the form in which objects are read back) without NaN and `-0.0` are equal exactly if they are the
same in all members, if the comparison does not raise.  The hypotheses on the schema are rules of the compiler. -/
theorem C51_identity (defs : Schema) (closed : Nat → Bool) (hl : defs.Layout closed) (hr : defs.RequiredMembers)
    (kinds : Nat → List ParamKind) (n id : Nat) (x y : Val) (cx : defs.Canonical n id x) (cy : defs.Canonical n id y)
    (nx : x.NoNegativeZero) (ny : y.NoNegativeZero) (nan : x.NoNaN) (b : Bool) (h : (defs.eqHash kinds n id).eq x y = .ok b) :
    b = true ↔ x = y := by
  constructor
  · rintro rfl
    exact defs.identifies closed hl hr kinds n id x y cx cy nx ny h
  · rintro rfl
    exact defs.eq_refl kinds n id x nan b h

theorem demo_required : Demo.schema.RequiredMembers := by
  constructor
  · intro id fs hd f hf
    match id with
    | 1 =>
      obtain rfl := CompoundDef.union.inj hd
      simp only [List.mem_cons, List.not_mem_nil, or_false] at hf
      rcases hf with rfl | rfl | rfl <;> rfl
    | 0 | 2 | 3 | 4 | 5 | 6 | 7 => cases hd
    | k + 8 => cases hd
  · intro id selector cases default hd
    match id with
    | 2 =>
      obtain ⟨rfl, rfl, rfl⟩ := CompoundDef.choice.inj hd
      refine ⟨?_, ?_⟩
      · intro k hk f hf
        simp only [List.mem_cons, List.not_mem_nil, or_false] at hk
        rcases hk with rfl | rfl
        · simp at hf; rw [← hf]
        · simp at hf
      · intro f hf
        simp at hf; rw [← hf]
    | 0 | 1 | 3 | 4 | 5 | 6 | 7 => cases hd
    | k + 8 => cases hd

example : Demo.schema.Layout Demo.closed ∧ Demo.schema.RequiredMembers ∧ Demo.schema.Canonical 3 5 Demo.versionedObj ∧
    Demo.versionedObj.NoNegativeZero ∧ Demo.versionedObj.NoNaN ∧
    (Demo.schema.eqHash Demo.kinds 3 5).eq Demo.versionedObj Demo.versionedObj = .ok true ∧
    (Demo.schema.eqHash Demo.kinds 3 5).eq Demo.versionedObj (.obj [] 1 0 [.int 5, .str [0x20AC, 65], .int 0]) = .ok false :=
  ⟨demo_layout, demo_required, demo_versioned_canonical, by simp [Val.NoNegativeZero, Demo.versionedObj, Val.floats, Val.floatsList],
    by simp [Val.NoNaN, Demo.versionedObj, Val.floats, Val.floatsList], by rfl, by rfl⟩

/-! ### Where equality and hash codes do not agree -/

/-- `struct Zero { float64 x; };` -/
def Demo.zero : Schema := fun _ => .struct [{ type := .other .float64 }]

/-- **C37 does not hold for the zeros**: objects that differ in the sign of a zero are equal and have different hash codes. -/
theorem C37_zero_signs :
    (Demo.zero.eqHash (fun _ => []) 1 0).eq (.obj [] 0 0 [.float 0]) (.obj [] 0 0 [.float negativeZero]) = .ok true ∧
    (Demo.zero.eqHash (fun _ => []) 1 0).hash (.obj [] 0 0 [.float 0]) ≠
      (Demo.zero.eqHash (fun _ => []) 1 0).hash (.obj [] 0 0 [.float negativeZero]) := by
  refine ⟨by rfl, ?_⟩
  decide +kernel

/-- `struct Unused { bool a; uint8 b if a; uint8 c if b > 3; };` -/
def Demo.unusedFields : Schema := fun _ => .struct [
  { type := .other .bool },
  { type := .int (.bitField 8), optional := .clause (fun env => match env.fields[0]? with
      | some (Val.bool b) => .ok b
      | _ => .error .type) },
  { type := .int (.bitField 8), optional := .clause (fun env => do let b ← Demo.field 1 env; .ok (decide (b > 3))) }]

/-- an object of `Unused` whose field `b` is set although it is not used -/
def Demo.unusedObj (b : Int) (c : Val) : Val := .obj [] 0 0 [.bool false, .int b, c]

/-- **C37 and C51 do not hold for all clauses**: with a clause that reads an optional field which is set but not used, `==` is
neither symmetric nor transitive, and equal objects have different hash codes. -/
theorem C37_unused_field :
    let class' := Demo.unusedFields.eqHash (fun _ => []) 1 0
    let x := Demo.unusedObj 5 (.int 7)
    let y := Demo.unusedObj 1 (.int 7)
    let z := Demo.unusedObj 1 .none
    class'.eq x y = .ok true ∧ class'.eq y x = .ok false ∧ class'.hash x ≠ class'.hash y ∧
    class'.eq y z = .ok true ∧ class'.eq x z = .ok false := by
  refine ⟨by rfl, by rfl, ?_, by rfl, by rfl⟩
  decide +kernel

/-- **C51 does not hold for NaN**: an object with a NaN is not equal to itself. -/
theorem C51_nan :
    (Demo.zero.eqHash (fun _ => []) 1 0).eq (.obj [] 0 0 [.float 0x7FF8000000000000]) (.obj [] 0 0 [.float 0x7FF8000000000000])
      = .ok false := by rfl

/-- A choice that has been read and whose selector selects an empty case cannot be compared, not even with itself: the generated
`read` does not create `_choice` in that case. -/
theorem C51_empty_case :
    ∃ x, (∀ r, ((Demo.schema.codec 2 2).fromReader [3] r).1 = .ok x) ∧ (Demo.schema.eqHash Demo.kinds 2 2).eq x x = .error .type :=
  ⟨.obj [3] 0 0 [.unset], fun _ => by rfl, by rfl⟩

end Zserio
