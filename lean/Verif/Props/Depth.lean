import Verif.Lemmas.DepthEq
import Verif.Spec.CompoundDemo
set_option linter.unusedSimpArgs false
/-
C91: how deep objects may be nested.  The number `n` of `Schema.codec defs n id` and `Schema.eqHash defs kinds n id` is the number of
nested calls of methods of generated objects which Python's stack allows.
-/
namespace Zserio
open Mono

/-- the operations a user calls on the class `k`, as far as they depend on an object -/
structure SameForObject (k k' : Codec) (v : Val) : Prop where
  sizes : ∀ p, k'.sizeOf p v = k.sizeOf p v
  offsets : ∀ p, k'.initialize p v = k.initialize p v
  writes : ∀ w, k'.writeTo v w = k.writeTo v w
  bits : serialize k' v = serialize k v
  bytes : serializeToBytes k' v = serializeToBytes k v

private theorem serializeToWriter_le {b : Prop} {k k' : Codec} {v : Val} (hi : ELe b (k.initialize 0 v) (k'.initialize 0 v))
    (hw : ∀ p v', k.initialize 0 v = .ok (p, v') → MLe b (k.writeTo v') (k'.writeTo v')) :
    ELe b (serializeToWriter k v) (serializeToWriter k' v) := by
  unfold serializeToWriter
  refine ELe.bind hi fun r hr => ?_
  obtain ⟨p, v'⟩ := r
  rcases hw p v' hr Writer.init with ⟨hb, h⟩ | h
  · left
    refine ⟨hb, ?_⟩
    cases hx : k.writeTo v' Writer.init with
    | mk r w =>
      rw [hx] at h
      cases h
      simp [hx]
  · right
    simp [h]

private theorem sizeOf_le {b : Prop} {P : Val → Prop} {k k' : Codec} (h : CodecLe b P k k') (p : Nat) {v : Val} (hv : P v) :
    ELe b (k.sizeOf p v) (k'.sizeOf p v) := ELe.bind (h.bitsizeof _ _ _ _ hv) fun _ _ => ELe.refl _

private theorem initialize_le {b : Prop} {P : Val → Prop} {k k' : Codec} (h : CodecLe b P k k') (p : Nat) {v : Val} (hv : P v) :
    ELe b (k.initialize p v) (k'.initialize p v) := ELe.bind (h.initOffsets _ _ _ _ hv) fun _ _ => ELe.refl _

private theorem writeTo_le {b : Prop} {P : Val → Prop} {k k' : Codec} (h : CodecLe b P k k') {v : Val} (hv : P v) :
    MLe b (k.writeTo v) (k'.writeTo v) := MLe.bind (h.write _ _ _ hv) fun _ => MLe.refl _

private theorem le_same {α : Type} {x y : Except Err α} (h : ELe True x y) (hx : x ≠ .error .recursion) : y = x := by
  rcases h with ⟨_, h⟩ | h
  · exact absurd h hx
  · exact h.symm

private theorem le_eq {α : Type} {x y : Except Err α} (h : ELe False x y) : y = x := by
  rcases h with ⟨h, _⟩ | h
  · exact h.elim
  · exact h.symm

/-- C91, objects: if the objects are nested less deep than the stack allows, how much the stack allows has no influence: every operation
on the object gives the same result, the same exception, the same object afterwards and the same bits with any larger stack.  In particular
no `RecursionError` comes from the depth of the types of the schema, which may be recursive, only from that of the object. -/
theorem C91_object (defs : Schema) (n m id : Nat) (hnm : n ≤ m) (v : Val) (hv : v.depth < n) :
    SameForObject (defs.codec n id) (defs.codec m id) v := by
  have h := codec_depth defs n m hnm id
  have hs : ELe False (serializeToWriter (defs.codec n id) v) (serializeToWriter (defs.codec m id) v) := by
    refine serializeToWriter_le (initialize_le h 0 hv) fun p v' hr => writeTo_le h ?_
    obtain ⟨⟨e, v1, c⟩, h1, h2⟩ := except_bind_ok hr
    cases h2
    exact Nat.lt_of_le_of_lt (Schema.flat defs n id _ _ _ _ _ _ _ h1) hv
  refine ⟨fun p => le_eq (sizeOf_le h p hv), fun p => le_eq (initialize_le h p hv), fun w => ?_,
    le_eq (ELe.bind hs fun _ _ => ELe.refl _), le_eq (ELe.bind hs fun _ _ => ELe.refl _)⟩
  rcases writeTo_le h hv w with ⟨h, _⟩ | h
  · exact h.elim
  · exact h.symm

/-- C91, comparing: `==` and `hash` of an object nested less deep than the stack allows do not depend on the stack, whatever the object
is compared with. -/
theorem C91_equal (defs : Schema) (kinds : Nat → List ParamKind) (n m id : Nat) (hnm : n ≤ m) (v u : Val) (hv : v.depth < n) :
    (defs.eqHash kinds m id).eq v u = (defs.eqHash kinds n id).eq v u ∧
    (defs.eqHash kinds m id).hash v = (defs.eqHash kinds n id).hash v :=
  ⟨le_eq ((eqHash_depth defs kinds n m hnm id).eq v u hv), le_eq ((eqHash_depth defs kinds n m hnm id).hash v hv)⟩

/-- C91, any object and any input: a larger stack changes nothing but `RecursionError`: if an operation gives a result or another exception
with a stack, it gives the same with each larger stack. -/
theorem C91_limit (defs : Schema) (n m id : Nat) (hnm : n ≤ m) :
    (∀ p v, (defs.codec n id).sizeOf p v ≠ .error .recursion → (defs.codec m id).sizeOf p v = (defs.codec n id).sizeOf p v) ∧
    (∀ p v, (defs.codec n id).initialize p v ≠ .error .recursion →
      (defs.codec m id).initialize p v = (defs.codec n id).initialize p v) ∧
    (∀ v w, ((defs.codec n id).writeTo v w).1 ≠ .error .recursion → (defs.codec m id).writeTo v w = (defs.codec n id).writeTo v w) ∧
    (∀ v, serialize (defs.codec n id) v ≠ .error .recursion → serialize (defs.codec m id) v = serialize (defs.codec n id) v) ∧
    (∀ ps r, ((defs.codec n id).fromReader ps r).1 ≠ .error .recursion →
      (defs.codec m id).fromReader ps r = (defs.codec n id).fromReader ps r) ∧
    (∀ b ps, deserialize (defs.codec n id) b ps ≠ .error .recursion →
      deserialize (defs.codec m id) b ps = deserialize (defs.codec n id) b ps) := by
  have h := codec_mono defs n m hnm id
  have hread : ∀ ps, MLe True ((defs.codec n id).fromReader ps) ((defs.codec m id).fromReader ps) := fun ps =>
    MLe.bind (h.read trivial _ _ _) fun _ => MLe.refl _
  refine ⟨fun p v => le_same (sizeOf_le h p trivial), fun p v => le_same (initialize_le h p trivial), fun v w hn => ?_, fun v => ?_,
    fun ps r hn => ?_, fun b ps => ?_⟩
  · rcases writeTo_le h trivial w with ⟨_, h⟩ | h
    · exact absurd h hn
    · exact h.symm
  · exact le_same (ELe.bind (serializeToWriter_le (initialize_le h 0 trivial) fun _ _ _ => writeTo_le h trivial) fun _ _ => ELe.refl _)
  · rcases hread ps r with ⟨_, h⟩ | h
    · exact absurd h hn
    · exact h.symm
  · refine le_same (ELe.bind (ELe.refl _) fun r _ => ?_)
    rcases hread ps r with h | h
    · exact .inl h
    · exact .inr (by rw [h])

/-- C91, comparing any objects -/
theorem C91_equal_limit (defs : Schema) (kinds : Nat → List ParamKind) (n m id : Nat) (hnm : n ≤ m) (v u : Val) :
    ((defs.eqHash kinds n id).eq v u ≠ .error .recursion → (defs.eqHash kinds m id).eq v u = (defs.eqHash kinds n id).eq v u) ∧
    ((defs.eqHash kinds n id).hash v ≠ .error .recursion → (defs.eqHash kinds m id).hash v = (defs.eqHash kinds n id).hash v) :=
  ⟨le_same ((eqHash_mono defs kinds n m hnm id).eq v u trivial), le_same ((eqHash_mono defs kinds n m hnm id).hash v trivial)⟩

/-- C91, reading: if bytes are read to an object with some stack, no larger stack gives a different object; so what bytes mean does not
depend on the reader's stack. -/
theorem C91_read_unique (defs : Schema) (n m id : Nat) (b : BitBuffer) (ps : List Int) (v u : Val)
    (hn : deserialize (defs.codec n id) b ps = .ok v) (hm : deserialize (defs.codec m id) b ps = .ok u) : v = u := by
  rcases Nat.le_total n m with h | h
  · have := (C91_limit defs n m id h).2.2.2.2.2 b ps (by rw [hn]; nofun)
    rw [hn, hm] at this
    cases this
    rfl
  · have := (C91_limit defs m n id h).2.2.2.2.2 b ps (by rw [hm]; nofun)
    rw [hn, hm] at this
    cases this
    rfl

/-! A schema whose objects can be nested without bound: `struct Node { uint8 value; optional Node next; };` -/

namespace Chain

/-- the schema -/
def schema : Schema := fun _ => .struct [{ type := .int (.bitField 8) }, { type := .compound 0 [], optional := .auto }]

/-- a list of nodes with the given values, the last one without `next` -/
def node : List Int → Val
  | [] => .none
  | x :: xs => .obj [] 0 0 [.int x, node xs]

theorem depth : ∀ xs, (node xs).depth = xs.length
  | [] => rfl
  | x :: xs => by simp [node, Val.depth, Val.depthList, depth xs]

end Chain

/-- C91, the bound: a chain of `k` nodes cannot be handled with a stack for fewer than `k` objects, and its size is computed with any stack
for `k` objects or more, whatever `k` is. -/
theorem C91_chain (xs : List Int) (n p : Nat) (hx : xs ≠ []) :
    (Chain.schema.codec n 0).sizeOf p (Chain.node xs) = if n < xs.length then .error .recursion else .ok (9 * xs.length) := by
  have key : ∀ (n p : Nat) (xs : List Int) c, xs ≠ [] → (Chain.schema.codec n 0).bitsizeof none c p (Chain.node xs) =
      if n < xs.length then .error .recursion else .ok (9 * xs.length, c) := by
    intro n
    induction n with
    | zero =>
      intro p xs c hx
      rw [if_pos (List.length_pos_iff.mpr hx)]
      rfl
    | succ n ih =>
      intro p xs c hx
      cases xs with
      | nil => exact absurd rfl hx
      | cons x xs =>
        cases xs with
        | nil =>
          have h : ∀ k : Nat → Codec, (FieldDef.bitsizeofOptional k { type := .compound 0 [], optional := .auto } ⟨[], [.int x], 0⟩ 2 none c (p + 8)
              .none) = .ok (p + 9, c) := fun _ => rfl
          show (do
            let r ← FieldDef.bitsizeofOptional (Chain.schema.codec n) { type := .compound 0 [], optional := .auto } ⟨[], [.int x], 0⟩ 2 none c
              (p + 8) .none
            .ok (r.1 - p, r.2) : Except Err (Nat × Ctx)) = _
          rw [h]
          simp [Except.bind, bind]
        | cons y ys =>
          have h : (FieldDef.bitsizeofOptional (Chain.schema.codec n) { type := .compound 0 [], optional := .auto } ⟨[], [.int x], 0⟩ 2 none c
              (p + 8) (Chain.node (y :: ys))) = (do
                let r ← (Chain.schema.codec n 0).bitsizeof none c (p + 9) (Chain.node (y :: ys))
                .ok (p + 9 + r.1, r.2)) := rfl
          show (do
            let r ← (do
              let r ← FieldDef.bitsizeofOptional (Chain.schema.codec n) { type := .compound 0 [], optional := .auto } ⟨[], [.int x], 0⟩ 2 none
                c (p + 8) (Chain.node (y :: ys))
              .ok (r.1, r.2))
            .ok (r.1 - p, r.2) : Except Err (Nat × Ctx)) = _
          rw [h, ih (p + 9) (y :: ys) c (by simp)]
          by_cases hn : n < ys.length + 1
          · simp [hn, Except.bind, bind]
          · simp [hn, Except.bind, bind]
            omega
  simp only [Codec.sizeOf, key n p xs _ hx]
  split <;> rfl

/-- the hypotheses of `C91_object`, `C91_equal` and `C91_read_unique` are met by the object of the demo schema and by chains; the results are
not all errors, and with a smaller stack there is a `RecursionError` -/
example : (Demo.mainObj 0).depth = 3 ∧ (serializeToBytes (Demo.schema.codec 4 3) (Demo.mainObj 0)).isOk = true ∧
    (serializeToBytes (Demo.schema.codec 2 3) (Demo.mainObj 0)).isOk = false := by
  refine ⟨by decide +kernel, by decide +kernel, by decide +kernel⟩

example : (Chain.node [1, 2, 3]).depth < 4 ∧ (Chain.schema.codec 4 0).sizeOf 0 (Chain.node [1, 2, 3]) = .ok 27 ∧
    (Chain.schema.codec 2 0).sizeOf 0 (Chain.node [1, 2, 3]) = .error .recursion ∧
    (Chain.schema.eqHash (fun _ => []) 4 0).eq (Chain.node [1, 2, 3]) (Chain.node [1, 2, 3]) = .ok true ∧
    (Chain.schema.eqHash (fun _ => []) 2 0).eq (Chain.node [1, 2, 3]) (Chain.node [1, 2, 3]) = .error .recursion ∧
    (deserializeFromBytes (Chain.schema.codec 4 0) [1, 0x81, 0x40, 0xC0] []).isOk = true ∧
    (deserializeFromBytes (Chain.schema.codec 5 0) [1, 0x81, 0x40, 0xC0] []).isOk = true ∧
    (deserializeFromBytes (Chain.schema.codec 2 0) [1, 0x81, 0x40, 0xC0] []).isOk = false := by
  refine ⟨by decide +kernel, ?_, ?_, by decide +kernel, by decide +kernel, by decide +kernel, by decide +kernel, by decide +kernel⟩
  · rw [C91_chain _ _ _ (by simp)]
    rfl
  · rw [C91_chain _ _ _ (by simp)]
    rfl

end Zserio
