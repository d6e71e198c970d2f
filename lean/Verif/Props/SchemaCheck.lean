import Verif.Lemmas.SchemaCheck
import Verif.Props.Compound
set_option linter.unusedSimpArgs false
/-
C82, C83: which schemas the compiler accepts, and what that guarantees.

`types` lists the compounds of the schema in the order of their declaration, `n` is the number of calls that fit on the stack,
`lower` is the lower bound the compiler has computed for the length of an array.  The vocabulary is defined in
Spec/SchemaCheck.lean.
-/
namespace Zserio
open SchemaCheck

/-! ### C82 -/

/-- **C82.** With the default options the compiler accepts exactly the schemas that satisfy the rules of the language, if the
stack has room for as many calls as there are types. -/
theorem C82_accepts (defs : Schema) (lower : FieldDef → Option Int) (n : Nat) (types : List Nat) (hc : defs.Complete types)
    (hn : types.length < n) : compile false defs lower n types = some (.ok ()) ↔ defs.WellFormed lower :=
  ⟨compile_wellFormed hc, compile_complete hc hn⟩

/-- **C82.** Whatever the options and the size of the stack are, an accepted schema satisfies the rules on recursion and
extended fields. -/
theorem C82_rules (allow : Bool) (defs : Schema) (lower : FieldDef → Option Int) (n : Nat) (types : List Nat)
    (hc : defs.Complete types) (h : compile allow defs lower n types = some (.ok ())) :
    defs.NoIndirectRecursion ∧ defs.NoDirectRecursion lower ∧ defs.ExtendedLast ∧ defs.ExtendedOutside ∧ defs.PlainBranches :=
  ⟨compile_indirect hc h, compile_direct hc h, compile_extendedLast hc h, compile_extendedOutside hc h, compile_branches hc h⟩

/-- **C82.** Objects of every type of an accepted schema can be built. -/
theorem C82_buildable (allow : Bool) (defs : Schema) (lower : FieldDef → Option Int) (n : Nat) (types : List Nat)
    (hc : defs.Complete types) (h : compile allow defs lower n types = some (.ok ())) : ∀ a, defs.Buildable lower a :=
  buildable hc (compile_indirect hc h) (compile_direct hc h)

/-- **C82.** Without indirect recursion the compiler ends, with or without an error message. -/
theorem C82_ends (allow : Bool) (defs : Schema) (lower : FieldDef → Option Int) (n : Nat) (types : List Nat)
    (hc : defs.Complete types) (hn : types.length < n) (h : defs.NoIndirectRecursion) :
    ∃ r, compile allow defs lower n types = some r :=
  compile_ends hc hn h

/-! #### Sample -/

namespace SchemaCheckDemo

/-- `bit:8` -/
def byte : FieldDef := { type := .int (.bitField 8) }

/-- `struct Tree { uint8 v; Tree children[]; optional Tree next; Tree some[v]; };`
`struct Top { Tree t[2]; Any a; uint8 x; extend Tree more; extend optional Any other; };`
`union Any { uint8 a; Sel(1) s; Any many[]; };`
`choice Sel(int32 p) on p { case 1: Tree t; case 2: ; default: uint8 x; };` -/
def schema : Schema
  | 0 => .struct [byte, { type := .compound 0 [], array := some ⟨.auto, false⟩ }, { type := .compound 0 [], optional := .auto },
      { type := .compound 0 [], array := some ⟨.fixed (Demo.field 0), false⟩ }]
  | 1 => .struct [{ type := .compound 0 [], array := some ⟨.fixed fun _ => .ok 2, false⟩ }, { type := .compound 2 [] }, byte,
      { type := .compound 0 [], extended := true }, { type := .compound 2 [], extended := true, optional := .auto }]
  | 2 => .union [byte, { type := .compound 3 [fun _ => .ok 1] }, { type := .compound 2 [], array := some ⟨.auto, false⟩ }]
  | 3 => .choice (Demo.param 0) [⟨[1], some { type := .compound 0 [] }⟩, ⟨[2], none⟩] (some (some byte))
  | _ => .struct []

/-- the lower bounds of the lengths: `v` is at least 0, `2` is 2 -/
def lower (f : FieldDef) : Option Int :=
  match f.array with
  | some ⟨.fixed e, _⟩ => match e ⟨[], [], 0⟩ with
    | .ok n => some n
    | .error _ => some 0
  | _ => none

theorem complete : schema.Complete [0, 1, 2, 3] := by
  constructor
  · intro a ha b hb
    obtain ⟨f, hf, hfb⟩ := contains_iff.mp hb
    simp only [List.mem_cons, List.not_mem_nil, or_false] at ha
    rcases ha with rfl | rfl | rfl | rfl <;> simp [schema, fieldsOf, byte] at hf
    · rcases hf with rfl | rfl | rfl | rfl <;> simp_all [child]
    · rcases hf with rfl | rfl | rfl | rfl | rfl <;> simp_all [child]
    · rcases hf with rfl | rfl | rfl <;> simp_all [child]
    · rcases hf with rfl | rfl <;> simp_all [child]
  · intro a ha
    unfold schema
    split <;> simp_all

/-- `struct A { B b; }; struct B { C c[]; }; struct C { B b[]; };` -/
def cyclic : Schema
  | 0 => .struct [{ type := .compound 1 [] }]
  | 1 => .struct [{ type := .compound 2 [], array := some ⟨.auto, false⟩ }]
  | 2 => .struct [{ type := .compound 1 [], array := some ⟨.auto, false⟩ }]
  | _ => .struct []

/-- `Tree f[2];` -/
def necessary : FieldDef := { type := .compound 0 [], array := some ⟨.fixed fun _ => .ok 2, false⟩ }

/-- `implicit uint8 rest[]` -/
def rest : FieldDef := { type := .int (.bitField 8), array := some ⟨.implicit, false⟩ }

/-- the first field is not 0 -/
def notZero : Expr Bool := fun env => do let v ← Demo.field 0 env; .ok (decide (v ≠ 0))

/-- `struct S { uint8 n; implicit uint8 rest[] if n != 0; uint8 x; };` -/
def inBranch : Schema
  | 0 => .struct [byte, { rest with optional := .clause notZero }, byte]
  | _ => .struct []

/-- `struct S { uint8 n; implicit uint8 rest[]; uint8 x if n != 0; };` -/
def beforeBranch : Schema
  | 0 => .struct [byte, rest, { byte with optional := .clause notZero }]
  | _ => .struct []

/-- `struct S { Rest rests[2]; }; struct Rest { implicit uint8 rest[]; };` -/
def inElements : Schema
  | 0 => .struct [{ type := .compound 1 [], array := some ⟨.fixed fun _ => .ok 2, false⟩ }]
  | 1 => .struct [rest]
  | _ => .struct []

/-- `struct S { uint8 n; implicit uint8 rest[]; };` -/
def atEnd : Schema
  | 0 => .struct [byte, rest]
  | _ => .struct []

/-- an object without parameters -/
def obj (fields : List Val) : Val := .obj [] 0 0 fields

/-- a list of bytes -/
def bytes (vs : List Int) : Val := .arr (vs.map .int)

end SchemaCheckDemo

open SchemaCheckDemo

/-- A schema with recursive types, a union, a choice and extended fields is accepted. -/
example : schema.Complete [0, 1, 2, 3] ∧ compile false schema lower 5 [0, 1, 2, 3] = some (.ok ()) ∧ schema.NoIndirectRecursion :=
  have h : compile false schema lower 5 [0, 1, 2, 3] = some (.ok ()) := by rfl
  ⟨SchemaCheckDemo.complete, h, compile_indirect SchemaCheckDemo.complete h⟩

/-- One field that is not left out makes it recursive, and it is refused. -/
example : compile false (fun id => if id = 0 then .struct [necessary] else schema id) lower 5 [0, 1, 2, 3] =
    some (.error .directRecursion) := by rfl

/-- **Deviation.** Two types that contain each other are reported if they are declared before the types that use them.  If they
come later, the compiler ends with a stack overflow, however large the stack is. -/
theorem C82_overflow (lower : FieldDef → Option Int) :
    (∀ n, compile false cyclic lower n [0, 1, 2] = none) ∧
    ∀ n, 3 ≤ n → compile false cyclic lower n [1, 2, 0] = some (.error .indirectRecursion) := by
  constructor
  · intro n
    have h : ∀ m, checkIndirectRecursion cyclic 0 m 1 = none ∧ checkIndirectRecursion cyclic 0 m 2 = none := by
      intro m
      induction m with
      | zero => exact ⟨rfl, rfl⟩
      | succ m ih => constructor <;> simp [checkIndirectRecursion, cyclic, fieldsOf, child, forAll, andThen, ih.1, ih.2]
    have h0 : checkIndirectRecursion cyclic 0 n 0 = none := by
      cases n with
      | zero => rfl
      | succ n => simp [checkIndirectRecursion, cyclic, fieldsOf, child, forAll, andThen, (h n).1]
    simp [compile, forAll, checkSyntax, checkFieldSyntax, cyclic, fieldsOf, andThen, checkType, checkArray, checkDirectRecursion,
      checkFieldDirectRecursion, isOptional, child]
    rw [h0]
  · intro n hn
    obtain ⟨n, rfl⟩ : ∃ m, n = m + 3 := ⟨n - 3, by omega⟩
    rfl

/-! ### C83 -/

/-- **C83.** A schema accepted with the default options satisfies the layout rules which the theorems on generated compounds
assume; the types whose bits tell where they end are those without extended fields. -/
theorem C83_layout (defs : Schema) (lower : FieldDef → Option Int) (n : Nat) (types : List Nat) (hc : defs.Complete types)
    (h : compile false defs lower n types = some (.ok ())) :
    ∃ closed, defs.Layout closed ∧ ∀ a, closed a = true ↔ ¬ defs.HasExtended a := by
  refine ⟨_, compile_layout hc h (noImplicit_atEnd (compile_noImplicit hc h)), fun a => ?_⟩
  rw [isClosed_iff]
  constructor
  · rintro h1 ⟨f, hf, he⟩
    simp [(h1 f hf).1] at he
  · intro h1 f hf
    refine ⟨?_, compile_noImplicit hc h a f hf⟩
    cases he : f.extended with
    | false => rfl
    | true => exact absurd ⟨f, hf, he⟩ h1

/-- **C83.** What is serialized with code generated from such a schema is read back. -/
theorem C83_round_trip (defs : Schema) (lower : FieldDef → Option Int) (k : Nat) (types : List Nat) (hc : defs.Complete types)
    (h : compile false defs lower k types = some (.ok ())) (n id : Nat) (x x1 x' : Val) (b : BitBuffer) (ps : List Int)
    (hs : serialize (defs.codec n id) x = .ok (b, x1)) (hp : x1.params = .ok ps) (hx : defs.StoredAs n id x1 x') :
    deserialize (defs.codec n id) b ps = .ok x' := by
  obtain ⟨closed, hl, -⟩ := C83_layout defs lower k types hc h
  exact C33_serialize_deserialize defs closed hl n id x x1 x' b ps hs hp hx

/-- **C83**, part for `-allowImplicitArrays`: the layout rules hold if implicit arrays are used only at the end of structures
that are not used inside of other types.  The compiler allows more, see below. -/
theorem C83_implicit_layout_partial (defs : Schema) (lower : FieldDef → Option Int) (n : Nat) (types : List Nat)
    (hc : defs.Complete types) (h : compile true defs lower n types = some (.ok ())) (hi : defs.ImplicitAtEnd) :
    ∃ closed, defs.Layout closed :=
  ⟨_, compile_layout hc h hi⟩

/-- A structure that ends with an implicit array. -/
example : atEnd.Complete [0] ∧ compile true atEnd (fun _ => none) 2 [0] = some (.ok ()) ∧ atEnd.ImplicitAtEnd := by
  have hno : ∀ a b, ¬ atEnd.Contains a b := by
    intro a b h
    obtain ⟨f, hf, hfb⟩ := contains_iff.mp h
    unfold atEnd at hf
    split at hf <;> simp [fieldsOf] at hf
    rcases hf with rfl | rfl <;> simp [child, byte, rest] at hfb
  refine ⟨⟨fun a _ b hab => absurd hab (hno a b), ?_⟩, rfl, ?_⟩
  · intro a ha
    unfold atEnd
    split <;> simp_all
  · intro a f hf hi
    refine ⟨fun b => hno b a, ?_⟩
    unfold atEnd at hf ⊢
    split at hf
    · refine ⟨_, rfl, fun i hi' => ?_⟩
      match i with
      | 0 =>
        simp only [List.getElem?_cons_zero, Option.some.injEq] at hi'
        subst hi'
        simp [FieldDef.IsImplicit, byte] at hi
      | 1 => rfl
      | i + 2 => simp at hi'
    · cases hf with
      | struct h => simp at h

/-- **C82.** With `-allowImplicitArrays` the compiler accepts exactly the schemas that satisfy the rules of the language and
the rule that fields after a field with an implicit array may take no bits. -/
theorem C82_accepts_implicit (defs : Schema) (lower : FieldDef → Option Int) (n : Nat) (types : List Nat) (hc : defs.Complete types)
    (hn : types.length < n) : compile true defs lower n types = some (.ok ()) ↔ defs.WellFormedImplicit lower :=
  compile_implicit_wellFormed hc hn

/-- Schemas of both kinds: an implicit array at the end, and one before a byte. -/
example : atEnd.Complete [0] ∧ compile true atEnd (fun _ => none) 2 [0] = some (.ok ()) ∧
    compile true (fun a => if a = 0 then .struct [rest, byte] else .struct []) (fun _ => none) 2 [0] = some (.error .followsImplicit) := by
  refine ⟨⟨fun a _ b hab => ?_, fun a ha => ?_⟩, rfl, rfl⟩
  · obtain ⟨f, hf, hfb⟩ := contains_iff.mp hab
    unfold atEnd at hf
    split at hf <;> simp [fieldsOf] at hf
    rcases hf with rfl | rfl <;> simp [child, byte, rest] at hfb
  · unfold atEnd
    split <;> simp_all

/-- **Deviation.** With `-allowImplicitArrays` the compiler accepts a field after an implicit array if the array is in one of
several branches.  What is written then cannot be read. -/
theorem C83_inBranch_deviates :
    compile true inBranch (fun _ => none) 2 [0] = some (.ok ()) ∧
    serialize (inBranch.codec 1 0) (obj [.int 1, bytes [2, 3], .int 4]) =
      .ok (⟨[1, 2, 3, 4], 32⟩, obj [.int 1, bytes [2, 3], .int 4]) ∧
    inBranch.Canonical 1 0 (obj [.int 1, bytes [2, 3], .int 4]) ∧
    deserialize (inBranch.codec 1 0) ⟨[1, 2, 3, 4], 32⟩ [] = .error .eos :=
  ⟨rfl, by decide +kernel, by
    simp [Schema.Canonical, inBranch, obj, bytes, byte, rest, CompoundDef.Canonical, Struct.Canonical, FieldDef.Canonical, FieldDef.CanonicalValue,
      ElemType.Canonical, FieldDef.isUsed, Demo.field, notZero, Bind.bind, Except.bind, AllIndexed, Val.asInt, Val.params, evalArgs],
    by decide +kernel⟩

/-- **Deviation.** The same for a field that is not always there after an implicit array. -/
theorem C83_beforeBranch_deviates :
    compile true beforeBranch (fun _ => none) 2 [0] = some (.ok ()) ∧
    serialize (beforeBranch.codec 1 0) (obj [.int 1, bytes [2, 3], .int 4]) =
      .ok (⟨[1, 2, 3, 4], 32⟩, obj [.int 1, bytes [2, 3], .int 4]) ∧
    beforeBranch.Canonical 1 0 (obj [.int 1, bytes [2, 3], .int 4]) ∧
    deserialize (beforeBranch.codec 1 0) ⟨[1, 2, 3, 4], 32⟩ [] = .error .eos :=
  ⟨rfl, by decide +kernel, by
    simp [Schema.Canonical, beforeBranch, obj, bytes, byte, rest, CompoundDef.Canonical, Struct.Canonical, FieldDef.Canonical, FieldDef.CanonicalValue,
      ElemType.Canonical, FieldDef.isUsed, Demo.field, notZero, Bind.bind, Except.bind, AllIndexed, Val.asInt, Val.params, evalArgs],
    by decide +kernel⟩

/-- **Deviation.** The same for arrays of structures with implicit arrays; another object is read. -/
theorem C83_inElements_deviates :
    compile true inElements (fun f => if f.array.isSome then some 2 else none) 3 [0, 1] = some (.ok ()) ∧
    serialize (inElements.codec 2 0) (obj [.arr [obj [bytes [1]], obj [bytes [2]]]]) =
      .ok (⟨[1, 2], 16⟩, obj [.arr [obj [bytes [1]], obj [bytes [2]]]]) ∧
    inElements.Canonical 2 0 (obj [.arr [obj [bytes [1]], obj [bytes [2]]]]) ∧
    deserialize (inElements.codec 2 0) ⟨[1, 2], 16⟩ [] = .ok (obj [.arr [obj [bytes [1, 2]], obj [bytes []]]]) :=
  ⟨rfl, by decide +kernel, by
    simp [Schema.Canonical, inElements, obj, bytes, byte, rest, CompoundDef.Canonical, Struct.Canonical, FieldDef.Canonical, FieldDef.CanonicalValue,
      ElemType.Canonical, FieldDef.isUsed, Demo.field, notZero, Bind.bind, Except.bind, AllIndexed, Val.asInt, Val.params, evalArgs],
    by decide +kernel⟩

end Zserio
