import Verif.Lemmas.RemoteRun
import Verif.Lemmas.ValEq
set_option linter.unusedSimpArgs false
/-
C94: offsets which are fields of other objects.
-/
namespace Zserio.Remote

/-! ## Examples -/
namespace Demo
deriving instance DecidableEq for Value, Slot, Obj

/-- an unsigned integer -/
def uint (n : Nat) : RType := .leaf (.int (.bitField n))

/-- `lengthof(values) > 1` -/
def moreUsed (h : Heap) (a : Nat) : Except Err Bool :=
  match h.slot a 1 with
  | .ok (.many vs) => .ok (decide (1 < vs.length))
  | .ok (.one _) => .error .type
  | .error e => .error e

/-- the check of `more < 9` -/
def moreCheck (h : Heap) (a : Nat) : Except Err Unit :=
  match h.slot a 2 with
  | .ok (.one (.leaf (.int v))) => if v < 9 then .ok () else .error .constraint
  | _ => .error .type

/--
```
struct Header { uint32 offset; };
struct Block(Header header) { bit:4 kind; header.offset: uint8 data[]; };
struct File
{
    uint16 offsets[]; Header headers[]; Header last; offsets[@index]: Block(headers[@index]) blocks[];
    optional uint8 extra; last.offset: uint8 end;
};
struct Pair { Item a; Item b; };
struct Item { uint32 offset; offset: uint8 value; };
struct Shared { Header header; Block(header) blocks[]; };
struct Sized(uint32 size) { uint8 value; };
struct Holder { Sized(3) sized; sized.size: uint8 value; };
struct Indexed { Header headers[]; headers[@index].offset: uint8 values[]; uint8 more if lengthof(values) > 1 : more < 9; };
```
-/
def schema : Classes
  | 0 => ⟨[], [{ type := uint 32 }]⟩
  | 1 => ⟨[.compound 0], [{ type := uint 4 }, { type := uint 8, array := some true, offset := some (.dot (.param 0) 0) }]⟩
  | 2 => ⟨[], [{ type := uint 16, array := some true }, { type := .compound 0, array := some true }, { type := .compound 0 },
      { type := .compound 1, array := some true, offset := some (.element (.field 0)) },
      { type := uint 8, optional := .auto }, { type := uint 8, offset := some (.dot (.field 2) 0) }]⟩
  | 3 => ⟨[], [{ type := .compound 4 }, { type := .compound 4 }]⟩
  | 4 => ⟨[], [{ type := uint 32 }, { type := uint 8, offset := some (.field 0) }]⟩
  | 5 => ⟨[], [{ type := .compound 0 }, { type := .compound 1, array := some true }]⟩
  | 8 => ⟨[], [{ type := .compound 0, array := some true },
      { type := uint 8, array := some true, offset := some (.dot (.element (.field 0)) 0) },
      { type := uint 8, optional := .clause moreUsed, checks := moreCheck }]⟩
  | _ => ⟨[], []⟩

/-- the same with `Sized` and `Holder` -/
def sized : Classes
  | 0 => ⟨[uint 32], [{ type := uint 8 }]⟩
  | 1 => ⟨[], [{ type := .compound 0 }, { type := uint 8, offset := some (.dotParam (.field 0) 0) }]⟩
  | _ => ⟨[], []⟩

/-- an integer in an attribute -/
def int (v : Int) : Slot := .one (.leaf (.int v))
/-- a list of integers -/
def ints (vs : List Int) : Slot := .many (vs.map fun v => .leaf (.int v))

/-- a `File` with two blocks, with `o1`, … for all offsets -/
def file (o1 o2 o3 o4 o5 : Int) : Heap := [
  ⟨2, [], [ints [o1, o2], .many [.ref 1, .ref 2], .one (.ref 3), .many [.ref 4, .ref 5], .one (.leaf .none), int 7]⟩,
  ⟨0, [], [int o3]⟩, ⟨0, [], [int o4]⟩, ⟨0, [], [int o5]⟩,
  ⟨1, [.ref 1], [int 3, ints [1, 2, 3]]⟩, ⟨1, [.ref 2], [int 4, ints []]⟩]

theorem schema_rules : Rules schema := by
  refine ⟨?_, ?_, ?_, ?_⟩
  · intro c f p hf hp
    rcases c with _ | _ | _ | _ | _ | _ | _ | _ | _ | c <;> simp [schema] at hf
    · subst hf; simp at hp
    · rcases hf with rfl | rfl <;> simp at hp
      subst hp
      exact ⟨0, 0, false, { type := uint 32 }, 32, rfl, rfl, rfl, rfl, rfl⟩
    · rcases hf with rfl | rfl | rfl | rfl | rfl | rfl <;> simp at hp
      · subst hp
        exact ⟨2, 0, true, { type := uint 16, array := some true }, 16, rfl, rfl, rfl, rfl, rfl⟩
      · subst hp
        exact ⟨0, 0, false, { type := uint 32 }, 32, rfl, rfl, rfl, rfl, rfl⟩
    · subst hf; simp at hp
    · rcases hf with rfl | rfl <;> simp at hp
      subst hp
      exact ⟨4, 0, false, { type := uint 32 }, 32, rfl, rfl, rfl, rfl, rfl⟩
    · rcases hf with rfl | rfl <;> simp at hp
    · rcases hf with rfl | rfl | rfl <;> simp at hp
      subst hp
      exact ⟨0, 0, false, { type := uint 32 }, 32, rfl, rfl, rfl, rfl, rfl⟩
  · intro c f cl hf hc h g a hs
    rcases c with _ | _ | _ | _ | _ | _ | _ | _ | _ | c <;> simp [schema] at hf
    · subst hf; simp at hc
    · rcases hf with rfl | rfl <;> simp at hc
    · rcases hf with rfl | rfl | rfl | rfl | rfl | rfl <;> simp at hc
    · subst hf; simp at hc
    · rcases hf with rfl | rfl <;> simp at hc
    · rcases hf with rfl | rfl <;> simp at hc
    · rcases hf with rfl | rfl | rfl <;> simp at hc
      subst hc
      unfold moreUsed
      rcases h1 : h.slot a 1 with e | s
      · rw [hs.slot_error h1]
      · obtain ⟨s', h2, h3, _⟩ := hs.slot h1
        rw [h2]
        rcases s with v | vs <;> rcases s' with v' | vs' <;> simp_all [Slot.SameShape]
  · intro c f cl hf hc h a
    rcases c with _ | _ | _ | _ | _ | _ | _ | _ | _ | c <;> simp [schema] at hf
    · subst hf; simp at hc
    · rcases hf with rfl | rfl <;> simp at hc
    · rcases hf with rfl | rfl | rfl | rfl | rfl | rfl <;> simp at hc
    · subst hf; simp at hc
    · rcases hf with rfl | rfl <;> simp at hc
    · rcases hf with rfl | rfl <;> simp at hc
    · rcases hf with rfl | rfl | rfl <;> simp at hc
      subst hc
      unfold moreUsed
      rcases h1 : h.slot a 1 with e | s
      · have := slot_err h1
        subst this
        simp
      · rcases s with v | vs <;> simp
  · intro c f hf h a
    rcases c with _ | _ | _ | _ | _ | _ | _ | _ | _ | c <;> simp [schema] at hf
    · subst hf; simp
    · rcases hf with rfl | rfl <;> simp
    · rcases hf with rfl | rfl | rfl | rfl | rfl | rfl <;> simp
    · subst hf; simp
    · rcases hf with rfl | rfl <;> simp
    · rcases hf with rfl | rfl <;> simp
    · rcases hf with rfl | rfl | rfl <;> simp [moreCheck]
      split
      · split <;> simp
      · simp

theorem file_typed (o1 o2 o3 o4 o5 : Int) : WellTyped schema (file o1 o2 o3 o4 o5) := by
  refine ⟨?_, ?_⟩
  · intro a o i t v h1 h2 h3
    rcases a with _ | _ | _ | _ | _ | _ | a <;> simp [file] at h1
    all_goals subst h1; simp [schema] at h2 h3
    all_goals
      rcases i with _ | i <;> simp at h2 h3
      subst h2 h3
      simp [Value.Fits, Heap.hasClass, file]
  · intro a o j f s h1 h2 h3
    rcases a with _ | _ | _ | _ | _ | _ | a <;> simp [file] at h1
    all_goals subst h1; simp [schema] at h2 h3
    all_goals
      rcases j with _ | _ | _ | _ | _ | _ | j <;> simp at h2 h3
      all_goals
        subst h2 h3
        simp [Slot.Fits, Value.Fits, Heap.hasClass, file, int, ints, uint]

/-- an `Indexed` with two values -/
def indexed (o1 o2 : Int) : Heap := [
  ⟨8, [], [.many [.ref 1, .ref 2], ints [11, 12], int 6]⟩, ⟨0, [], [int o1]⟩, ⟨0, [], [int o2]⟩]

theorem indexed_typed (o1 o2 : Int) : WellTyped schema (indexed o1 o2) := by
  refine ⟨?_, ?_⟩
  · intro a o i t v h1 h2 h3
    rcases a with _ | _ | _ | a <;> simp [indexed] at h1
    all_goals subst h1; simp [schema] at h2 h3
  · intro a o j f s h1 h2 h3
    rcases a with _ | _ | _ | a <;> simp [indexed] at h1
    all_goals subst h1; simp [schema] at h2 h3
    all_goals
      rcases j with _ | _ | _ | j <;> simp at h2 h3
      all_goals
        subst h2 h3
        simp [Slot.Fits, Value.Fits, Heap.hasClass, indexed, int, ints, uint]

/-- a `Pair` of which both items are the same object -/
def sharedPair : Heap := [⟨3, [], [.one (.ref 1), .one (.ref 1)]⟩, ⟨4, [], [int 0, int 5]⟩]
/-- a `Pair` of two equal items -/
def copiedPair : Heap := [⟨3, [], [.one (.ref 1), .one (.ref 2)]⟩, ⟨4, [], [int 0, int 5]⟩, ⟨4, [], [int 0, int 5]⟩]
/-- a `Shared` with two blocks -/
def sharedHeader : Heap :=
  [⟨5, [], [.one (.ref 1), .many [.ref 2, .ref 3]]⟩, ⟨0, [], [int 0]⟩, ⟨1, [.ref 1], [int 1, ints [1]]⟩, ⟨1, [.ref 1], [int 2, ints [2]]⟩]
/-- a `Holder` -/
def holder : Heap := [⟨1, [], [.one (.ref 1), int 5]⟩, ⟨0, [.leaf (.int 3)], [int 2]⟩]

theorem sharedPair_typed : WellTyped schema sharedPair := by
  refine ⟨?_, ?_⟩
  · intro a o i t v h1 h2 h3
    rcases a with _ | _ | a <;> simp [sharedPair] at h1
    all_goals subst h1; simp [schema] at h2 h3
  · intro a o j f s h1 h2 h3
    rcases a with _ | _ | a <;> simp [sharedPair] at h1
    all_goals subst h1; simp [schema] at h2 h3
    all_goals
      rcases j with _ | _ | j <;> simp at h2 h3
      all_goals
        subst h2 h3
        simp [Slot.Fits, Value.Fits, Heap.hasClass, sharedPair, int, ints, uint]

theorem sharedHeader_typed : WellTyped schema sharedHeader := by
  refine ⟨?_, ?_⟩
  · intro a o i t v h1 h2 h3
    rcases a with _ | _ | _ | _ | a <;> simp [sharedHeader] at h1
    all_goals subst h1; simp [schema] at h2 h3
    all_goals
      rcases i with _ | i <;> simp at h2 h3
      subst h2 h3
      simp [Value.Fits, Heap.hasClass, sharedHeader]
  · intro a o j f s h1 h2 h3
    rcases a with _ | _ | _ | _ | a <;> simp [sharedHeader] at h1
    all_goals subst h1; simp [schema] at h2 h3
    all_goals
      rcases j with _ | _ | j <;> simp at h2 h3
      all_goals
        subst h2 h3
        simp [Slot.Fits, Value.Fits, Heap.hasClass, sharedHeader, int, ints, uint]

end Demo

/-! ## What `initialize_offsets` changes -/

/-- **C94.** If the offsets of a schema are required unsigned integers of a fixed size, in whatever object they are, then
`initialize_offsets` changes nothing but offsets, and of these only those which belong to the object. -/
theorem C94_changes {S : Classes} {n a p e : Nat} {h h1 : Heap} (hR : Rules S) (hw : WellTyped S h)
    (hi : (ops S n).init h a p = .ok (e, h1)) :
    Similar S h h1 ∧ ∀ l, l ∉ offsetPlaces S h n a → h1.read l = h.read l :=
  let r := (ops_law hR n).1 h a p e h1 hw.typed hi
  ⟨r.1, r.2.1⟩

/-! ## Writing after it -/

/-- **C94.** After `initialize_offsets` from a position, an object can be written at that position: the exception for a wrong offset
is not raised, and the object ends where `initialize_offsets` has said. Missing from the full claim: objects in which two values
store their offset in the same place, for which it is false (`C94_shared_object_deviates`, `C94_shared_header_deviates`). -/
theorem C94_write_partial {S : Classes} {n a p e : Nat} {h h1 : Heap} (hR : Rules S) (hw : WellTyped S h)
    (hi : (ops S n).init h a p = .ok (e, h1)) (hn : (offsetPlaces S h n a).Nodup) (b0 : List Bool) (hp : b0.length = p) :
    ((ops S n).write h1 a (Writer.ofBits b0)).1 ≠ .error .offset ∧
    ∀ w, (ops S n).write h1 a (Writer.ofBits b0) = (.ok (), w) → ∃ bits, w = Writer.ofBits (b0 ++ bits) ∧ p + bits.length = e := by
  have r := (ops_law hR n).1 h a p e h1 hw.typed hi
  obtain ⟨h2, h3⟩ := r.2.2 hn h1 r.1 (fun _ _ => rfl) b0 hp
  exact ⟨h2, fun w hw => (h3 () w hw).2⟩

/-- **C94.** `serialize` does not raise the exception for a wrong offset if each value has its own place for its offset. -/
theorem C94_serialize_partial {S : Classes} {n a : Nat} {h h1 : Heap} {r : Except Err Unit} {w : Writer} (hR : Rules S)
    (hw : WellTyped S h) (hs : serialize S n h a = .ok (r, w, h1)) (hn : (offsetPlaces S h n a).Nodup) : r ≠ .error .offset := by
  simp only [serialize] at hs
  obtain ⟨⟨e, h2⟩, hi, hs⟩ := except_bind_ok hs
  have h0 : Writer.ofBits [] = Writer.init := Writer.init_eq.symm
  have := (C94_write_partial hR hw hi hn [] rfl).1
  rw [h0] at this
  simp only [Except.ok.injEq, Prod.mk.injEq] at hs
  obtain ⟨rfl, _, rfl⟩ := hs
  exact this

-- two blocks, each with its offset in the array of offsets, and with the offset of its data in a header
example (o1 o2 o3 o4 o5 : Int) : Rules Demo.schema ∧ WellTyped Demo.schema (Demo.file o1 o2 o3 o4 o5) :=
  ⟨Demo.schema_rules, Demo.file_typed ..⟩
example : offsetPlaces Demo.schema (Demo.file 0 0 0 0 0) 3 0 =
    [⟨0, 0, some 0⟩, ⟨1, 0, none⟩, ⟨0, 0, some 1⟩, ⟨2, 0, none⟩, ⟨3, 0, none⟩] := by decide +kernel
example : (match serialize Demo.schema 3 (Demo.file 0 0 0 0 0) 0 with
    | .ok (.ok (), w, h) => decide (h = Demo.file 19 24 20 25 27 ∧
        w.bytes = [2, 0, 19, 0, 24, 2, 0, 0, 0, 20, 0, 0, 0, 25, 0, 0, 0, 27, 2, 48, 3, 1, 2, 3, 64, 0, 0, 7])
    | _ => false) = true := by decide +kernel
-- offsets in the elements of an array of headers
example (o1 o2 : Int) : WellTyped Demo.schema (Demo.indexed o1 o2) := Demo.indexed_typed ..
example : (offsetPlaces Demo.schema (Demo.indexed 0 0) 3 0).Nodup ∧ (match serialize Demo.schema 3 (Demo.indexed 0 0) 0 with
    | .ok (.ok (), w, h) => decide (h = Demo.indexed 10 11 ∧ w.bytes = [2, 0, 0, 0, 10, 0, 0, 0, 11, 2, 11, 12, 6])
    | _ => false) = true := by decide +kernel

/-- **C94** is false of an object which is in two places: its offset is set for the second place, so that writing it in the first
one raises the exception for a wrong offset. A copy of it in the second place can be written. -/
theorem C94_shared_object_deviates : Rules Demo.schema ∧ (∀ c, checkOffsets Demo.schema c = true) ∧
    WellTyped Demo.schema Demo.sharedPair ∧ (∃ w h1, serialize Demo.schema 3 Demo.sharedPair 0 = .ok (.error .offset, w, h1)) ∧
    ∃ w h1, serialize Demo.schema 3 Demo.copiedPair 0 = .ok (.ok (), w, h1) := by
  refine ⟨Demo.schema_rules, ?_, Demo.sharedPair_typed, ?_, ?_⟩
  · intro c
    rcases c with _ | _ | _ | _ | _ | _ | _ | _ | _ | c
    all_goals first | rfl | decide +kernel
  · exact ⟨_, _, rfl⟩
  · exact ⟨_, _, rfl⟩

/-- **C94** is false of an array of objects with the same parameter `header` which store their offset in it: the compiler compares
the offsets of one structure only, and the array cannot be written if it has two elements. -/
theorem C94_shared_header_deviates : Rules Demo.schema ∧ (∀ c, checkOffsets Demo.schema c = true) ∧
    WellTyped Demo.schema Demo.sharedHeader ∧ ∃ w h1, serialize Demo.schema 3 Demo.sharedHeader 0 = .ok (.error .offset, w, h1) :=
  ⟨Demo.schema_rules, C94_shared_object_deviates.2.1, Demo.sharedHeader_typed, ⟨_, _, rfl⟩⟩

/-! ## What the compiler checks -/

/-- **C94.** The offsets of a schema which the compiler accepts are unsigned integers with a fixed number of bits, which are a field,
an element of an array, or a parameter of another object. -/
theorem C94_accepted {S : Classes} {c : Nat} (hc : checkOffsets S c = true) {f : RField} {p : Path} (hf : f ∈ (S c).fields)
    (ho : f.offset = some p) : (p.containsIndex = true → f.array.isSome = true) ∧
      ((∃ d j indexed t n, p.place S c = some (.slot d j indexed) ∧ (S d).fields[j]? = some t ∧
          t.type = .leaf (.int (.bitField n)) ∧ t.array.isSome = indexed) ∨
        ∃ q i, p = .dotParam q i) := by
  simp only [checkOffsets, Bool.and_eq_true, List.all_eq_true] at hc
  have h1 := hc.1 f hf
  rw [ho] at h1
  simp only [Bool.and_eq_true, checkIndex, checkOffsetExpression, Bool.or_eq_true, Bool.not_eq_true'] at h1
  obtain ⟨⟨h1, h2⟩, h3⟩ := h1
  refine ⟨fun h4 => h3.resolve_left (by simp [h4]), ?_⟩
  rcases hp : p.place S c with _ | pl
  · rw [hp] at h1; simp at h1
  · rw [hp] at h1
    simp only [Option.bind_some] at h1
    rcases pl with ⟨d, i⟩ | ⟨d, j, ix⟩
    · right
      cases p with
      | param i => simp at h2
      | dotParam q i => exact ⟨q, i, rfl⟩
      | field j => simp [Path.place] at hp
      | dot q j =>
        simp only [Path.place, Option.map_eq_some_iff] at hp
        obtain ⟨_, _, hp⟩ := hp
        simp at hp
      | element q =>
        simp only [Path.place] at hp
        split at hp <;> simp at hp
    · left
      simp only [Place.type] at h1
      rcases ht : (S d).fields[j]? with _ | t
      · rw [ht] at h1; simp at h1
      · rw [ht] at h1
        simp only at h1
        by_cases hix : t.array.isSome = ix
        · rw [if_pos hix] at h1
          split at h1
          · rename_i n hn
            exact ⟨d, j, ix, t, n, rfl, ht, by simpa using hn, hix⟩
          · simp at h1
        · rw [if_neg hix] at h1
          simp at h1

example : ∀ c, checkOffsets Demo.schema c = true := C94_shared_object_deviates.2.1
-- two fields with the same offset, an array as offset, a signed type, a parameter
example : checkOffsets (fun _ => ⟨[Demo.uint 8], [{ type := Demo.uint 8 }, { type := Demo.uint 8, offset := some (.field 0) },
    { type := Demo.uint 8, offset := some (.field 0) }]⟩) 0 = false := by decide +kernel
example : checkOffsets (fun _ => ⟨[Demo.uint 8], [{ type := Demo.uint 8, array := some true },
    { type := Demo.uint 8, offset := some (.field 0) }]⟩) 0 = false := by decide +kernel
example : checkOffsets (fun _ => ⟨[Demo.uint 8], [{ type := .leaf (.int (.signedBitField 8)) },
    { type := Demo.uint 8, offset := some (.field 0) }]⟩) 0 = false := by decide +kernel
example : checkOffsets (fun _ => ⟨[Demo.uint 8], [{ type := Demo.uint 8, offset := some (.param 0) }]⟩) 0 = false := by decide +kernel

/-- **C94.** The compiler accepts the parameter of another object as an offset, but the generated code never sets it. -/
theorem C94_parameter {h h1 : Heap} {self index pos : Nat} {q : Path} {i : Nat}
    (hs : (Path.dotParam q i).set h self index pos = .ok h1) : h1 = h := by
  simp only [Path.set] at hs
  obtain ⟨v, _, hs⟩ := except_bind_ok hs
  simp only [Path.isParam, if_true] at hs
  obtain ⟨v, _, hs⟩ := except_bind_ok hs
  exact (Except.ok.inj hs).symm

/-- **C94** is false of such an offset: the exception for a wrong offset is raised after `initialize_offsets`. -/
theorem C94_parameter_deviates : (∀ c, checkOffsets Demo.sized c = true) ∧
    (∃ w, serialize Demo.sized 3 Demo.holder 0 = .ok (.error .offset, w, Demo.holder)) := by
  refine ⟨?_, ⟨_, rfl⟩⟩
  intro c
  rcases c with _ | _ | c
  all_goals first | rfl | decide +kernel

/-! ## The text of the setter -/

theorem format_inDot (a : Bool) : ∀ p, format true true a p = format false true a p
  | .param _ => rfl
  | .field _ => by simp [format]
  | .dot q _ => by simp [format, format_inDot a q]
  | .dotParam q _ => by simp [format, format_inDot a q]
  | .element q => by simp [format, format_inDot true q]

theorem format_no_assign : ∀ (p : Path) (d a : Bool), Tok.assign ∉ format false d a p
  | .param _, _, _ => by simp [format]
  | .field _, _, _ => by simp [format]
  | .dot q _, d, a => by simp [format, format_no_assign q]
  | .dotParam q _, d, a => by simp [format, format_no_assign q]
  | .element q, d, a => by simp [format, format_no_assign q]

/-- **C94.** The setter of an offset is the getter followed by one assignment, at its end; only that of a parameter has no
assignment. The getter has none. -/
theorem C94_setter {S : Classes} {c : Nat} {p : Path} {pl : Place} (hp : p.place S c = some pl) :
    format true false false p = format false false false p ++ (if p.isParam then [] else [.assign]) ∧
      .assign ∉ format false false false p := by
  cases p with
  | param i => simp [format, Path.isParam]
  | field j => simp [format, Path.isParam]
  | dot q j =>
    simp only [format, format_inDot, Path.isParam, Bool.not_false, Bool.and_true, Bool.true_and, if_true, Bool.false_eq_true, if_false,
      Bool.false_and, List.append_nil]
    refine ⟨trivial, ?_⟩
    simp [format_no_assign]
  | dotParam q j =>
    simp only [format, format_inDot, Path.isParam, if_true, List.append_nil]
    refine ⟨trivial, ?_⟩
    simp [format_no_assign]
  | element q =>
    refine ⟨?_, format_no_assign _ _ _⟩
    simp only [format, Path.isParam]
    simp only [Path.place] at hp
    split at hp
    · rename_i d j hq
      have : format true false true q = format false false true q := by
        cases q with
        | param i => simp [Path.place] at hq
        | dotParam q' i =>
          simp only [Path.place, Option.map_eq_some_iff] at hq
          obtain ⟨_, _, hq⟩ := hq
          simp at hq
        | field i => simp [format]
        | dot q' i => simp [format, format_inDot]
        | element q' =>
          simp only [Path.place] at hq
          split at hq <;> simp at hq
      rw [this]
      simp
    · simp at hp

-- `headers[@index].offset`
example : (Path.dot (.element (.field 0)) 0).place Demo.schema 8 = some (.slot 0 0 false) := rfl
example : format true false false (.dot (.element (.field 0)) 0) =
    [.self, .dot, .fieldName 0, .lbracket, .index, .rbracket, .dot, .fieldName 0, .assign] := rfl
example : format true false false (.element (.dot (.param 0) 2)) =
    [.self, .dot, .paramName 0, .dot, .fieldName 2, .lbracket, .index, .rbracket, .assign] := rfl

end Zserio.Remote
