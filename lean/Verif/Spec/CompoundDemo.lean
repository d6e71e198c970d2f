import Verif.Spec.Compound
/-
A schema used in the examples beside the theorems on generated compounds:

```
struct Item(int32 p) { bit:7 x; varint32 y if p > 3; };
union Any { bit:5 small; string text; Item(5) item; };
choice Sel(int32 p) on p { case 1: case 2: string text; case 3: ; default: varuint number; };
enum uint8 Color { RED = 1, GREEN = 7, removed BLUE = 9 };
struct Main(int32 q)
{
    uint8 n; uint32 off; optional bool flag; Color color : color != Color.GREEN;
    packed Item(@index) items[]; align(4): int16 fixed[n];
    off: Any any; Sel(n) sel; float32 f; extern e;
};
struct Open { uint8 n; implicit bit:4 rest[]; };
struct Versioned { bit:3 a; extend string b; extend uint16 c; };
struct Indexed { bit:1 pad; uint32 offsets[3]; offsets[@index]: Item(5) items[3]; };
struct Versioned1 { bit:3 a; extend string b; };  // Versioned before c was added
```
-/
namespace Zserio.Demo

/-- an expression that is a parameter -/
def param (i : Nat) : Expr Int := fun env => match env.params[i]? with
  | some v => .ok v
  | none => .error .type

/-- an expression that is a field -/
def field (i : Nat) : Expr Int := fun env => match env.fields[i]? with
  | some v => v.asInt
  | none => .error .type

/-- `struct Item(int32 p)` -/
def item : CompoundDef := .struct [
  { type := .int (.bitField 7), packable := true },
  { type := .int (.var .varint32), packable := true,
    optional := .clause (fun env => do let p ← param 0 env; .ok (decide (p > 3))) }]

/-- `union Any` -/
def any : CompoundDef := .union [
  { type := .int (.bitField 5), packable := true },
  { type := .other .string },
  { type := .compound 0 [fun _ => .ok 5], packable := true }]

/-- `choice Sel(int32 p) on p` -/
def sel : CompoundDef := .choice (param 0)
  [⟨[1, 2], some { type := .other .string }⟩, ⟨[3], none⟩]
  (some (some { type := .int (.var .varuint), packable := true }))

/-- `struct Main(int32 q)` -/
def main : CompoundDef := .struct [
  { type := .int (.bitField 8), packable := true },
  { type := .int (.bitField 32) },
  { type := .other .bool, optional := .auto },
  { type := .enum ⟨.bitField 8, [1, 7, 9], [9]⟩, packable := true,
    constraint := some (fun env => do let v ← field 3 env; .ok (decide (v ≠ 7))) },
  { type := .compound 0 [fun env => .ok env.index], array := some ⟨.auto, true⟩, packable := true },
  { type := .int (.signedBitField 16), array := some ⟨.fixed (field 0), false⟩, alignment := some 4, packable := true },
  { type := .compound 1 [], offset := some ⟨1, false⟩, packable := true },
  { type := .compound 2 [field 0], packable := true },
  { type := .other .float32 },
  { type := .other .bitBuffer }]

/-- `struct Open` -/
def opened : CompoundDef := .struct [
  { type := .int (.bitField 8), packable := true },
  { type := .int (.bitField 4), array := some ⟨.implicit, false⟩, packable := true }]

/-- `struct Versioned` -/
def versioned : CompoundDef := .struct [
  { type := .int (.bitField 3), packable := true },
  { type := .other .string, extended := true, default := .str [] },
  { type := .int (.bitField 16), extended := true, default := .int 0, packable := true }]

/-- `struct Indexed` -/
def indexed : CompoundDef := .struct [
  { type := .int (.bitField 1), packable := true },
  { type := .int (.bitField 32), array := some ⟨.fixed (fun _ => .ok 3), false⟩ },
  { type := .compound 0 [fun _ => .ok 5], array := some ⟨.fixed (fun _ => .ok 3), false⟩, offset := some ⟨1, true⟩,
    packable := true }]

/-- `struct Versioned1` -/
def versioned1 : CompoundDef := .struct [
  { type := .int (.bitField 3), packable := true },
  { type := .other .string, extended := true, default := .str [] }]

/-- the schema -/
def schema : Schema
  | 0 => item
  | 1 => any
  | 2 => sel
  | 3 => main
  | 4 => opened
  | 5 => versioned
  | 6 => indexed
  | 7 => versioned1
  | _ => .struct []

/-- which compounds tell where they end -/
def closed : Nat → Bool
  | 4 => false
  | 5 => false
  | 7 => false
  | _ => true

/-- an `Item` -/
def itemObj (p x : Int) (y : Val) : Val := .obj [p] 0 0 [.int x, y]

/-- an object of `Main` with the given offset -/
def mainObj (off : Int) : Val := .obj [42] 0 0 [
  .int 3, .int off, .none, .int 1,
  .arr [itemObj 0 100 .none, itemObj 1 101 .none, itemObj 2 90 .none, itemObj 3 7 .none, itemObj 4 127 (.int (-70000))],
  .arr [.int (-1), .int 32767, .int 5],
  .obj [] 0 2 [itemObj 5 64 (.int 1)],
  .obj [3] 0 0 [.unset],
  .float 0x3FF8000000000000,
  .bitBuffer ⟨[0xAB, 0xE0], 11⟩]

/-- an object of `Versioned` with both extended fields -/
def versionedObj : Val := .obj [] 2 0 [.int 5, .str [0x20AC, 65], .int 777]

/-- an object of `Indexed` with the given offsets -/
def indexedObj (a b c : Int) : Val := .obj [] 0 0 [.int 1, .arr [.int a, .int b, .int c],
  .arr [itemObj 5 100 (.int 1), itemObj 5 101 (.int (-70000)), itemObj 5 127 (.int 5)]]

end Zserio.Demo
