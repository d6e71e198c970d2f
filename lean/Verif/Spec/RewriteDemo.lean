import Verif.Spec.Rewrite
/-
Schemas used in the examples beside the theorems on writing again what has been read:

```
enum uint8 Color { RED = 1, GREEN = 7, removed BLUE = 9 };
struct Empty {};
struct Main { uint8 n; varuint x; Color colors[n - 1]; optional float32 f; extend uint8 z; extend Empty e; };
struct Pair { varuint x; Color color; };

struct Directory { uint32 off; varuint x; off: uint8 y; };
struct Packed { packed uint8 a[2]; };
```
-/
namespace Zserio.RewriteDemo

/-- `n - 1` -/
def lengthOfColors : Expr Int := fun env => match env.fields[0]? with
  | some v => do let n ← v.asInt; .ok (n - 1)
  | none => .error .type

/-- `struct Main` -/
def main : CompoundDef := .struct [
  { type := .int (.bitField 8), packable := true },
  { type := .int (.var .varuint), packable := true },
  { type := .enum ⟨.bitField 8, [1, 7, 9], [9]⟩, array := some ⟨.fixed lengthOfColors, false⟩, packable := true },
  { type := .other .float32, optional := .auto },
  { type := .int (.bitField 8), extended := true, default := .int 0, packable := true },
  { type := .compound 1 [], extended := true, default := .obj [] 0 0 [], packable := true }]

/-- `struct Pair` -/
def pair : CompoundDef := .struct [
  { type := .int (.var .varuint), packable := true },
  { type := .enum ⟨.bitField 8, [1, 7, 9], [9]⟩, packable := true }]

/-- `Main`, `Empty` and `Pair` -/
def schema : Schema
  | 0 => main
  | 1 => .struct []
  | _ => pair

/-- `Empty` and `Pair` have no extended fields -/
def closed : Nat → Bool
  | 0 => false
  | _ => true

/-- `Directory` and `Packed` -/
def others : Schema
  | 0 => .struct [
    { type := .int (.bitField 32) },
    { type := .int (.var .varuint), packable := true },
    { type := .int (.bitField 8), offset := some ⟨0, false⟩, packable := true }]
  | _ => .struct [
    { type := .int (.bitField 8), array := some ⟨.fixed (fun _ => .ok 2), true⟩, packable := true }]

end Zserio.RewriteDemo
