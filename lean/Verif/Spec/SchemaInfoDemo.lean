import Verif.Spec.SchemaInfo
/-
Schemas used in the examples beside the theorems on type infos:

```
enum uint8 Color { RED = 1, removed BLUE = 9 };
bitmask uint8 Rights { READ = 1, WRITE = 2 };
choice Shape(uint8 kind) on kind { case 1: uint8 radius; default: string label; };
struct Main { uint8 kind; Color color; Rights rights; float32 ratio; optional Shape(kind) shape; Color colors[]; bit<kind> bits; };

choice Gap(uint8 kind) on kind { case 1: uint8 radius; case 2: ; };
struct Mask { packed Rights masks[3]; };
struct Number { float64 x; };
struct Longer { uint8 a; extend string b; };
```
-/
namespace Zserio.InfoDemo

/-- `kind` -/
def kind : Expr Int := fun env => match env.fields[0]? with
  | some v => v.asInt
  | none => .error .type

/-- the parameter -/
def param : Expr Int := fun env => match env.params[0]? with
  | some v => .ok v
  | none => .error .type

/-- `enum Color` -/
def color : EnumClass := ⟨.bitField 8, [⟨py! "RED", 1, false, false⟩, ⟨py! "BLUE", 9, false, true⟩]⟩

/-- `bitmask Rights` -/
def rights : BitmaskDef := ⟨.bitField 8, [(py! "READ", 1), (py! "WRITE", 2)]⟩

/-- `Main` and `Shape` -/
def schema : Schema
  | 0 => .struct [
    { type := .int (.bitField 8), packable := true },
    { type := .enum ⟨.bitField 8, [1, 9], [9]⟩, packable := true },
    { type := .bitmask (.bitField 8), packable := true },
    { type := .other .float32 },
    { type := .compound 1 [kind], optional := .auto, packable := true },
    { type := .enum ⟨.bitField 8, [1, 9], [9]⟩, array := some ⟨.auto, false⟩, packable := true },
    { type := .dynBits false kind, packable := true }]
  | _ => .choice param [⟨[1], some { type := .int (.bitField 8), packable := true }⟩] (some (some { type := .other .string }))

/-- the names of the fields of `Main` and `Shape` -/
def names : Nat → List PyStr
  | 0 => [py! "kind", py! "color", py! "rights", py! "ratio", py! "shape", py! "colors", py! "bits"]
  | _ => [py! "radius", py! "label"]

/-- what type infos tell about `Main` and `Shape` -/
def labels : Labels := ⟨fun id k => (names id).getD k [], fun _ _ => color, fun _ _ => rights, fun id => if id = 0 then 0 else 1⟩

/-- `Gap`, `Mask`, `Number` and `Longer` -/
def others : Schema
  | 0 => .choice param [⟨[1], some { type := .int (.bitField 8), packable := true }⟩, ⟨[2], none⟩] none
  | 1 => .struct [{ type := .bitmask (.bitField 8), array := some ⟨.fixed fun _ => .ok 3, true⟩, packable := true }]
  | 2 => .struct [{ type := .other .float64 }]
  | _ => .struct [{ type := .int (.bitField 8), packable := true }, { type := .other .string, extended := true, default := .str [] }]

/-- the names of the fields of `Gap`, `Mask`, `Number` and `Longer` -/
def otherNames : Nat → List PyStr
  | 0 => [py! "radius"]
  | 1 => [py! "masks"]
  | 2 => [py! "x"]
  | _ => [py! "a", py! "b"]

/-- what type infos tell about `Gap`, `Mask`, `Number` and `Longer` -/
def otherLabels : Labels :=
  ⟨fun id k => (otherNames id).getD k [], fun _ _ => color, fun _ _ => rights, fun id => if id = 0 then 1 else 0⟩

end Zserio.InfoDemo
