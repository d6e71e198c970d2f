import Verif.Spec.Compound
/-
Specification vocabulary for writing again what has been read: the schemas considered and the objects that cannot be written
although they can be read.
-/
namespace Zserio

/-- the field has no offset and is not a packed array -/
def FieldDef.Direct (f : FieldDef) : Prop := f.offset = none ∧ ∀ a, f.array = some a → f.packable = true → a.isPacked = false

/-- the fields of a compound -/
def CompoundDef.HasField : CompoundDef → FieldDef → Prop
  | .struct fs, f => f ∈ fs
  | .union fs, f => f ∈ fs
  | .choice _ cases default, f => (∃ k ∈ cases, k.field = some f) ∨ default = some (some f)

/-- a schema without offsets and packed arrays -/
def Schema.Direct (defs : Schema) : Prop := ∀ id f, (defs id).HasField f → f.Direct

/-- the default values of extended fields, as the constructor stores them (Structure.py.ftl:22-34): `None` for compounds; `None` or an
empty list for arrays -/
def Schema.PlainDefaults (defs : Schema) : Prop := ∀ id f, (defs id).HasField f → f.extended = true →
  (f.array.isSome = true → f.default = .none ∨ f.default = .arr []) ∧
  ∀ cid args, f.array = none → f.type = .compound cid args → f.default = .none

/-- the value is not a removed item of an enumeration -/
def ElemType.Rewritable (rewritable : Nat → Val → Prop) : ElemType → Val → Prop
  | .enum e, v => ∀ x, v = .int x → x ∉ e.removed
  | .compound id _, v => rewritable id v
  | _, _ => True

/-- the length expression of an array with a fixed length is not negative -/
def FieldDef.RewritableValue (rewritable : Nat → Val → Prop) (f : FieldDef) (env : Env) (v : Val) : Prop :=
  match f.array with
  | none => f.type.Rewritable rewritable v
  | some a => (∀ length n, a.kind = .fixed length → length env = .ok n → 0 ≤ n) ∧
      ∀ xs, v = .arr xs → ∀ x ∈ xs, f.type.Rewritable rewritable x

/-- only fields that are used are written -/
def FieldDef.Rewritable (rewritable : Nat → Val → Prop) (f : FieldDef) (env : Env) (v : Val) : Prop :=
  f.isUsed env v = .ok true → f.RewritableValue rewritable env v

/-- present extended fields take at least one bit; those that are not present are not written -/
def Struct.Rewritable (codecs : Nat → Codec) (rewritable : Nat → Val → Prop) (params : List Int) (numExt base : Nat) :
    List FieldDef → (prior : List Val) → List Val → Prop
  | [], _, [] => True
  | f :: fs, prior, v :: vs =>
    ((f.extended && !isPresent numExt base prior.length) = false → f.Rewritable rewritable ⟨params, prior, 0⟩ v) ∧
    (f.extended = true → isPresent numExt base prior.length = true → ∀ p e c c',
      f.bitsizeofOptional codecs ⟨params, prior, 0⟩ (prior.length + 1) none c p v = .ok (e, c') → p < e) ∧
    Struct.Rewritable codecs rewritable params numExt base fs (prior ++ [v]) vs
  | _, _, _ => True

/-- the objects of a compound -/
def CompoundDef.Rewritable (codecs : Nat → Codec) (rewritable : Nat → Val → Prop) : CompoundDef → Val → Prop
  | .struct fs, .obj ps k _ vs => Struct.Rewritable codecs rewritable ps k (Struct.base fs) fs [] vs
  | .union fs, .obj ps _ tag [v] => ∀ f, Union.select fs tag = .ok f → f.Rewritable rewritable ⟨ps, [], 0⟩ v
  | .choice selector cases default, .obj ps _ _ [v] => ∀ f slot, Choice.select selector cases default ps = .ok (some f, slot) →
      f.Rewritable rewritable ⟨ps, [], 0⟩ v
  | _, _ => True

/-- **Objects which can be written again** after they have been read: nowhere in the object there is a removed enumeration item,
an array with a negative length expression or a present extended field without any bits. -/
def Schema.Rewritable (defs : Schema) : (n : Nat) → (id : Nat) → Val → Prop
  | 0, _, _ => True
  | n + 1, id, x => (defs id).Rewritable (defs.codec n) (defs.Rewritable n) x

end Zserio
