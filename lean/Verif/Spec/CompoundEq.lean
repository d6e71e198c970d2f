import Verif.Model.CompoundEq
/-
Notions used in the statements on `__eq__` and `__hash__` of generated objects.
-/
namespace Zserio

mutual
/-- all floats stored in a value, also in the elements of arrays and the fields of objects -/
def Val.floats : Val → List PyFloat
  | .float x => [x]
  | .arr xs => Val.floatsList xs
  | .obj _ _ _ vs => Val.floatsList vs
  | _ => []
/-- all floats stored in the values of a list -/
def Val.floatsList : List Val → List PyFloat
  | [] => []
  | v :: vs => v.floats ++ Val.floatsList vs
end

/-- the bits of `-0.0` -/
def negativeZero : PyFloat := 0x8000000000000000

/-- no float of the value is `-0.0` -/
def Val.NoNegativeZero (v : Val) : Prop := ∀ x ∈ v.floats, x ≠ negativeZero

/-- no float of the value is a NaN -/
def Val.NoNaN (v : Val) : Prop := ∀ x ∈ v.floats, x.toNat % 2 ^ 63 ≤ 0x7FF0000000000000

/-- Optional clauses depend only on what `__eq__` compares: if the fields before a field with a clause compare equal (and so do the
parameters), its clause has the same result in both objects.  A clause which reads an earlier optional field without testing
whether it is used is not stable. -/
def Schema.StableClauses (defs : Schema) (kinds : Nat → List ParamKind) (n : Nat) : Prop :=
  ∀ id fs, defs id = .struct fs → ∀ i f e, fs[i]? = some f → f.optional = .clause e →
    ∀ m < n, ∀ params k l vs us,
      Struct.eq (defs.eqHash kinds m) params k l (Struct.base fs) (fs.take i) [] [] vs us = .ok true →
      e ⟨params, vs, 0⟩ = e ⟨params, us, 0⟩

/-- a field of a type whose values are integers or booleans and which every object has -/
def FieldDef.Plain (f : FieldDef) : Prop :=
  f.optional = .required ∧ f.extended = false ∧ f.array = none ∧
    ((∃ k, f.type = .int k) ∨ (∃ s len, f.type = .dynBits s len) ∨ (∃ e, f.type = .enum e) ∨ (∃ k, f.type = .bitmask k) ∨
      f.type = .other .bool)

/-- All optional clauses depend only on parameters and on earlier fields which are not optional and hold integers or booleans.
This is what schemas usually contain. -/
def Schema.PlainClauses (defs : Schema) : Prop :=
  ∀ id fs, defs id = .struct fs → ∀ i f e, fs[i]? = some f → f.optional = .clause e →
    ∀ params (vs us : List Val), vs.length = i → us.length = i →
      (∀ j g, j < i → fs[j]? = some g → g.Plain → vs[j]? = us[j]?) → e ⟨params, vs, 0⟩ = e ⟨params, us, 0⟩

/-- Fields of unions and choices cannot be optional: the grammar has no `optional` and no clause there (ZserioParser.g4:162-180
`choiceFieldDefinition`, `unionFieldDefinition`). -/
def Schema.RequiredMembers (defs : Schema) : Prop :=
  (∀ id fs, defs id = .union fs → ∀ f ∈ fs, f.optional = .required) ∧
  (∀ id selector cases default, defs id = .choice selector cases default →
    (∀ k ∈ cases, ∀ f, k.field = some f → f.optional = .required) ∧ (∀ f, default = some (some f) → f.optional = .required))

end Zserio
