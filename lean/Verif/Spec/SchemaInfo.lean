import Verif.Model.SchemaInfo
import Verif.Spec.Rebuild
import Verif.Spec.Rewrite
import Verif.Spec.Valid
import Verif.Spec.JsonReader
import Verif.Spec.Walker
import Verif.Spec.Bitmask
/-
Vocabulary for the type infos of the classes of a schema.
-/
namespace Zserio

/-- The default value of an extended field, as it is stored (Structure.py.ftl:22-34): an array is empty, or `None` if it is optional;
anything else is `None` or a value of its type. -/
def FieldDef.ProperDefault (f : FieldDef) (t : TypeInfo) : Prop :=
  match f.array with
  | some _ => f.default = .arr [] ∨ (f.default = .none ∧ f.optional ≠ .required)
  | none => f.default = .none ∨ ((∀ id, t ≠ .compound id) ∧ Json.Proper t f.default)

/-- What the compiler guarantees about the names and classes of a schema. -/
structure Labels.Rules (L : Labels) (defs : Schema) : Prop where
  /-- the fields of a compound have different names, which are identifiers -/
  distinct : ∀ (id i j : Nat), i < (defs id).fieldDefs.length → j < (defs id).fieldDefs.length → L.name id i = L.name id j → i = j
  identifiers : ∀ (id i : Nat), i < (defs id).fieldDefs.length → Json.Identifier (L.name id i)
  /-- the class of an enumeration field has the items of the enumeration, whose names are identifiers and differ -/
  enums : ∀ (id k : Nat) (f : FieldDef) (e : EnumDef), (defs id).fieldDefs[k]? = some f → f.type = .enum e →
    (L.enumClass id k).items.map EnumItem.value = e.items ∧ Json.Names ((L.enumClass id k).items.map EnumItem.name)
  /-- the class of a bitmask field has the same underlying type, which is unsigned; the names of its values are identifiers and
  differ -/
  masks : ∀ (id k : Nat) (f : FieldDef) (t : IntKind), (defs id).fieldDefs[k]? = some f → f.type = .bitmask t →
    (L.bitmask id k).underlying = t ∧ (L.bitmask id k).width.isSome ∧ Json.Names ((L.bitmask id k).values.map Prod.fst)
  /-- a compound is instantiated with as many arguments as it has parameters -/
  arity : ∀ (id : Nat) (f : FieldDef) (cid : Nat) (args : List (Expr Int)), (defs id).HasField f → f.type = .compound cid args →
    args.length = L.numParams cid
  /-- arguments of types do not depend on which extended fields of an object are present -/
  blind : ∀ (id : Nat) (f : FieldDef), (defs id).HasField f → ∀ e ∈ f.type.args, ∀ env env' : Env, env.eraseExt = env'.eraseExt →
    e env = e env'
  /-- extended fields have proper default values -/
  default : ∀ (id k : Nat) (f : FieldDef), (defs id).fieldDefs[k]? = some f → f.extended = true →
    f.ProperDefault (f.type.info (L.enumClass id k) (L.bitmask id k))

/-- no compound has extended fields, no choice has empty cases -/
structure Schema.Whole (defs : Schema) : Prop where
  extended : ∀ id f, (defs id).HasField f → f.extended = false
  cases : ∀ id selector cases default, defs id = .choice selector cases default →
    (∀ k ∈ cases, k.field ≠ none) ∧ default ≠ some none

/-- The floating point numbers in the object are not NaNs, and the bitmasks are within their bounds. -/
def Tame (I : TypeInfos) (id : Nat) (o : Val) : Prop :=
  (∀ p m x, HasNode I (.root id o) p (.item m (.float x)) → x.toNat % 2 ^ 63 ≤ 2047 * 2 ^ 52) ∧
  ∀ p m d x, HasNode I (.root id o) p (.item m (.int x)) → m.type = .bitmask d → 0 ≤ x ∧ d.lowerBound ≤ x ∧ x ≤ d.upperBound

/-- the same for the floating point numbers only -/
def NoNaN (I : TypeInfos) (id : Nat) (o : Val) : Prop :=
  ∀ p m x, HasNode I (.root id o) p (.item m (.float x)) → x.toNat % 2 ^ 63 ≤ 2047 * 2 ^ 52

end Zserio
