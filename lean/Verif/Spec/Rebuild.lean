import Verif.Spec.Creator
import Verif.Model.Walker
/-
The objects of a compound type, and the calls of a tree creator which correspond to the events of a walk.
-/
namespace Zserio

/-- the call of the tree creator for an event -/
def Event.call : Event → Creator.Call
  | .beginRoot _ => .beginRoot
  | .endRoot _ => .endRoot
  | .beginArray _ m => .beginArray m.schemaName
  | .endArray _ _ => .endArray
  | .beginCompound _ m none => .beginCompound m.schemaName
  | .beginCompound _ _ (some _) => .beginCompoundElement
  | .endCompound _ _ none => .endCompound
  | .endCompound _ _ (some _) => .endCompoundElement
  | .visitValue v m none => .setValue m.schemaName v
  | .visitValue v _ (some _) => .addValueElement v

mutual

/-- The value without the numbers of the extended fields which are present, and with `None` for missing attributes. -/
def Val.eraseExt : Val → Val
  | .unset => .none
  | .arr xs => .arr (eraseExts xs)
  | .obj ps _ tag fs => .obj ps 0 tag (eraseExts fs)
  | v => v

def Val.eraseExts : List Val → List Val
  | [] => []
  | x :: xs => x.eraseExt :: eraseExts xs

end

/-- the same for what expressions see -/
def Env.eraseExt (env : Env) : Env := { env with fields := env.fields.map Val.eraseExt }

/-- Where a value is: a whole object of a compound type with its parameters, a field, or the single value of a field or of an
element of an array field. -/
inductive Place where
  | object (id : Nat) (params : List Int)
  | field (m : MemberInfo) (env : Env)
  | item (m : MemberInfo) (env : Env)

/-- The value has the type the schema asks for, in all its parts.  `complete`: all extended fields are present, and no attribute is
missing.  (An object of a choice which was read from a stream has no attribute `_choice` if the case is empty.) -/
inductive Fits (I : TypeInfos) (complete : Prop) : Place → Val → Prop where
  | struct {id : Nat} {ps : List Int} {k : Nat} {fs : List Val} : (I id).kind = .struct → ps.length = (I id).numParams →
    fs.length = (I id).fields.length → (complete → k = (I id).initialExtended) →
    (∀ (i : Nat) (m : MemberInfo) (v : Val), (I id).fields[i]? = some m → fs[i]? = some v →
      Fits I complete (.field m ⟨ps, fs.take i, 0⟩) v) →
    Fits I complete (.object id ps) (.obj ps k 0 fs)
  | union {id : Nat} {ps : List Int} {i : Nat} {m : MemberInfo} {v : Val} : (I id).kind = .union → ps.length = (I id).numParams →
    (I id).fields[i]? = some m → Fits I complete (.field m ⟨ps, [], 0⟩) v → Fits I complete (.object id ps) (.obj ps 0 (i : Int) [v])
  | undefined {id : Nat} {ps : List Int} : (I id).kind = .union → ps.length = (I id).numParams →
    Fits I complete (.object id ps) (.obj ps 0 UNDEFINED_CHOICE [.none])
  | choice {id : Nat} {ps : List Int} {tag : List Int → Except Err Int} {i : Nat} {m : MemberInfo} {v : Val} :
    (I id).kind = .choice tag → ps.length = (I id).numParams → tag ps = .ok (i : Int) → (I id).fields[i]? = some m →
    Fits I complete (.field m ⟨ps, [], 0⟩) v → Fits I complete (.object id ps) (.obj ps 0 0 [v])
  | noChoice {id : Nat} {ps : List Int} {tag : List Int → Except Err Int} {v : Val} : (I id).kind = .choice tag →
    ps.length = (I id).numParams → tag ps = .ok UNDEFINED_CHOICE → v = .none ∨ v = .unset → (complete → v = .none) →
    Fits I complete (.object id ps) (.obj ps 0 0 [v])
  | array {m : MemberInfo} {env : Env} {xs : List Val} : m.isArray = true →
    (∀ (i : Nat) (x : Val), xs[i]? = some x → Fits I complete (.item m { env with index := i }) x) →
    Fits I complete (.field m env) (.arr xs)
  | noArray {m : MemberInfo} {env : Env} : m.isArray = true → m.optional = true → Fits I complete (.field m env) .none
  | single {m : MemberInfo} {env : Env} {x : Val} : m.isArray = false → Fits I complete (.item m env) x →
    Fits I complete (.field m env) x
  | none {m : MemberInfo} {env : Env} : Fits I complete (.item m env) .none
  | simple {m : MemberInfo} {env : Env} {x : Val} : (∀ id, m.type ≠ .compound id) → Creator.isInstance m.type x = true →
    Fits I complete (.item m env) x
  | compound {m : MemberInfo} {env : Env} {id : Nat} {ps : List Int} {x : Val} : m.type = .compound id →
    evalArgs m.args env = .ok ps → Fits I complete (.object id ps) x → Fits I complete (.item m env) x

/-- What the compiler guarantees about the type infos: fields are numbered, their names differ, a structure has a default value
for every field, an extended field is one of the extended fields, and type arguments do not depend on which extended fields are
present. -/
structure TypeInfos.Regular (I : TypeInfos) : Prop where
  numbered : ∀ (id k : Nat) (m : MemberInfo), (I id).fields[k]? = some m → m.prop = k
  names : ∀ id, ((I id).fields.map MemberInfo.schemaName).Nodup
  defaults : ∀ id, (I id).kind = .struct → (I id).defaults.length = (I id).fields.length
  extended : ∀ (id : Nat) (m : MemberInfo) (i : Nat), m ∈ (I id).fields → m.extIndex = some i → i < (I id).initialExtended
  args : ∀ (id : Nat) (m : MemberInfo), m ∈ (I id).fields → ∀ e ∈ m.args, ∀ env env' : Env, env.eraseExt = env'.eraseExt →
    e env = e env'

end Zserio
