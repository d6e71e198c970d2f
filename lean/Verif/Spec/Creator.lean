import Verif.Model.Creator
/-
The sequences of calls which build an object tree.
-/
namespace Zserio
namespace Creator

/-- `m` is the first field with this name. -/
def FieldNamed (fields : List MemberInfo) (name : PyStr) (m : MemberInfo) : Prop :=
  ∃ l r, fields = l ++ m :: r ∧ m.schemaName = name ∧ ∀ m' ∈ l, m'.schemaName ≠ name

/-- What is under construction: an object `o` of the compound type `id`, or the array field `m` of the object `parent` of the
compound type `pid` with the elements `xs` so far. -/
inductive Frame where
  | compound (id : Nat) (o : Val)
  | array (m : MemberInfo) (pid : Nat) (parent : Val) (xs : List Val)

/-- `Builds I f calls f'`: the calls are well nested, match the schema and lead from `f` to `f'`. -/
inductive Builds (I : TypeInfos) : Frame → List Call → Frame → Prop where
  | nil {f : Frame} : Builds I f [] f
  /-- a simple value or `None` -/
  | value {id : Nat} {o o₁ v : Val} {m : MemberInfo} {name : PyStr} {cs : List Call} {f : Frame} :
    FieldNamed (I id).fields name m → v = .none ∨ m.isArray = false ∧ isInstance m.type v = true → (I id).setAttr o m v = .ok o₁ →
    Builds I (.compound id o₁) cs f → Builds I (.compound id o) (.setValue name v :: cs) f
  | fieldType {id : Nat} {o : Val} {m : MemberInfo} {name : PyStr} {cs : List Call} {f : Frame} :
    FieldNamed (I id).fields name m → Builds I (.compound id o) cs f → Builds I (.compound id o) (.getFieldType name :: cs) f
  /-- a compound, which is created with the type arguments -/
  | compound {id cid : Nat} {o o₁ c c' : Val} {m : MemberInfo} {name : PyStr} {cs₁ cs : List Call} {f : Frame} :
    FieldNamed (I id).fields name m → m.isArray = false → m.type = .compound cid → createObject I (I id) m cid o none = .ok c →
    Builds I (.compound cid c) cs₁ (.compound cid c') → (I id).setAttr o m c' = .ok o₁ → Builds I (.compound id o₁) cs f →
    Builds I (.compound id o) (.beginCompound name :: cs₁ ++ .endCompound :: cs) f
  /-- an array -/
  | array {id : Nat} {o o₁ : Val} {m : MemberInfo} {name : PyStr} {xs : List Val} {cs₁ cs : List Call} {f : Frame} :
    FieldNamed (I id).fields name m → m.isArray = true → Builds I (.array m id o []) cs₁ (.array m id o xs) →
    (I id).setAttr o m (.arr xs) = .ok o₁ → Builds I (.compound id o₁) cs f →
    Builds I (.compound id o) (.beginArray name :: cs₁ ++ .endArray :: cs) f
  /-- a simple value or `None` as an array element -/
  | valueElement {m : MemberInfo} {pid : Nat} {p v : Val} {xs : List Val} {cs : List Call} {f : Frame} :
    v = .none ∨ isInstance m.type v = true → Builds I (.array m pid p (xs ++ [v])) cs f →
    Builds I (.array m pid p xs) (.addValueElement v :: cs) f
  | elementType {m : MemberInfo} {pid : Nat} {p : Val} {xs : List Val} {cs : List Call} {f : Frame} :
    Builds I (.array m pid p xs) cs f → Builds I (.array m pid p xs) (.getElementType :: cs) f
  /-- a compound as an array element -/
  | compoundElement {m : MemberInfo} {pid cid : Nat} {p c c' : Val} {xs : List Val} {cs₁ cs : List Call} {f : Frame} :
    m.type = .compound cid → createObject I (I pid) m cid p (some xs.length) = .ok c →
    Builds I (.compound cid c) cs₁ (.compound cid c') → Builds I (.array m pid p (xs ++ [c'])) cs f →
    Builds I (.array m pid p xs) (.beginCompoundElement :: cs₁ ++ .endCompoundElement :: cs) f

/-- `Sessions I id args calls os`: the calls build the objects `os` of the compound type `id`, one after the other, each between
`begin_root` and `end_root`. -/
inductive Sessions (I : TypeInfos) (id : Nat) (args : List Int) : List Call → List Val → Prop where
  | nil : Sessions I id args [] []
  | root {cs rest : List Call} {o o' : Val} {os : List Val} :
    (I id).new args = .ok o → Builds I (.compound id o) cs (.compound id o') → Sessions I id args rest os →
    Sessions I id args (.beginRoot :: cs ++ .endRoot :: rest) (o' :: os)

/-- the objects returned by `end_root` -/
def objects (rs : List Result) : List Val :=
  rs.filterMap fun r =>
    match r with
    | .object v => some v
    | _ => none

end Creator
end Zserio
