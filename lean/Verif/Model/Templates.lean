import Verif.Model.JsonText
/-
Model of the instantiation of templates in the core of the compiler (ast/ZserioAstTemplator.java, ast/TemplatableType.java,
ast/TemplateArgument.java, ast/TypeReference.java, ast/InstantiateType.java, tools/HashUtil.java): which instantiation a
reference to a template resolves to, and which name the class generated for it gets.
-/
namespace Zserio.Templates

/-- Identifiers of the name of a package (ast/PackageName.java), empty for the default package. -/
abbrev PackageName := List PyStr

/-- `ZserioTypeUtil.getFullName` (ZserioTypeUtil.java:17-35): the name of a type with its package. Simplification: a pair
instead of the text joined by dots; a built-in type has no package. -/
structure TypeId where
  pkg : PackageName
  name : PyStr
  deriving DecidableEq

/-- A type with template arguments, as full names. -/
inductive Ty where
  | mk (id : TypeId) (args : List Ty)

mutual
/-- Equality of types with template arguments. -/
def Ty.same : Ty → Ty → Bool
  | .mk id args, .mk id' args' => decide (id = id') && Ty.sameAll args args'
/-- `List.equals` of Java -/
def Ty.sameAll : List Ty → List Ty → Bool
  | [], [] => true
  | t :: ts, u :: us => Ty.same t u && Ty.sameAll ts us
  | _, _ => false
end

/-- A reference to a type (TypeReference.java). -/
inductive TypeRef where
  /-- a built-in type; the name of a fixed bit field is e.g. `bit:5` (FixedBitFieldType.java:22) -/
  | builtin (name : PyStr)
  /-- a type which is no template -/
  | type (id : TypeId)
  /-- a parameter of the template in which the reference is written; simplification: by its index -/
  | param (index : Nat)
  /-- a template with arguments, not instantiated yet -/
  | template (id : TypeId) (args : List TypeRef)
  /-- the same after `resolveInstantiation` (TypeReference.java:173-176): `source` is the template the reference names,
  `index`, `pkg` and `template` tell the instantiation, its package and the template it is made from -/
  | inst (source : TypeId) (index : Nat) (pkg : PackageName) (template : TypeId) (args : List TypeRef)
  /-- a subtype, with the reference `Subtype.getBaseTypeReference` gives at that time (Subtype.java:76-102) -/
  | subtype (base : TypeRef)
  /-- a type declared by `instantiate`, with its type reference (InstantiateType.java) -/
  | instantiateType (id : TypeId) (reference : TypeRef)

mutual
/-- What `TemplateArgument.equals` compares (TemplateArgument.java:49-70): the full name of the type of the base type
reference (TypeReference.java:77-84), and its template arguments. The package of an instantiation is the one it has been
made for, its name is that of the template until `resolveInstantiationNames` (CompoundType.java:60-67). -/
def TypeRef.key : TypeRef → Ty
  | .builtin name => .mk ⟨[], name⟩ []
  | .type id => .mk id []
  | .param _ => .mk ⟨[], []⟩ []
  | .template id args => .mk id (keys args)
  | .inst _ _ pkg template args => .mk ⟨pkg, template.name⟩ (keys args)
  | .subtype base => base.key
  | .instantiateType _ reference => reference.key
/-- All of them. -/
def keys : List TypeRef → List Ty
  | [] => []
  | r :: rest => r.key :: keys rest
end

/-- A declaration `instantiate` (InstantiateType.java). -/
structure InstantiateDecl where
  id : TypeId
  template : TypeId
  args : List TypeRef

/-- `Package.getVisibleInstantiateType` (Package.java:273-321, 380-419) for the declarations visible from a package. An
ambiguous pair of declarations is refused by the code when the map is filled: simplification, the list is what is left.
Simplification: the hash codes of the keys are not modelled, only their equality. -/
def visible (vis : List InstantiateDecl) (template : TypeId) (args : List TypeRef) : Option InstantiateDecl :=
  vis.find? fun d => decide (d.template = template) && Ty.sameAll (keys d.args) (keys args)

/-- `PackageName.toString(separator)` (PackageName.java:155-158) with `TEMPLATE_NAME_SEPARATOR` -/
def joinPackage (pkg : PackageName) : PyStr := (pkg.intersperse [ch! '_']).flatten

/-- `replace(":", TEMPLATE_NAME_SEPARATOR)` (ZserioAstTemplator.java:310) -/
def replaceColons (name : PyStr) : PyStr := name.map fun c => if c = ch! ':' then ch! '_' else c

/-- What is appended for a type which has a package (ZserioAstTemplator.java:298-310). -/
def appendId (full : Bool) (id : TypeId) : PyStr :=
  (if full ∧ id.pkg ≠ [] then ch! '_' :: joinPackage id.pkg else []) ++ ch! '_' :: replaceColons id.name

/-- What is appended for a visible declaration `instantiate` (ZserioAstTemplator.java:279-289). -/
def appendDecl (full : Bool) (id : TypeId) : PyStr :=
  (if full then ch! '_' :: joinPackage id.pkg else []) ++ ch! '_' :: id.name

/-- The type of the base type reference of a subtype, without the template arguments of that reference: the arguments are
taken from the reference to the subtype, which has none (ZserioAstTemplator.java:270, 292-296). -/
def appendBase (full : Bool) : TypeRef → PyStr
  | .builtin name => ch! '_' :: replaceColons name
  | .type id => appendId full id
  | .param _ => []
  | .template id _ => appendId full id
  | .inst _ _ pkg template _ => appendId full ⟨pkg, template.name⟩
  | .subtype base => appendBase full base
  | .instantiateType _ reference => appendBase full reference

mutual
/-- `appendTemplateArgument` (ZserioAstTemplator.java:265-314) -/
def appendArg (full : Bool) (vis : List InstantiateDecl) : TypeRef → PyStr
  | .builtin name => ch! '_' :: replaceColons name
  | .type id => appendId full id
  | .param _ => []
  | .template id args =>
    match visible vis id args with
    | some d => appendDecl full d.id
    | none => appendId full id ++ appendArgs full vis args
  | .inst _ _ pkg template args =>
    match visible vis ⟨pkg, template.name⟩ args with
    | some d => appendDecl full d.id
    | none => appendId full ⟨pkg, template.name⟩ ++ appendArgs full vis args
  | .subtype base => appendBase full base
  | .instantiateType id _ => appendId full id
/-- The loops over arguments (ZserioAstTemplator.java:249-250, 312-313). -/
def appendArgs (full : Bool) (vis : List InstantiateDecl) : List TypeRef → PyStr
  | [] => []
  | r :: rest => appendArg full vis r ++ appendArgs full vis rest
end

/-- `MAX_TEMPLATE_NAME_LENGTH` (ZserioAstTemplator.java:510) -/
def maxLength : Nat := 64

/-- `generateInstantiationName` before the length is checked (ZserioAstTemplator.java:244-250) -/
def generateName (full : Bool) (vis : List InstantiateDecl) (template : TypeId) (args : List TypeRef) : PyStr :=
  template.name ++ appendArgs full vis args

/-- `generateShortInstantiationName` (ZserioAstTemplator.java:238-263) -/
def shortName (vis : List InstantiateDecl) (template : TypeId) (args : List TypeRef) : PyStr :=
  let name := generateName false vis template args
  if name.length > maxLength then name.take (maxLength - 1) ++ [ch! '_'] else name

/-- `HashUtil.hash(int, char)` (HashUtil.java:42-45, 123-130): arithmetic on `int`, as the unsigned value of its 32 bits -/
def hashStep (h c : Nat) : Nat := (37 * h + c) % 2 ^ 32

/-- A digit of `%X`. -/
def hexDigit (d : Nat) : Nat := if d < 10 then ch! '0' + d else ch! 'A' + (d - 10)

/-- `String.format("%08X", h)` -/
def hex8 (h : Nat) : PyStr := [7, 6, 5, 4, 3, 2, 1, 0].map fun i => hexDigit (h / 16 ^ i % 16)

/-- the loop of `generateInstantiationHashCode` (ZserioAstTemplator.java:216-222) with `HASH_SEED` -/
def hashName (name : PyStr) : Nat := name.foldl hashStep 23

/-- `generateInstantiationHashCode` (ZserioAstTemplator.java:216-230) -/
def hashCode (vis : List InstantiateDecl) (template : TypeId) (args : List TypeRef) : PyStr :=
  hex8 (hashName (generateName true vis template args))

/-- The errors. -/
inductive TemplateError where
  /-- "is not a template" -/
  | noTemplate
  /-- "too few arguments", "too many arguments" -/
  | argumentCount
  /-- "Instantiation name … already exists" -/
  | nameClash
  /-- "… is already defined in package" -/
  | alreadyDefined
  /-- stack overflow of the compiler -/
  | overflow
  deriving DecidableEq, Repr

/-- `InstantiationMapKey` and `InstantiationMapValue` (ZserioAstTemplator.java:385-503) -/
structure Entry where
  pkg : PackageName
  short : PyStr
  hash : PyStr
  template : TypeId
  args : List TypeRef

/-- A call of `instantiate`: what is visible from the package of the reference, the template and the arguments it is called
with, and the instantiation it returns. The code does not keep it: it is recorded to speak about it. -/
structure Call where
  vis : List InstantiateDecl
  template : TypeId
  args : List TypeRef
  index : Nat

/-- The fields of `ZserioAstTemplator` (ZserioAstTemplator.java:512-521): `instantiationMap`, whose entries are numbered in
the order in which they are put, and `instantiationClashMap`, whose last entry for a key counts. -/
structure State where
  entries : List Entry := []
  clashes : List ((PackageName × PyStr) × Bool) := []
  calls : List Call := []

/-- Computations of the templator. -/
abbrev T := StateT State (Except TemplateError)

/-- A template: its parameters, and the type references in it in the order in which they are visited. -/
structure TemplateDef where
  id : TypeId
  params : Nat
  refs : List TypeRef

mutual
/-- `TypeReference.instantiate` (TypeReference.java:186-215): the reference which takes the place of a parameter names the
template of the argument again, with the arguments of the argument. -/
def TypeRef.subst (actual : List TypeRef) : TypeRef → TypeRef
  | .param i =>
    match actual[i]? with
    | some (.inst source _ _ _ args) => .template source args
    | some r => r
    | none => .param i
  | .template id args => .template id (substAll actual args)
  | r => r
/-- All of them. -/
def substAll (actual : List TypeRef) : List TypeRef → List TypeRef
  | [] => []
  | r :: rest => r.subst actual :: substAll actual rest
end

/-- package, short name and hash code of an instantiation (ZserioAstTemplator.java:135-151) -/
def instanceKey (vis : List InstantiateDecl) (template : TypeId) (args : List TypeRef) : PackageName × PyStr × PyStr :=
  match visible vis template args with
  | some d => (d.id.pkg, d.id.name, [])
  | none => (template.pkg, shortName vis template args, hashCode vis template args)

/-- `instantiationMap.get` -/
def findEntry (k : PackageName × PyStr × PyStr) (entries : List Entry) : Option Nat :=
  entries.findIdx? fun e => decide ((e.pkg, e.short, e.hash) = k)

/-- `instantiationClashMap.containsKey` -/
def hasShort (k : PackageName × PyStr) (clashes : List ((PackageName × PyStr) × Bool)) : Bool :=
  clashes.any fun c => decide (c.1 = k)

/-- `TemplatableType.instantiate` (TemplatableType.java:88-112): checks the number of arguments and gives the references
within the instantiation. Simplification: `noTemplate` is thrown earlier (ZserioAstTemplator.java:66-98). -/
def instantiateRefs (templates : List TemplateDef) (template : TypeId) (args : List TypeRef) :
    Except TemplateError (List TypeRef) :=
  match templates.find? fun t => decide (t.id = template) with
  | none => .error .noTemplate
  | some t => if t.params ≠ args.length then .error .argumentCount else .ok (substAll args t.refs)

/-- `instantiate` (ZserioAstTemplator.java:132-213) up to the visit of the references within a new instantiation, which are
given back. The warnings are not modelled. -/
def instantiate (templates : List TemplateDef) (vis : List InstantiateDecl) (template : TypeId) (args : List TypeRef) :
    T (TypeRef × List TypeRef) := fun st =>
  let k := instanceKey vis template args
  match findEntry k st.entries with
  | some i =>
    match st.entries[i]? with
    | none => .error .nameClash
    | some e =>
      if !Ty.sameAll (keys e.args) (keys args) then .error .nameClash
      else .ok ((.inst template i e.pkg e.template args, []),
        { st with calls := ⟨vis, template, args, i⟩ :: st.calls })
  | none => do
    let refs ← instantiateRefs templates template args
    let i := st.entries.length
    .ok ((.inst template i k.1 template args, refs),
      { entries := st.entries ++ [⟨k.1, k.2.1, k.2.2, template, args⟩]
        clashes := ((k.1, k.2.1), hasShort (k.1, k.2.1) st.clashes) :: st.clashes
        calls := ⟨vis, template, args, i⟩ :: st.calls })

/-- Visits references in order. -/
def visitAll (visit : TypeRef → T TypeRef) : List TypeRef → T (List TypeRef)
  | [] => pure []
  | r :: rest => do
    let r ← visit r
    let rest ← visitAll visit rest
    pure (r :: rest)

/-- `visitTypeReference` (ZserioAstTemplator.java:72-131) and the rest of `instantiate`: the arguments are visited first, the
references within a new instantiation afterwards, all with the same `currentPackage`. The number bounds the depth of the
stack. References which are no templates, or which have been instantiated before, are left as they are. -/
def visit (templates : List TemplateDef) (vis : List InstantiateDecl) : Nat → TypeRef → T TypeRef
  | 0, _ => fun _ => .error .overflow
  | n + 1, .template id args => do
    let args ← visitAll (visit templates vis n) args
    let (r, refs) ← instantiate templates vis id args
    let _ ← visitAll (visit templates vis n) refs
    pure r
  | _ + 1, r => pure r

/-- The references of a schema in the order in which `visitRoot` gets to them (ZserioAstTemplator.java:37-71), each with the
declarations visible from its package; templates themselves are not visited. -/
def visitRoot (templates : List TemplateDef) (n : Nat) : List (List InstantiateDecl × TypeRef) → T (List TypeRef)
  | [] => pure []
  | (vis, r) :: rest => do
    let r ← visit templates vis n r
    let rest ← visitRoot templates n rest
    pure (r :: rest)

/-- `instantiationClashMap.get` -/
def isClash (k : PackageName × PyStr) (clashes : List ((PackageName × PyStr) × Bool)) : Bool :=
  match clashes.find? fun c => decide (c.1 = k) with
  | some c => c.2
  | none => false

/-- The name with the hash code (ZserioAstTemplator.java:361-366). -/
def withHash (short hash : PyStr) : PyStr :=
  let n := maxLength - 1 - hash.length
  (if short.length > n then short.take n else short) ++ ch! '_' :: hash

/-- `resolveInstantiationNames` and `checkInstantiationName` (ZserioAstTemplator.java:346-388) for one instantiation;
`locals` gives the names of the symbols declared in a package (`Package.getLocalSymbol`). -/
def resolveName (locals : PackageName → List PyStr) (clashes : List ((PackageName × PyStr) × Bool)) (e : Entry) :
    Except TemplateError PyStr :=
  if e.hash = [] then .ok e.short
  else
    let name := if isClash (e.pkg, e.short) clashes ∨ e.short ∈ locals e.pkg then withHash e.short e.hash else e.short
    if name ∈ locals e.pkg then .error .alreadyDefined else .ok name

/-- The loop of `resolveInstantiationNames`. Simplification: in the order of the instantiations, where the code follows the
order of a `HashMap`; the names do not depend on it. -/
def resolveNames (locals : PackageName → List PyStr) (clashes : List ((PackageName × PyStr) × Bool)) :
    List Entry → Except TemplateError (List PyStr)
  | [] => .ok []
  | e :: rest => do
    let name ← resolveName locals clashes e
    let names ← resolveNames locals clashes rest
    .ok (name :: names)

/-- What the templator leaves: the references as they are resolved, the instantiations and their names. -/
structure Result where
  refs : List TypeRef
  state : State
  names : List PyStr

/-- A run of the templator (ZserioAstTemplator.java:36-41). -/
def templator (templates : List TemplateDef) (locals : PackageName → List PyStr) (n : Nat)
    (refs : List (List InstantiateDecl × TypeRef)) : Except TemplateError Result := do
  let (rs, st) ← (visitRoot templates n refs).run {}
  let names ← resolveNames locals st.clashes st.entries
  .ok ⟨rs, st, names⟩

end Zserio.Templates
