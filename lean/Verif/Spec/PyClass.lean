import Verif.Spec.Names
/-
What executing the body of a Python class does to the names it binds: the part of the language reference (8.8 Class
definitions, 8.7 Function definitions, and `property` of the library reference) the generated classes depend on. `δ` is what
the functions, inner classes and values defined in the body are; they are not looked into.
-/
namespace Zserio.Names

/-- What a name bound in the body of a class refers to. -/
inductive ClassEntry (δ : Type) where
  /-- a method -/
  | function (body : δ)
  | classMethod (body : δ)
  | staticMethod (body : δ)
  /-- a property with its getter and, unless it is read-only, its setter -/
  | property (getter : δ) (setter : Option δ)
  | innerClass (body : δ)
  | constant (value : δ)
  deriving DecidableEq, Repr

/-- The decorators of the generated code: the builtins `@property`, `@classmethod` and `@staticmethod`, and
`@name.setter`. -/
inductive Decorator where
  | property
  | classMethod
  | staticMethod
  | setterOf (name : PyStr)
  deriving DecidableEq, Repr

/-- A statement of the body of a class. -/
inductive ClassStmt (δ : Type) where
  /-- `def name(…): …`, with or without a decorator -/
  | defn (decorator : Option Decorator) (name : PyStr) (body : δ)
  /-- `class name: …` -/
  | innerClass (name : PyStr) (body : δ)
  /-- `name = value` -/
  | assign (name : PyStr) (value : δ)
  deriving DecidableEq, Repr

/-- The name the statement binds. -/
def ClassStmt.bound {δ : Type} : ClassStmt δ → PyStr
  | .defn _ name _ => name
  | .innerClass name _ => name
  | .assign name _ => name

/-- Why a class cannot be defined. -/
inductive ClassError where
  /-- the source is no Python: a name is a keyword or no identifier -/
  | syntaxError
  /-- a decorator is not what it should be, because its name has been bound before in the same class -/
  | decoratorShadowed (name : PyStr)
  /-- `@name.setter` but `name` is not a property -/
  | noProperty (name : PyStr)
  deriving DecidableEq, Repr

/-- The namespace of the class while its body is executed. -/
abbrev Namespace (δ : Type) := PyStr → Option (ClassEntry δ)

/-- Binding a name replaces what it referred to before. -/
def Namespace.bind {δ : Type} (ns : Namespace δ) (name : PyStr) (e : ClassEntry δ) : Namespace δ :=
  fun n => if n = name then some e else ns n

/-- The object a decorated definition binds. Names of decorators are looked up in the namespace of the class first; only if
it does not bind them they are the builtins. Simplification: a shadowed builtin decorator is always an error, although
Python would call the function if it is one. -/
def decorated {δ : Type} (ns : Namespace δ) (body : δ) : Option Decorator → Except ClassError (ClassEntry δ)
  | none => .ok (.function body)
  | some .property =>
    if (ns (py! "property")).isSome then .error (.decoratorShadowed (py! "property")) else .ok (.property body none)
  | some .classMethod =>
    if (ns (py! "classmethod")).isSome then .error (.decoratorShadowed (py! "classmethod"))
    else .ok (.classMethod body)
  | some .staticMethod =>
    if (ns (py! "staticmethod")).isSome then .error (.decoratorShadowed (py! "staticmethod"))
    else .ok (.staticMethod body)
  | some (.setterOf name) =>
    match ns name with
    | some (.property getter _) => .ok (.property getter (some body))
    | _ => .error (.noProperty name)

/-- One statement of the body. -/
def ClassStmt.exec {δ : Type} (ns : Namespace δ) : ClassStmt δ → Except ClassError (Namespace δ)
  | .defn decorator name body => (decorated ns body decorator).map fun e => ns.bind name e
  | .innerClass name body => .ok (ns.bind name (.innerClass body))
  | .assign name value => .ok (ns.bind name (.constant value))

/-- The statements of the body, one after the other. -/
def execStmts {δ : Type} (ns : Namespace δ) : List (ClassStmt δ) → Except ClassError (Namespace δ)
  | [] => .ok ns
  | s :: rest =>
    match s.exec ns with
    | .ok ns' => execStmts ns' rest
    | .error e => .error e

/-- The definition of a class: the source is parsed, then its body is executed in a new namespace. -/
def defineClass {δ : Type} (body : List (ClassStmt δ)) : Except ClassError (Namespace δ) :=
  if ∀ s ∈ body, IsPythonName s.bound then execStmts (fun _ => none) body else .error .syntaxError

end Zserio.Names
