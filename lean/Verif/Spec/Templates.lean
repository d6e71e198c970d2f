import Verif.Model.Templates
/-
What a reference to a template means, independent of how the compiler finds and names instantiations.
-/
namespace Zserio.Templates

mutual
/-- The type a reference written in a schema stands for: subtypes and types declared by `instantiate` stand for what they
are declared as, and a reference to a template for that template with the types of its arguments. -/
def TypeRef.denote : TypeRef → Ty
  | .builtin name => .mk ⟨[], name⟩ []
  | .type id => .mk id []
  | .param _ => .mk ⟨[], []⟩ []
  | .template id args => .mk id (denotes args)
  | .inst source _ _ _ args => .mk source (denotes args)
  | .subtype base => base.denote
  | .instantiateType _ reference => reference.denote
/-- All of them. -/
def denotes : List TypeRef → List Ty
  | [] => []
  | r :: rest => r.denote :: denotes rest
end

/-- The instantiation with this number is made from this template with arguments standing for these types. -/
def State.Made (st : State) (index : Nat) (template : TypeId) (args : List Ty) : Prop :=
  ∃ e, st.entries[index]? = some e ∧ e.template = template ∧ denotes e.args = args

/-- A reference has been resolved as the schema says: one which names a template resolves to an instantiation of that template
with the arguments which are written, any other one is left. -/
def State.Resolved (st : State) : TypeRef → TypeRef → Prop
  | .template id args, r =>
    ∃ index pkg args', r = .inst id index pkg id args' ∧ denotes args' = denotes args ∧ st.Made index id (denotes args)
  | r, r' => r' = r

mutual
/-- References which use neither types declared by `instantiate` nor subtypes of templates, within a template with that many
parameters. -/
def TypeRef.Simple (params : Nat) : TypeRef → Prop
  | .builtin _ | .type _ => True
  | .param i => i < params
  | .template _ args => AllSimple params args
  | .subtype (.builtin _) | .subtype (.type _) => True
  | _ => False
/-- All of them. -/
def AllSimple (params : Nat) : List TypeRef → Prop
  | [] => True
  | r :: rest => r.Simple params ∧ AllSimple params rest
end

mutual
/-- An argument whose name the compiler makes from what it stands for: it uses neither a type declared by `instantiate` nor a
subtype of a template, and templates within it are resolved, with no visible declaration `instantiate` for them. -/
def TypeRef.Settled (vis : List InstantiateDecl) : TypeRef → Prop
  | .builtin _ | .type _ => True
  | .subtype (.builtin _) | .subtype (.type _) => True
  | .inst source _ pkg template args =>
    template = source ∧ pkg = source.pkg ∧ visible vis source args = none ∧ AllSettled vis args
  | _ => False
/-- All of them. -/
def AllSettled (vis : List InstantiateDecl) : List TypeRef → Prop
  | [] => True
  | r :: rest => r.Settled vis ∧ AllSettled vis rest
end

mutual
/-- Every instantiation within a reference is of the template the schema names and is in the package of that template. (A
declaration `instantiate` in another package moves it there.) References as written, which have not been resolved, are of
this kind. -/
def TypeRef.Home : TypeRef → Prop
  | .builtin _ | .type _ | .param _ => True
  | .template _ args => AllHome args
  | .inst source _ pkg template args => template = source ∧ pkg = source.pkg ∧ AllHome args
  | .subtype base => base.Home
  | .instantiateType _ reference => reference.Home
/-- All of them. -/
def AllHome : List TypeRef → Prop
  | [] => True
  | r :: rest => r.Home ∧ AllHome rest
end

/-- Two calls whose names are cut off, and whose hash codes do not tell them apart although their full names differ. -/
def Call.Collides (c c' : Call) : Prop :=
  ((generateName false c.vis c.template c.args).length > 64 ∨
    (generateName false c'.vis c'.template c'.args).length > 64) ∧
  generateName true c.vis c.template c.args ≠ generateName true c'.vis c'.template c'.args ∧
  hashCode c.vis c.template c.args = hashCode c'.vis c'.template c'.args

end Zserio.Templates
