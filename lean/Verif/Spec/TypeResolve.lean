import Verif.Model.TypeResolve
import Mathlib.Logic.Relation
/-
What names of types mean.
-/
namespace Zserio.TypeResolve

/-- the symbol is used in the reference, as the type or in an argument -/
inductive Ref.Mentions : Ref → Nat → Prop
  | head (j name : Nat) (args : List Ref) : Mentions (.named (some j) name args) j
  | arg (symbol : Option Nat) (name : Nat) (args : List Ref) (r : Ref) (j : Nat) : r ∈ args → Mentions r j → Mentions (.named symbol name args) j

/-- the definition of the subtype or template instantiation `i` uses `j` -/
def Uses (s : Schema) (i j : Nat) : Prop :=
  ∃ t : Ref, (s[i]? = some (.subtype t) ∨ s[i]? = some (.instantiate t)) ∧ t.Mentions j

/-- a subtype or template instantiation is defined by itself -/
def Cyclic (s : Schema) : Prop := ∃ i, Relation.TransGen (Uses s) i i

/-- the definition of the symbol, or of one which it uses, is a cycle -/
def LeadsToCycle (s : Schema) (i : Nat) : Prop := ∃ c, Relation.ReflTransGen (Uses s) i c ∧ Relation.TransGen (Uses s) c c

/-- `i` is another name for the subtype `k`, without template arguments -/
def Next (s : Schema) (i k : Nat) : Prop := ∃ name, s[i]? = some (.subtype (.named (some k) name []))

/-- the references in a definition -/
def Decl.refs : Decl → List Ref
  | .subtype t => [t]
  | .instantiate t => [t]
  | .templatable _ refs => refs
  | .type refs => refs
  | .database refs => refs
  | .noType refs => refs

/-- the type which is meant by a reference: subtypes are replaced by what they stand for -/
inductive BaseOf (s : Schema) : Ref → Ref → Prop
  | builtin (b : Nat) : BaseOf s (.builtin b) (.builtin b)
  | plain (symbol : Option Nat) (name : Nat) (args : List Ref) :
      (∀ j t, symbol = some j → s[j]? ≠ some (.subtype t) ∧ s[j]? ≠ some (.instantiate t)) →
      BaseOf s (.named symbol name args) (.named symbol name args)
  | subtype (j name : Nat) (args : List Ref) (t r : Ref) : s[j]? = some (.subtype t) → BaseOf s t r → BaseOf s (.named (some j) name args) r
  | instantiate (j name : Nat) (args : List Ref) (t : Ref) : s[j]? = some (.instantiate t) → BaseOf s (.named (some j) name args) t

/-- what can be used as a type: types which are no databases, templates only with arguments -/
def Usable (args : List Ref) : Decl → Prop
  | .subtype _ => True
  | .instantiate _ => True
  | .templatable ps _ => ps = [] ∨ args ≠ []
  | .type _ => True
  | .database _ => False
  | .noType _ => False

/-- a reference is right where the template parameters are `ps` -/
inductive ValidRef (s : Schema) (ps : List Nat) : Ref → Prop
  | builtin (b : Nat) : ValidRef s ps (.builtin b)
  | param (name : Nat) (args : List Ref) : name ∈ ps → (∀ r ∈ args, ValidRef s ps r) → ValidRef s ps (.named none name args)
  | symbol (j name : Nat) (args : List Ref) (d : Decl) : s[j]? = some d → Usable args d → (∀ r ∈ args, ValidRef s ps r) →
      ValidRef s ps (.named (some j) name args)

/-- the reference is to a template -/
def Ref.IsTemplate (s : Schema) (t : Ref) : Prop :=
  ∃ j name args ps refs, t = .named (some j) name args ∧ s[j]? = some (.templatable ps refs) ∧ ps ≠ []

/-- all references of a symbol are right; template parameters can be used in their own template only -/
def ValidDecl (s : Schema) : Decl → Prop
  | .subtype t => ValidRef s [] t
  | .instantiate t => ValidRef s [] t ∧ t.IsTemplate s
  | .templatable ps refs => ∀ r ∈ refs, ValidRef s ps r
  | .type refs => ∀ r ∈ refs, ValidRef s [] r
  | .database refs => ∀ r ∈ refs, ValidRef s [] r
  | .noType refs => ∀ r ∈ refs, ValidRef s [] r

/-- all references are right -/
def Valid (s : Schema) : Prop := ∀ d ∈ s, ValidDecl s d

/-- a name which is not known is used in the reference -/
inductive Ref.Unknown : Ref → Nat → Prop
  | head (name : Nat) (args : List Ref) : Unknown (.named none name args) name
  | arg (symbol : Option Nat) (name : Nat) (args : List Ref) (r : Ref) (x : Nat) : r ∈ args → Unknown r x → Unknown (.named symbol name args) x

/-- no unknown name in the definition of a subtype or template instantiation is that of a template parameter -/
def NoParameterNames (s : Schema) : Prop :=
  ∀ t : Ref, (.subtype t ∈ s ∨ .instantiate t ∈ s) → ∀ x, t.Unknown x → ∀ ps refs, .templatable ps refs ∈ s → x ∉ ps

end Zserio.TypeResolve
