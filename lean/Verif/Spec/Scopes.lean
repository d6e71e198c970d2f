import Verif.Model.Scopes
/-
What a user of the language expects of expressions in compound types, without reference to how scopes are built and evaluated:
expressions of a field can only use what has been read before the field, also through functions.
-/
namespace Zserio.Scopes

/-- the fields of a compound type with their positions (for a choice: the positions of their cases) -/
def Members.field? : Members → Nat → Option Field
  | .struct fs, i => fs[i]?
  | .union fs, i => fs[i]?
  | .choice _ _ cs, i => cs[i]?.bind Case.field

/-- `n` is the name of the field at position `i` -/
def Compound.IsField (c : Compound) (i : Nat) (n : Name) : Prop := ∃ f, c.members.field? i = some f ∧ f.name = n

/-- The names of all parameters, fields and functions, in this order -/
def Members.names : Members → List Name
  | .struct fs => fs.map Field.name
  | .union fs => fs.map Field.name
  | .choice _ _ cs => (cs.filterMap Case.field).map Field.name

def Compound.names (c : Compound) : List Name := c.params ++ c.members.names ++ c.funcs.map Prod.fst

/-- the expression is somewhere in the compound type -/
inductive Compound.Has (c : Compound) : Role → Expr → Prop
  | before {i f e} : c.members.field? i = some f → e ∈ f.before → c.Has (.before i) e
  | constraint {i f e} : c.members.field? i = some f → f.constraint = some e → c.Has (.constraint i) e
  | selector {e items cs} : c.members = .choice e items cs → c.Has .selector e
  | case {e sel items cs i d} : c.members = .choice sel items cs → cs[i]? = some d → e ∈ d.exprs → c.Has (.case i) e
  | body {f e} : (f, e) ∈ c.funcs → c.Has (.body f) e

/-- The fields which an expression may use: in structures those which come before it, and the field itself in its constraint. -/
def Compound.MayUse (c : Compound) : Role → Nat → Prop
  | .before i, j => (∃ fs, c.members = .struct fs) ∧ j < i
  | .constraint i, j => ((∃ fs, c.members = .struct fs) ∧ j < i) ∨ j = i
  | .selector, _ => False
  | .case _, _ => False
  | .body _, _ => True

/-- The enumeration items or bitmask values which an expression may use without their type: in the cases of a choice those of the type of
the selector. -/
def Compound.caseItems (c : Compound) : Role → List Name
  | .case _ => match c.members with
    | .choice _ items _ => items
    | _ => []
  | _ => []

/-! ### What expressions contain -/

/-- the identifiers of an expression (without called functions) -/
def Expr.ids : Expr → List Name
  | .lit => []
  | .id n => [n]
  | .call _ => []
  | .op x y => x.ids ++ y.ids
  | .isset x _ y => x.ids ++ y.ids

/-- the functions which an expression calls -/
def Expr.calls : Expr → List Name
  | .lit => []
  | .id _ => []
  | .call n => [n]
  | .op x y => x.calls ++ y.calls
  | .isset x _ y => x.calls ++ y.calls

/-- the names of bitmask values which can be used in the expression without their type -/
def Expr.items : Expr → List Name
  | .lit => []
  | .id _ => []
  | .call _ => []
  | .op x y => x.items ++ y.items
  | .isset x items y => x.items ++ (items ++ y.items)

/-- an expression calls a function, directly or through other functions -/
inductive Compound.Calls (c : Compound) : Expr → Name → Prop
  | direct {e f} : f ∈ e.calls → c.Calls e f
  | through {e f g b} : f ∈ e.calls → c.body f = some b → c.Calls b g → c.Calls e g

/-- an expression contains an identifier, directly or in a function it calls -/
inductive Compound.Uses (c : Compound) : Expr → Name → Prop
  | direct {e n} : n ∈ e.ids → c.Uses e n
  | through {e f n b} : f ∈ e.calls → c.body f = some b → c.Uses b n → c.Uses e n

/-! ### What generated code does -/

/-- evaluating something with these references reads the field: directly or in a function it calls -/
inductive Reads (bodies : Bodies) : List Ref → Name → Prop
  | direct {rs n} : .sym .field n ∈ rs → Reads bodies rs n
  | through {rs rs' f n} : .call f ∈ rs → bodies.get f = some rs' → Reads bodies rs' n → Reads bodies rs n

/-- the references of an expression are what the names say: fields of the compound type and called functions -/
def Compound.Means (c : Compound) (e : Expr) (rs : List Ref) : Prop :=
  (∀ n, .sym .field n ∈ rs ↔ n ∈ e.ids ∧ ∃ i, c.IsField i n) ∧ (∀ f, .call f ∈ rs ↔ f ∈ e.calls)

/-! ### Exactly which compound types are accepted -/

/-- the name can be used in the scope -/
def Known (pkg : List Name) (s : Scope) (n : Name) : Prop := s.find n ≠ none ∨ n ∈ pkg

/-- Everything an expression contains, also through functions, can be used in the scope: identifiers are known, what is called are
functions, and none of them calls itself. -/
def Compound.Allowed (c : Compound) (pkg : List Name) (s : Scope) (e : Expr) : Prop :=
  (∀ n, c.Uses e n → Known pkg s n) ∧
  (∀ f, c.Calls e f → s.find f = some (.sym .func f) ∧ ∃ b, c.body f = some b ∧ ¬ c.Calls b f)

/-- the identifiers and calls of an expression with the scopes they see: only the second operand of `isset` sees the values of the
bitmask -/
def Expr.leaves : Scope → Expr → List (Scope × Expr)
  | _, .lit => []
  | s, .id n => [(s, .id n)]
  | s, .call f => [(s, .call f)]
  | s, .op x y => x.leaves s ++ y.leaves s
  | s, .isset x items y => x.leaves s ++ y.leaves (s.addItems items)

/-- The name is not that of a symbol of the package, or of a bitmask value or enumeration item which can be used without its type. -/
def Compound.Clear (c : Compound) (pkg : List Name) (n : Name) : Prop :=
  n ∉ pkg ∧ (∀ r e, c.Has r e → n ∉ e.items) ∧ (∀ sel items cs, c.members = .choice sel items cs → n ∉ items)

/-- this holds for all fields -/
def Compound.NoClash (c : Compound) (pkg : List Name) : Prop := ∀ i n, c.IsField i n → c.Clear pkg n

end Zserio.Scopes
