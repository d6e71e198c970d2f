import Verif.Spec.Imports
import Verif.Model.SwitchedOff

/-!
What is written if code is switched off.
-/

namespace Zserio.Imports

open Zserio

/-- the code for a declaration is not wanted: tables and databases, services, Pub/Sub types can be switched off -/
inductive SwitchedOff (o : Emitters.Options) : Decl → Prop where
  | table {k : Option ExprNames} {cs : List ColumnDecl} {ts : List NativeType} : o.withSqlCode = false → SwitchedOff o (.sqlTable k cs ts)
  | database {ts : List NativeType} : o.withSqlCode = false → SwitchedOff o (.sqlDatabase ts)
  | service {ms : List (NativeType × NativeType)} : o.withServiceCode = false → SwitchedOff o (.service ms)
  | pubsub {ms : List (NativeType × ExprNames)} : o.withPubsubCode = false → SwitchedOff o (.pubsub ms)

/-- a declaration whose code is wanted names one whose code is not -/
def NamesSwitchedOff (w : Bool) (o : Emitters.Options) (s : Schema) : Prop :=
  ∃ a d b e, (a, d) ∈ s.decls ∧ ¬ SwitchedOff o d ∧ b ∈ d.names w ∧ (b, e) ∈ s.decls ∧ SwitchedOff o e

/-- the modules which are wanted: those of the symbols which are not switched off, and the modules `api` -/
def IsWanted (o : Emitters.Options) (s : Schema) (p : Path) : Prop :=
  (∃ a d, (a, d) ∈ s.decls ∧ ¬ SwitchedOff o d ∧ p = a.path) ∨ ∃ a ∈ s.apis, p = apiPath a.package

end Zserio.Imports
