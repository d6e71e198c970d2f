import Verif.Model.JsonText

/-!
How Python executes modules which import each other.

A module is executed when it is imported for the first time. While it is executed it is already registered, so an
import of a module which is being executed returns at once, with whatever the module has defined so far. The module
becomes an attribute of its package only when its execution is complete.

Python 3: https://docs.python.org/3/reference/import.html (5.3.1 the module cache, 5.4.2 submodules), simple statements
`import` and `from ... import`. Packages with an empty `__init__` are not represented: they are complete at once.
-/

namespace Zserio.Imports

open Zserio

/-- a dotted name `a.b.c` -/
abbrev Path := List PyStr

/-- the statements of a module which matter for imports; everything inside of functions is executed later and not listed -/
inductive Stmt where
  /-- `import a.b.c` -/
  | imp (p : Path)
  /-- `from a.b.c import n` -/
  | fromImp (p : Path) (n : PyStr)
  /-- evaluation of the expression `a.b.c.n` -/
  | eval (p : Path) (n : PyStr)
  /-- `n = ...` or `class n: ...` -/
  | define (n : PyStr)
  deriving DecidableEq, Repr

/-- the modules which can be found and their statements -/
abbrev Program := Path → Option (List Stmt)

/-- the state of the interpreter -/
structure State where
  /-- `sys.modules`: the modules whose execution has been started -/
  started : List Path := []
  /-- the modules whose execution is complete; these are attributes of their packages -/
  complete : List Path := []
  /-- the attributes of modules -/
  defined : List (Path × PyStr) := []

/-- the expression `a.b.c.n` has a value: the name `a` is bound in the module, the module `a.b.c` is an attribute of its
package (a module without package is found directly), and it has got the attribute `n` -/
def State.HasValue (st : State) (bound : List PyStr) (p : Path) (n : PyStr) : Prop :=
  (∃ a ∈ bound, p.head? = some a) ∧ (p.length = 1 ∨ p ∈ st.complete) ∧ (p, n) ∈ st.defined

mutual

/-- `Imports prog st p st'`: the import of the module `p` in the state `st` succeeds and leaves the state `st'`. An exception
is the absence of such a state. -/
inductive Imports (prog : Program) : State → Path → State → Prop where
  | cached {st : State} {p : Path} : p ∈ st.started → Imports prog st p st
  | execute {st st' : State} {p : Path} {body : List Stmt} : p ∉ st.started → prog p = some body →
      Runs prog { st with started := p :: st.started } p [] body st' →
      Imports prog st p { st' with complete := p :: st'.complete }

/-- `Runs prog st m bound stmts st'`: in the module `m`, in which the names `bound` are bound, the statements are executed
without an exception -/
inductive Runs (prog : Program) : State → Path → List PyStr → List Stmt → State → Prop where
  | done {st : State} {m : Path} {bound : List PyStr} : Runs prog st m bound [] st
  | imp {st st1 st' : State} {m p : Path} {bound : List PyStr} {rest : List Stmt} : Imports prog st p st1 →
      Runs prog st1 m (p.head?.toList ++ bound) rest st' → Runs prog st m bound (.imp p :: rest) st'
  | fromImp {st st1 st' : State} {m p : Path} {n : PyStr} {bound : List PyStr} {rest : List Stmt} : Imports prog st p st1 →
      (p, n) ∈ st1.defined →
      Runs prog { st1 with defined := (m, n) :: st1.defined } m (n :: bound) rest st' →
      Runs prog st m bound (.fromImp p n :: rest) st'
  | eval {st st' : State} {m p : Path} {n : PyStr} {bound : List PyStr} {rest : List Stmt} : st.HasValue bound p n →
      Runs prog st m bound rest st' → Runs prog st m bound (.eval p n :: rest) st'
  | define {st st' : State} {m : Path} {n : PyStr} {bound : List PyStr} {rest : List Stmt} :
      Runs prog { st with defined := (m, n) :: st.defined } m (n :: bound) rest st' →
      Runs prog st m bound (.define n :: rest) st'

end

/-- the modules are imported one after the other, by any program of the user -/
inductive ImportsAll (prog : Program) : State → List Path → State → Prop where
  | nil {st : State} : ImportsAll prog st [] st
  | cons {st st1 st' : State} {p : Path} {ps : List Path} : Imports prog st p st1 → ImportsAll prog st1 ps st' →
      ImportsAll prog st (p :: ps) st'

/-- the modules which the statements import -/
def importsOf (body : List Stmt) : List Path :=
  body.filterMap fun s => match s with | .imp p => some p | .fromImp p _ => some p | _ => none

/-- the names which the statements bind to something of their own -/
def definesOf (body : List Stmt) : List PyStr :=
  body.filterMap fun s => match s with | .define n => some n | .fromImp _ n => some n | _ => none

/-- `Reaches prog a b`: the module `a` is `b`, or it imports a module which reaches `b` -/
inductive Reaches (prog : Program) : Path → Path → Prop where
  | refl {a : Path} : Reaches prog a a
  | step {a p b : Path} {body : List Stmt} : prog a = some body → p ∈ importsOf body → Reaches prog p b → Reaches prog a b

end Zserio.Imports
