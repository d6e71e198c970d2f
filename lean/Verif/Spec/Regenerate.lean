import Verif.Model.Regenerate
/-
What the generated files should be, and which histories of files and runs are well-behaved.
-/
namespace Zserio.Regen

/-- The schema files which belong to the files `todo`, with their contents: each file is followed by the files it imports, and no
file comes twice. `view` are those before, `view'` all of them. -/
inductive Parsed (j : Jar) (sources : Tree) : List PyStr → List (PyStr × PyStr) → List (PyStr × PyStr) → Prop
  | done (view) : Parsed j sources [] view view
  | known {p todo view view'} : p ∈ view.map (·.1) → Parsed j sources todo view view' → Parsed j sources (p :: todo) view view'
  | file {p todo view view' f imports} : p ∉ view.map (·.1) → sources p = some f → j.imports f.text = some imports →
      Parsed j sources (imports ++ todo) (view ++ [(p, f.text)]) view' → Parsed j sources (p :: todo) view view'

/-- All files which the compiler generates for the schema are there, with the contents they have when they are generated into an empty
directory. -/
def UpToDate (j : Jar) (flags : Flags) (main : PyStr) (sources out : Tree) : Prop :=
  ∃ view outs, Parsed j sources [main] [] view ∧ j.outputs flags (view.map (·.2)) = some outs ∧
    ∀ p body, (p, body) ∈ outs → ∃ stamp, out p = some ⟨j.fileText flags body, stamp⟩

/-- the schema files and the compiler are older than `stamp`, and all their time stamps are known -/
def Older (j : Jar) (sources : Tree) (view : List (PyStr × PyStr)) (stamp : Nat) : Prop :=
  (0 < j.stamp ∧ j.stamp < stamp) ∧ ∀ x ∈ view, 0 < lastModified (sources x.1) ∧ lastModified (sources x.1) < stamp

/-- A generated file is left as it is: time stamps count, it begins with the two lines which tell versions and options, and all it
depends on is older. -/
def Kept (a : Params) (sources : Tree) (view : List (PyStr × PyStr)) (file : Option File) : Prop :=
  a.ignore = false ∧ checkDescription a.jar a.flags file = true ∧ Older a.jar sources view (lastModified file)

/-- What a successful run does: each generated file is left as it is, or written now. All other files stay. -/
def Outcome (main : PyStr) (a : Params) (before after : State) : Prop :=
  ∃ view outs, Parsed a.jar before.sources [main] [] view ∧ a.jar.outputs a.flags (view.map (·.2)) = some outs ∧
    (outs.map (·.1)).Nodup ∧
    (∀ p body, (p, body) ∈ outs → (Kept a before.sources view (before.out p) → after.out p = before.out p) ∧
      (¬ Kept a before.sources view (before.out p) → ∃ stamp, before.clock ≤ stamp ∧
        after.out p = some ⟨a.jar.fileText a.flags body, stamp⟩)) ∧
    ∀ p, p ∉ outs.map (·.1) → after.out p = before.out p

/-- nothing happens but steps of the compiler, and time passes -/
def Event.quiet : Event → Bool
  | .tick | .step _ => true
  | _ => false

/-- the compiler does not run -/
def Proc.isIdle : Proc → Bool
  | .idle _ => true
  | _ => false

/-- the compiler is writing a file -/
def Proc.isWriting : Proc → Bool
  | .emitting _ _ _ _ (some _) => true
  | _ => false

/-- What is allowed to happen: schema files and the compiler change only when the compiler does not run; a change of a schema
file gives it the time of the change; the schema is always that of the file `main`; the compilers are those of `J`; a run does not
stop while a file is being written. -/
def allowed (main : PyStr) (J : Jar → Prop) (s : State) : Event → Prop
  | .tick | .step _ => True
  | .edit _ _ | .remove _ => s.proc.isIdle = true
  | .copy _ _ _ => False
  | .install j => s.proc.isIdle = true ∧ J j
  | .start m _ _ => m = main
  | .stop => s.proc.isWriting = false

/-- the whole history is allowed -/
def Careful (main : PyStr) (J : Jar → Prop) : State → List Event → Prop
  | _, [] => True
  | s, e :: es => allowed main J s e ∧ Careful main J (apply s e) es

/-- Compilers with the same versions are the same. (A version is a text without spaces and line breaks.) -/
structure Releases (J : Jar → Prop) : Prop where
  version : ∀ j, J j → ∀ c ∈ j.version, c ≠ ch! ' ' ∧ c ≠ ch! '\n' ∧ c ≠ ch! '\r'
  core : ∀ j, J j → ∀ c ∈ j.core, c ≠ ch! '\n' ∧ c ≠ ch! '\r'
  same : ∀ j j', J j → J j' → j.version = j'.version → j.core = j'.core → j.imports = j'.imports ∧ j.outputs = j'.outputs

end Zserio.Regen
