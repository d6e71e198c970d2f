import Verif.Spec.Names
/-
What an import statement of Python finds in a directory with generated code, and what the names of an `api` module mean.
The search path consists of the output directory of the generator only. Nothing here refers to the generator.
-/
namespace Zserio.Names

/-- A Python source file: the directory below the root of the search path, the name without `.py`, and what is in it. -/
structure PyFile (α : Type) where
  dir : List PyStr
  root : PyStr
  content : α
  deriving DecidableEq

/-- The files written, in this order: writing a file again replaces it. -/
abbrev PyTree (α : Type) := List (PyFile α)

variable {α : Type}

/-- The content of a file, if there is one. -/
def PyTree.read (t : PyTree α) (dir : List PyStr) (root : PyStr) : Option α :=
  (t.reverse.find? fun f => f.dir = dir ∧ f.root = root).map (·.content)

/-- What the import system finds in a directory (importlib, `FileFinder.find_spec`). -/
inductive Found where
  | package (dir : List PyStr)
  | file (dir : List PyStr) (root : PyStr)

/-- A directory with `__init__.py` is preferred to a file. Namespace packages (directories without `__init__.py`) are not
considered: they come after the files. -/
def PyTree.find (t : PyTree α) (dir : List PyStr) (name : PyStr) : Option Found :=
  if (t.read (dir ++ [name]) (py! "__init__")).isSome then some (.package (dir ++ [name]))
  else if (t.read dir name).isSome then some (.file dir name)
  else none

/-- The import of a dotted name, from a package on: all but the last must be packages. The result is what is executed as the
module: a file, or the `__init__.py` of a package. -/
def PyTree.importFrom (t : PyTree α) (dir : List PyStr) : List PyStr → Option α
  | [] => t.read dir (py! "__init__")
  | name :: rest =>
    match t.find dir name with
    | some (.package d) => t.importFrom d rest
    | some (.file d n) => if rest = [] then t.read d n else none
    | none => none

/-- The import of a dotted name. -/
def PyTree.importModule (t : PyTree α) (path : List PyStr) : Option α := t.importFrom [] path

/-- The statements of a module which only imports. -/
inductive ImportStmt where
  /-- `import <path> as <name>` -/
  | importAs (path : List PyStr) (name : PyStr)
  /-- `from <path> import <name>` -/
  | fromImport (path : List PyStr) (name : PyStr)
  deriving DecidableEq

/-- What a name of such a module means. -/
inductive Imported where
  /-- a module -/
  | aModule (path : List PyStr)
  /-- what a module defines under a name -/
  | definition (path : List PyStr) (name : PyStr)
  deriving DecidableEq

/-- The name a statement binds. -/
def ImportStmt.name : ImportStmt → PyStr
  | .importAs _ n => n
  | .fromImport _ n => n

/-- The module a statement imports. -/
def ImportStmt.path : ImportStmt → List PyStr
  | .importAs p _ => p
  | .fromImport p _ => p

/-- What a statement binds its name to. -/
def ImportStmt.imported : ImportStmt → Imported
  | .importAs p _ => .aModule p
  | .fromImport p n => .definition p n

/-- What a name means after all statements are executed: the last statement which binds it counts. -/
def meaning (stmts : List ImportStmt) (name : PyStr) : Option Imported :=
  (stmts.reverse.find? fun s => s.name = name).map (·.imported)

end Zserio.Names
