import Verif.Model.Loading
/-
Which files a schema consists of, in the words of the language guide (Packages and Files): the input, and the file of each package which is
imported in one of the files.
-/
namespace Zserio.Loading
open Zserio.Visibility (Name PackageName Import)

/-- The file in which a package (as written in the schema) must be stored: the identifiers joined by slashes, the extension of the input, below the
source path. -/
def Config.place (cfg : Config) (q : PackageName) : Path :=
  (match cfg.src with
    | none => []
    | some s => s ++ py! "/") ++ joinPath q ++ extension cfg.input

/-- The files a schema consists of -/
inductive Needed (cfg : Config) (fs : Files) : Path → Prop where
  | input : Needed cfg fs cfg.inputFile
  | imported (f : Path) (src : Source) (i : Import) : Needed cfg fs f → fs.get f = some src → i ∈ src.imports → Needed cfg fs (cfg.place (target i))

/-- An import is right: the file of the package is there, it declares this package and, if one symbol is imported, that symbol. -/
def Found (cfg : Config) (fs : Files) (i : Import) : Prop :=
  ∃ src, fs.get (cfg.place (target i)) = some src ∧ src.package = some (target i) ∧
    ∀ q n, i = .single q n → n ∈ src.symbols

/-- A schema can be loaded: the input is there and stored in the file of its package; a file without package must be given without directory,
unless a package is given on the command line; all imports of all files are right. -/
def Loadable (cfg : Config) (fs : Files) : Prop :=
  (∃ src, fs.get cfg.inputFile = some src ∧
    (∀ q, src.package = some q → cfg.inputFile = cfg.place q) ∧
    (src.package = none → cfg.top = [] → 47 ∉ cfg.input)) ∧
  ∀ f src i, Needed cfg fs f → fs.get f = some src → i ∈ src.imports → Found cfg fs i

/-- The grammar (ZserioParser.g4:25-31): the name of a package and the package of an import have at least one identifier. -/
def Grammatical (fs : Files) : Prop :=
  ∀ e ∈ fs, e.2.package ≠ some [] ∧ ∀ i ∈ e.2.imports, target i ≠ []

end Zserio.Loading
