import Verif.Model.DocMarkdown
/-
What a markdown documentation comment says.
-/
namespace Zserio.Markdown

/-- the characters of a text which are no white space -/
def visible (s : PyStr) : PyStr := s.filter fun c => 32 < c

/-- a link of markdown -/
def linkText (label link : PyStr) : PyStr := py! "[" ++ label ++ py! "](" ++ link ++ py! ")"

/-- a name of a directory, file or type -/
def IsName (s : PyStr) : Prop := s ≠ [] ∧ ∀ c ∈ s, isNameChar c = true

/-- `Path dir steps file`: beginning in a directory, a relative path leads to a file (without extension); both are given by the names of the
directories below the directory of the schemas -/
inductive Path : List PyStr → List PyStr → List PyStr → Prop where
  | file {dir : List PyStr} {n : PyStr} : IsName n → Path dir [n] (dir ++ [n])
  | here {dir steps file : List PyStr} : Path dir steps file → Path dir (py! "." :: steps) file
  | up {dir steps file : List PyStr} {n : PyStr} : Path dir steps file → Path (dir ++ [n]) (py! ".." :: steps) file
  | down {dir steps file : List PyStr} {n : PyStr} : IsName n → Path (dir ++ [n]) steps file → Path dir (n :: steps) file

/-- a relative path to a schema file: names, `.` and `..`, with a name at the end -/
def IsPath (steps : List PyStr) : Prop :=
  (∀ s ∈ steps, IsName s ∨ s = py! "." ∨ s = py! "..") ∧ ∃ n, steps.getLast? = some n ∧ IsName n

/-- the text of a link to a schema file, or to a type in it -/
def fileLink (steps : List PyStr) : Option PyStr → PyStr
  | none => List.intercalate (py! "/") steps ++ py! ".zs"
  | some type => List.intercalate (py! "/") steps ++ py! ".zs#" ++ type

/-- the full name of a package or of a type in it: the package of a file has the name of its path -/
def fullName (file : List PyStr) (type : Option PyStr) : PyStr := List.intercalate (py! ".") (file ++ type.toList)

/-- `Source pkg top e src`: an element of a line stands for a text: a text for itself, a tag for a link which means it -/
def Source (pkg top : List PyStr) : Piece → PyStr → Prop
  | .text s, src => src = s
  | .see label name, src => ∃ link, src = linkText label link ∧ seeTagLink pkg top link = some name

/-- the tags of a line -/
def tags (es : List Piece) : List (PyStr × PyStr) := es.filterMap fun
  | .text _ => none
  | .see label name => some (label, name)

/-- `Linked s links`: a text in which all opening brackets belong to links, with these links -/
inductive Linked : PyStr → List (PyStr × PyStr) → Prop where
  | text {s : PyStr} : ch! '[' ∉ s → Linked s []
  | link {s label link rest : PyStr} {links : List (PyStr × PyStr)} : ch! '[' ∉ s → ch! '[' ∉ label → ch! ']' ∉ label → link ≠ [] →
      ch! ')' ∉ link → Linked rest links → Linked (s ++ linkText label link ++ rest) ((label, link) :: links)

/-- `Blocks blank lines blocks`: the blocks are the longest runs of lines which are not blank -/
inductive Blocks (blank : PyStr → Prop) : List PyStr → List (List PyStr) → Prop where
  | none {lines : List PyStr} : (∀ l ∈ lines, blank l) → Blocks blank lines []
  | block {before run rest : List PyStr} {blocks : List (List PyStr)} : (∀ l ∈ before, blank l) → run ≠ [] → (∀ l ∈ run, ¬ blank l) →
      (rest = [] ∨ ∃ l r, rest = l :: r ∧ blank l) → Blocks blank rest blocks → Blocks blank (before ++ run ++ rest) (run :: blocks)

/-- a line without visible characters; other control characters count as white space, as in Java -/
def IsBlankLine (l : PyStr) : Prop := visible l = []

end Zserio.Markdown
