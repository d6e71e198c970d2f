import Verif.Model.DocAttach
/-
How markdown documentation comments become the paragraphs, lines and links which are written to generated code: DocCommentMarkdown.java.

Simplifications: locations are not represented; empty lines at the end, which `split` leaves out, are kept (they are swallowed anyway).
-/
namespace Zserio.Markdown
open DocAttach (trim terminator)

/-- `split("\r?\n|\r")` (DocCommentMarkdown.java:76) -/
def splitLines : PyStr → List PyStr
  | [] => [[]]
  | 13 :: 10 :: r => [] :: splitLines r
  | c :: r =>
    if c = 10 ∨ c = 13 then [] :: splitLines r
    else
      match splitLines r with
      | [] => [[c]]
      | l :: ls => (c :: l) :: ls

/-- the loop over the lines (DocCommentMarkdown.java:78-110); `current` is `markdownParagraphLines` -/
def paragraphs (current : List PyStr) : List PyStr → List (List PyStr)
  | [] => if current = [] then [] else [current]
  | l :: ls =>
    if trim l ≠ [] then paragraphs (current ++ [trim l]) ls
    else (if current = [] then [] else [current]) ++ paragraphs [] ls

/-- the regular expression of a link with `matches()` (DocCommentMarkdown.java:179-180): its four groups. The first ends at the first `[`, the
second at the next bracket, the third at the next `)`. -/
def matchLink (s : PyStr) : Option (PyStr × PyStr × PyStr × PyStr) :=
  match s.dropWhile (· ≠ ch! '[') with
  | [] => none
  | _ :: r =>
    match r.dropWhile (fun c => c ≠ ch! '[' ∧ c ≠ ch! ']') with
    | c :: d :: r2 =>
      if c = ch! ']' ∧ d = ch! '(' then
        match r2.dropWhile (· ≠ ch! ')') with
        | [] => none
        | _ :: rest =>
          if r2.takeWhile (· ≠ ch! ')') ≠ [] ∧ rest.all (fun c => !terminator c) then
            some (s.takeWhile (· ≠ ch! '['), r.takeWhile (fun c => c ≠ ch! '[' ∧ c ≠ ch! ']'), r2.takeWhile (· ≠ ch! ')'), rest)
          else none
      else none
    | _ => none

/-- `[a-zA-Z_0-9]` -/
def isNameChar (c : Nat) : Bool := (97 ≤ c ∧ c ≤ 122) ∨ (65 ≤ c ∧ c ≤ 90) ∨ c = ch! '_' ∨ (48 ≤ c ∧ c ≤ 57)

/-- `[a-zA-Z_0-9\.\/]` -/
def isFileChar (c : Nat) : Bool := isNameChar c || c = ch! '.' || c = ch! '/'

/-- the regular expression of a schema file with `matches()` (DocCommentMarkdown.java:189-191): its two groups; `#` is no character of the first
group -/
def zsFile (link : PyStr) : Option (PyStr × Option PyStr) :=
  let f := link.takeWhile (· ≠ ch! '#')
  let file := f.take (f.length - 3)
  if (py! ".zs").isSuffixOf f ∧ file ≠ [] ∧ file.all isFileChar then
    match link.dropWhile (· ≠ ch! '#') with
    | [] => some (file, none)
    | _ :: type => if type ≠ [] ∧ type.all isNameChar then some (file, some type) else none
  else none

/-- the pieces between separators -/
def pieces (sep : Nat) : PyStr → List PyStr
  | [] => [[]]
  | c :: r =>
    if c = sep then [] :: pieces sep r
    else
      match pieces sep r with
      | [] => [[c]]
      | w :: ws => (c :: w) :: ws

/-- `String.split`: without the empty pieces at the end -/
def split (sep : Nat) (s : PyStr) : List PyStr := ((pieces sep s).reverse.dropWhile (· = [])).reverse

/-- `StringJoinUtil.joinStrings` with a dot (StringJoinUtil.java:136-150); empty strings are left out -/
def join (ids : List PyStr) : PyStr := List.intercalate (py! ".") (ids.filter (· ≠ []))

/-- the loop of `createSeeTagLink` (DocCommentMarkdown.java:240-255), `none` for `return null` -/
def follow (ids : List PyStr) : List PyStr → Option (List PyStr)
  | [] => some ids
  | s :: rest =>
    if s = py! "." then follow ids rest
    else if s = py! ".." then (if ids = [] then none else follow ids.dropLast rest)
    else follow (ids ++ [s]) rest

/-- `createSeeTagLink` (DocCommentMarkdown.java:231-262); `pkg` and `top` are the name of the package and the top level package -/
def createSeeTagLink (pkg top : List PyStr) (file : PyStr) (type : Option PyStr) : Option PyStr :=
  match follow (pkg.drop top.length).dropLast (split (ch! '/') file) with
  | none => none
  | some ids =>
    match type with
    | none => some (join ids)
    | some t => some (join [join ids, t])

/-- DocCommentMarkdown.java:189-196 `seeTagLink` -/
def seeTagLink (pkg top : List PyStr) (link : PyStr) : Option PyStr :=
  match zsFile link with
  | none => none
  | some (file, type) => createSeeTagLink pkg top file type

/-- an element of a line: DocText.java, or DocTagSee.java with alias and name of the link -/
inductive Piece where
  | text (s : PyStr)
  | see (label link : PyStr)
  deriving DecidableEq

/-- `addMarkdownToDocLineElements` (DocCommentMarkdown.java:174-229); the first argument bounds the depth -/
def addElements (pkg top : List PyStr) : Nat → PyStr → List Piece
  | 0, _ => []
  | n + 1, line =>
    match matchLink line with
    | none => [.text line]
    | some (pre, label, link, rest) =>
      (match seeTagLink pkg top link with
        | none => [.text (trim (line.take (line.length - rest.length)))]
        | some name => (if trim pre = [] then [] else [.text (trim pre)]) ++ [.see label name]) ++
      if trim rest = [] then [] else addElements pkg top n (trim rest)

/-- `markdownToClassicLine` (DocCommentMarkdown.java:166-172) -/
def elements (pkg top : List PyStr) (line : PyStr) : List Piece := addElements pkg top (line.length + 1) line

/-- `resolve` (DocCommentMarkdown.java:74-120): the paragraphs with their lines -/
def convert (pkg top : List PyStr) (markdown : PyStr) : List (List (List Piece)) :=
  (paragraphs [] (splitLines markdown)).map fun p => p.map (elements pkg top)

end Zserio.Markdown
