import Verif.Model.Lexer
/-
Which documentation comments belong to which declarations, and the text of markdown comments: DocCommentManager.java, and which comments of a
declaration are written to generated code: DocCommentsDataCreator.java.
-/
namespace Zserio.DocAttach

open Lexer (Kind)

/-! ### The stream of tokens -/

/-- a token of the stream with its line; the kind is none for EOF -/
structure Tok where
  kind : Option Kind
  text : List Nat
  line : Nat
  deriving DecidableEq, Repr

/-- ANTLR counts lines by line feeds -/
def newlines (s : List Nat) : Nat := s.count 10

/-- the stream for the tokens of a text whose first line is `line`: white space is skipped (ZserioLexer.g4:110), EOF is added -/
def place (line : Nat) : List (Kind × List Nat) → List Tok
  | [] => [⟨none, [], line⟩]
  | (k, s) :: rest =>
    if k = .space then place (line + newlines s) rest else ⟨some k, s, line⟩ :: place (line + newlines s) rest

/-- the channel DOC -/
def Tok.isDoc (t : Tok) : Bool :=
  match t.kind with
  | some .docComment => true
  | some .markdownComment => true
  | _ => false

/-- the default channel -/
def Tok.isVisible (t : Tok) : Bool :=
  match t.kind with
  | none => true
  | some k => !Lexer.isHidden k

/-- `getTokens().get(i)` satisfies `p` -/
def holds (p : Tok → Bool) (ts : List Tok) (i : Nat) : Bool :=
  match ts[i]? with
  | some t => p t
  | none => false

/-- `previousTokenOnChannel(i - 1, DEFAULT_TOKEN_CHANNEL) + 1` of ANTLR's BufferedTokenStream (trusted library) -/
def afterPrevious (ts : List Tok) : Nat → Nat
  | 0 => 0
  | n + 1 => if holds Tok.isVisible ts n then n + 1 else afterPrevious ts n

/-- `getHiddenTokensToLeft(i, DOC)` of ANTLR's BufferedTokenStream (trusted library), as indices; the empty list for null -/
def hiddenToLeft (ts : List Tok) (i : Nat) : List Nat := ((List.range i).drop (afterPrevious ts i)).filter (holds Tok.isDoc ts)

/-! ### Comments of declarations -/

/-- a text divided at its line feeds -/
def pieces : List Nat → List (List Nat)
  | [] => [[]]
  | c :: cs =>
    if c = 10 then [] :: pieces cs
    else match pieces cs with
      | [] => [[c]]
      | l :: ls => (c :: l) :: ls

/-- Java's `String.split("\\n")`: empty strings at the end are dropped, unless there is no line feed -/
def splitLines (s : List Nat) : List (List Nat) :=
  if 10 ∈ s then ((pieces s).reverse.dropWhile (· == [])).reverse else [s]

/-- the line of a token -/
def lineAt (ts : List Tok) (i : Nat) : Nat :=
  match ts[i]? with
  | some t => t.line
  | none => 0

/-- the text of a token -/
def textAt (ts : List Tok) (i : Nat) : List Nat :=
  match ts[i]? with
  | some t => t.text
  | none => []

/-- DocCommentManager.java:157-160 `isSticky` of the comment `k`, followed by the token `next` -/
def isSticky (ts : List Tok) (k next : Nat) : Bool :=
  if lineAt ts next > lineAt ts k + (splitLines (textAt ts k)).length then false else true

/-- DocCommentManager.java:151-165: the loop of `findDocCommentsBefore`: comments with `isSticky`.  `parses`: the comments which can be parsed, the
others are left out (with a warning). -/
def collect (ts : List Tok) (parses : Nat → Bool) (i : Nat) : List Nat → List (Nat × Bool)
  | [] => []
  | k :: rest =>
    let next := match rest with
      | [] => i
      | k' :: _ => k'
    if parses k then (k, isSticky ts k next) :: collect ts parses i rest else collect ts parses i rest

/-- DocCommentManager.java:138-168 `findDocCommentsBefore` -/
def findBefore (ts : List Tok) (parses : Nat → Bool) (i : Nat) : List (Nat × Bool) := collect ts parses i (hiddenToLeft ts i)

/-- DocCommentManager.java:120-136: the comments of a node with several places for comments: the fields of structures (before the alignment, the
offset, `extend`, `optional` and the type, if they are there); other nodes have one -/
def nodeComments (ts : List Tok) (parses : Nat → Bool) (starts : List Nat) : List (Nat × Bool) := starts.flatMap (findBefore ts parses)

/-- DocCommentManager.java:149, 229: `currentUsedComments` after the comments before all the given tokens have been looked for -/
def usedComments (ts : List Tok) (starts : List Nat) : List Nat := starts.flatMap (hiddenToLeft ts)

/-- DocCommentManager.java:58-74 `printWarnings`: the comments for which there is a warning -/
def unused (ts : List Tok) (starts : List Nat) : List Nat :=
  (List.range ts.length).filter fun k => holds Tok.isDoc ts k && !(usedComments ts starts).contains k

/-- DocCommentsDataCreator.java:20-33 `createData`: the comments which are written to generated code -/
def written (comments : List (Nat × Bool)) : List (Nat × Bool) := (comments.reverse.takeWhile (·.2)).reverse

/-! ### Markdown -/

/-- Java's `Character` condition of `String.trim` -/
def trimmed (c : Nat) : Bool := c ≤ 32

/-- `String.trim` -/
def trim (s : List Nat) : List Nat := ((s.dropWhile trimmed).reverse.dropWhile trimmed).reverse

/-- the class `[ \t]` -/
def blank (c : Nat) : Bool := c = 32 ∨ c = 9

/-- DocCommentManager.java:213-230 `getFirstLineIndent`, for the lines after the first one -/
def firstLineIndent (width : Nat) : List (List Nat) → List Nat
  | [] => []
  | l :: rest =>
    if l = [] then firstLineIndent width rest
    else if width ≤ l.length ∧ (l.take width).all blank then l.take width else []

/-- DocCommentManager.java:232-241 `areLinesIndented`, for the lines after the first one -/
def linesIndented (indent : List Nat) (lines : List (List Nat)) : Bool := lines.all fun l => l = [] || indent.isPrefixOf l

/-- the line terminators of Java's regular expressions -/
def terminator (c : Nat) : Bool := c = 10 ∨ c = 13 ∨ c = 0x85 ∨ c = 0x2028 ∨ c = 0x2029

/-- `^` with `(?m)` between the characters `prev` and `cur`: behind a line terminator, but not inside CR LF -/
def lineStart (prev : Option Nat) (cur : Nat) : Bool :=
  match prev with
  | none => true
  | some p => terminator p && !(p = 13 ∧ cur = 10)

/-- `replaceAll("(?m)^" + indent, "")`; the first argument bounds the number of steps -/
def stripIndent (indent : List Nat) : Nat → Option Nat → List Nat → List Nat
  | _, _, [] => []
  | 0, _, s => s
  | f + 1, prev, c :: cs =>
    if lineStart prev c ∧ indent.isPrefixOf (c :: cs) then stripIndent indent f indent.getLast? ((c :: cs).drop indent.length)
    else c :: stripIndent indent f (some c) cs

/-- DocCommentManager.java:182-193: whether the comment is indented, and the indent -/
def commentIndent (text : List Nat) (column : Nat) : Option (List Nat) :=
  match splitLines text with
  | l0 :: l1 :: rest =>
    if trim l0 = py! "/*!" then
      let indent := firstLineIndent column (l1 :: rest)
      if indent ≠ [] ∧ linesIndented indent (l1 :: rest) then some indent else none
    else none
  | _ => none

/-- `replaceFirst("^\\/\\*!", "")` -/
def stripStart (s : List Nat) : List Nat := if (py! "/*!").isPrefixOf s then s.drop 3 else s

/-- `replaceFirst("!?\\*\\/$", "")` of a text which does not end with a line terminator -/
def stripEnd (s : List Nat) : List Nat :=
  if (py! "!*/").isSuffixOf s then s.take (s.length - 3) else if (py! "*/").isSuffixOf s then s.take (s.length - 2) else s

/-- DocCommentManager.java:176-211 `parseDocCommentMarkdown`: the text of the comment; `column`: the number of characters before it in its line -/
def markdown (text : List Nat) (column : Nat) : List Nat :=
  stripEnd (stripStart (match commentIndent text column with
    | some indent => stripIndent indent text.length none text
    | none => text))

/-- DocCommentManager.java:195-200: the warning that the comment does not end with `!*/` -/
def markdownWarning (text : List Nat) : Bool := !(py! "!*/").isSuffixOf text

end Zserio.DocAttach
