import Verif.Model.DocAttach
/-
Model of `DocCommentAstBuilder` (DocCommentAstBuilder.java): how the elements of a classic documentation comment, as they are
found by the parser, are put together to paragraphs.

The nodes are Java objects which are referred to while they grow: the lines of `DocMultiline`, of which `DocTagTodo` and
`DocTagParam` are subclasses, are in a heap, and the reference of a node is its index.  Simplified: locations are left out; a
line is a list of texts; the grammar (DocComment.g4), which finds the elements, is not modelled: all sequences of elements are
considered.
-/
namespace Zserio.DocClassic

/-- DocLine.java: the elements of a line -/
abbrev Line := List PyStr

/-- DocComment.g4:13-17 `docElement`.  The line of a tag is `[]` if there is none (DocCommentAstBuilder.java:93-95, 104-106). -/
inductive Item where
  | see (label : Option PyStr) (link : PyStr)
  | todo (line : Line)
  | param (name : PyStr) (line : Line)
  | deprecated
  | line (l : Line)
  | empty
  deriving DecidableEq

/-- DocElement.java: an element of a paragraph, with references to nodes -/
inductive Ref where
  | see (label : Option PyStr) (link : PyStr)
  | deprecated
  | multiline (node : Nat)
  | todo (node : Nat)
  | param (name : PyStr) (node : Nat)

/-- DocCommentAstBuilder.java:167-173: the fields of the visitor, with the lines of all nodes -/
structure State where
  nodes : List (List Line)
  paragraphs : List (List Ref)
  currentParagraph : Option Nat
  currentMultilineNode : Option Nat

/-- The visitor after its construction. -/
def State.init : State := ⟨[], [], none, none⟩

/-- `new DocMultiline(location, line)`: the reference of a new node with one line (DocMultiline.java) -/
def State.newNode (s : State) (l : Line) : Nat × State := (s.nodes.length, { s with nodes := s.nodes ++ [[l]] })

/-- DocMultiline.java `addLine` -/
def State.addLine (s : State) (node : Nat) (l : Line) : State := { s with nodes := s.nodes.modify node (· ++ [l]) }

/-- DocCommentAstBuilder.java:146-155 `addDocElement` -/
def State.addDocElement (s : State) (e : Ref) : State :=
  match s.currentParagraph with
  | none => { s with paragraphs := s.paragraphs ++ [[e]], currentParagraph := some s.paragraphs.length }
  | some p => { s with paragraphs := s.paragraphs.modify p (· ++ [e]) }

/-- DocCommentAstBuilder.java:38-65 `visitDocElement`, with `visitDocTag` (67-78), `visitSeeTag` (80-86), `visitTodoTag` (88-98),
`visitParamTag` (100-111) and `visitDeprecatedTag` (113-117) -/
def State.visit (s : State) : Item → State
  | .see label link => { s with currentMultilineNode := none }.addDocElement (.see label link)
  | .deprecated => { s with currentMultilineNode := none }.addDocElement .deprecated
  | .todo l =>
    let (node, s) := s.newNode l
    { s with currentMultilineNode := some node }.addDocElement (.todo node)
  | .param name l =>
    let (node, s) := s.newNode l
    { s with currentMultilineNode := some node }.addDocElement (.param name node)
  | .line l =>
    match s.currentMultilineNode with
    | some node => s.addLine node l
    | none =>
      let (node, s) := s.newNode l
      { s with currentMultilineNode := some node }.addDocElement (.multiline node)
  | .empty => { s with currentParagraph := none, currentMultilineNode := none }

/-- DocElement.java: an element of a paragraph, with the lines of its node -/
inductive Element where
  | see (label : Option PyStr) (link : PyStr)
  | deprecated
  | multiline (lines : List Line)
  | todo (lines : List Line)
  | param (name : PyStr) (lines : List Line)
  deriving DecidableEq

/-- What an element with references looks like when the nodes have the given lines. -/
def Ref.deref (nodes : List (List Line)) : Ref → Element
  | .see label link => .see label link
  | .deprecated => .deprecated
  | .multiline n => .multiline (nodes.getD n [])
  | .todo n => .todo (nodes.getD n [])
  | .param name n => .param name (nodes.getD n [])

/-- DocCommentAstBuilder.java:30-36 `visitDocComment`: the paragraphs of a comment -/
def build (items : List Item) : List (List Element) :=
  let s := items.foldl State.visit State.init
  s.paragraphs.map (·.map (·.deref s.nodes))

end Zserio.DocClassic
