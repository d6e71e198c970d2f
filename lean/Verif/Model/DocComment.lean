import Verif.Model.Literal
/-
Documentation comments in generated code (`-withCodeComments`): DocCommentsTemplateData.java and DocComment.inc.ftl, and how Python reads
the string literals in triple quotes which hold them.
-/
namespace Zserio.Doc
open Expression

/-- DocCommentsTemplateData.java:151-180 `DocLineElementData`: a text, or a link with its label.  The text is the text of the comment
without any change (DocCommentAstBuilder.java:137-141 `visitDocText`); so is the alias, here `label` (lines 84-90). -/
inductive LineElement where
  | text (s : PyStr)
  | see (label link : PyStr) (isCrossReference : Bool)

abbrev Line := List LineElement
/-- DocCommentsTemplateData.java:119-149 `DocMultilineData` -/
abbrev Multiline := List Line

/-- DocCommentsTemplateData.java:68-115 `DocElementData` -/
inductive Element where
  | multiline (m : Multiline)
  | see (label link : PyStr) (isCrossReference : Bool)
  | todo (m : Multiline)
  | param (name : PyStr) (description : Multiline)
  | deprecated

/-- DocCommentsTemplateData.java:52-67 `DocParagraphData` -/
abbrev Paragraph := List Element
/-- DocCommentsTemplateData.java:35-50: the paragraphs of all comments of a node -/
abbrev Comments := List Paragraph

/-- DocComment.inc.ftl:3 `${""?left_pad(indent * 4)}` -/
def pad (n : Nat) : PyStr := List.replicate n 32

/-- the end of a line of the template -/
def newline : PyStr := [10]

/-- DocComment.inc.ftl:26-30, 66-67: a link -/
def seeText (label link : PyStr) (cross : Bool) : PyStr :=
  py! ":" ++ (if cross then py! "ref" else py! "obj") ++ py! ":`" ++ label ++ py! " <" ++ link ++ py! ">`"

def LineElement.out : LineElement → PyStr
  | .text s => s
  | .see label link cross => seeText label link cross

/-- DocComment.inc.ftl:61-69: the elements of a line; all but the first follow a space -/
def lineOut : (first : Bool) → Line → PyStr
  | _, [] => []
  | first, e :: es => (if first then [] else py! " ") ++ e.out ++ lineOut false es

/-- DocComment.inc.ftl:54-75 `doc_multiline`: all lines but the first are indented, all but the last end with a new line -/
def multilineOut (indent multiLineIndent : Nat) : (first : Bool) → Multiline → PyStr
  | _, [] => []
  | first, [l] => (if first then [] else pad (indent * 4) ++ pad multiLineIndent) ++ lineOut true l
  | first, l :: ls => (if first then [] else pad (indent * 4) ++ pad multiLineIndent) ++ lineOut true l ++ newline ++
      multilineOut indent multiLineIndent false ls

/-- DocComment.inc.ftl:18-32: an element which is no parameter -/
def Element.out (indent : Nat) : Element → PyStr
  | .multiline m => pad (indent * 4) ++ multilineOut indent 0 true m ++ newline
  | .todo m => pad (indent * 4) ++ py! ".. todo:: " ++ multilineOut indent 10 true m ++ newline
  | .see label link cross => pad (indent * 4) ++ py! ".. seealso:: " ++ seeText label link cross ++ newline
  | .param _ _ => []
  | .deprecated => []

/-- DocComment.inc.ftl:39-43: a parameter -/
def Element.paramOut (indent : Nat) : Element → PyStr
  | .param name description =>
    pad (indent * 4) ++ py! "- **" ++ name ++ py! "** " ++ multilineOut indent 2 true description ++ newline
  | _ => []

/-- DocComment.inc.ftl:77-102 `has_paragraph_multiline`, `has_paragraph_todo_tag`, `has_paragraph_see_tag` -/
def Element.isText : Element → Bool
  | .multiline _ => true
  | .todo _ => true
  | .see _ _ _ => true
  | _ => false

/-- DocComment.inc.ftl:104-112 `has_comment_param_tag` -/
def Element.isParam : Element → Bool
  | .param _ _ => true
  | _ => false

/-- DocComment.inc.ftl:114-122 `has_comment_deprecated_tag` -/
def Element.isDeprecated : Element → Bool
  | .deprecated => true
  | _ => false

/-- DocComment.inc.ftl:14-33: the paragraphs; an empty line before all but the first -/
def paragraphsOut (indent : Nat) : (first : Bool) → Comments → PyStr
  | _, [] => []
  | first, p :: ps => (if !first && p.any Element.isText then newline else []) ++ p.flatMap (Element.out indent) ++
      paragraphsOut indent false ps

/-- DocComment.inc.ftl:12-52 `doc_comment` -/
def commentOut (indent : Nat) (c : Comments) : PyStr :=
  paragraphsOut indent true c ++
  (if c.any (·.any Element.isParam) then newline ++ pad (indent * 4) ++ py! "**Parameters:**" ++ newline ++ newline ++
    c.flatMap (·.flatMap (Element.paramOut indent)) else []) ++
  (if c.any (·.any Element.isDeprecated) then newline ++ pad (indent * 4) ++ py! "**Deprecated**" ++ newline else [])

/-- three double quotes -/
def quotes : PyStr := [34, 34, 34]

/-- A string literal of a template around a comment.  DocComment.inc.ftl:1-6 `doc_comments`: `before` is the end of the line and `after` the
indent (`docCommentsOut`).  `doc_comments_inner` (lines 8-10) is used inside of string literals whose other text is in the template, for
example Structure.py.ftl:240-252. -/
def literalOut (before after : PyStr) (indent : Nat) (c : Comments) : PyStr := quotes ++ before ++ commentOut indent c ++ after ++ quotes

/-- DocComment.inc.ftl:1-6 `doc_comments`, without the indent before it -/
def docCommentsOut (indent : Nat) (c : Comments) : PyStr := literalOut newline (pad (indent * 4)) indent c ++ newline

/-- Python reads a string literal in triple quotes (2.4.1): its value and what follows it, given the text after the first three quotes;
`skip` characters belong to the last escape sequence.  `none` is a `SyntaxError`.  Characters which must not be in a source file (NUL) and
carriage returns, which the comments cannot contain, are not considered. -/
def pyDocRest : (skip : Nat) → PyStr → Option (PyStr × PyStr)
  | _, [] => none
  | skip + 1, _ :: rest => pyDocRest skip rest
  | 0, c :: rest =>
    if c = ch! '\\' then
      match pyEscape rest with
      | some (cs, n) => (pyDocRest n rest).map fun r => (cs ++ r.1, r.2)
      | none => none
    else if c = 34 ∧ rest.take 2 = [34, 34] then some ([], rest.drop 2)
    else (pyDocRest 0 rest).map fun r => (c :: r.1, r.2)

/-- the value of the string literal at the beginning of a text and what follows it -/
def pyDoc (source : PyStr) : Option (PyStr × PyStr) :=
  if source.take 3 = quotes then pyDocRest 0 (source.drop 3) else none

end Zserio.Doc
