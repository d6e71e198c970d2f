import Verif.Model.DocComment
/-
What is written in documentation comments.
-/
namespace Zserio.Doc

def LineElement.texts : LineElement → List PyStr
  | .text s => [s]
  | .see label link _ => [label, link]

def Element.texts : Element → List PyStr
  | .multiline m => m.flatMap (·.flatMap LineElement.texts)
  | .todo m => m.flatMap (·.flatMap LineElement.texts)
  | .see label link _ => [label, link]
  | .param name m => name :: m.flatMap (·.flatMap LineElement.texts)
  | .deprecated => []

/-- all texts, aliases, links and names of parameters in the comments -/
def Comments.texts (c : Comments) : List PyStr := c.flatMap (·.flatMap Element.texts)

/-- contains three double quotes in a row -/
def HasTripleQuote (s : PyStr) : Prop := [34, 34, 34] <:+: s

/-- contains a backslash -/
def HasBackslash (s : PyStr) : Prop := 92 ∈ s

/-- text of a template: neither quotes nor backslashes -/
def Plain (s : PyStr) : Prop := 34 ∉ s ∧ 92 ∉ s

end Zserio.Doc
