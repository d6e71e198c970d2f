import Verif.Model.DocClassic
/-
Specification vocabulary for paragraphs of classic documentation comments.
-/
namespace Zserio.DocClassic

/-- The items between empty lines: cut the comment at each empty line. -/
def cut : List Item → List (List Item)
  | [] => [[]]
  | i :: rest =>
    if i = .empty then [] :: cut rest
    else
      match cut rest with
      | g :: gs => (i :: g) :: gs
      | [] => [[i]]

/-- What was written for an element: its first line, which a tag has on its own, and the lines below. -/
def Element.written : Element → List Item
  | .see label link => [.see label link]
  | .deprecated => [.deprecated]
  | .multiline lines => lines.map .line
  | .todo lines => match lines with | [] => [] | l :: ls => .todo l :: ls.map .line
  | .param name lines => match lines with | [] => [] | l :: ls => .param name l :: ls.map .line

/-- Elements to which the lines below belong. -/
def Element.HasLines : Element → Prop
  | .multiline _ | .todo _ | .param _ _ => True
  | _ => False

/-- Text which does not belong to a tag. -/
def Element.IsText : Element → Prop
  | .multiline _ => True
  | _ => False

end Zserio.DocClassic
