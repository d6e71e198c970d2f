import Verif.Model.DocAttach
/-
When a documentation comment belongs to a declaration.
-/
namespace Zserio.DocAttach

/-- token `k` is a documentation comment, and only comments are between it and token `i`, which follows it -/
def Attached (ts : List Tok) (k i : Nat) : Prop :=
  k < i ∧ (∃ t, ts[k]? = some t ∧ (t.kind = some .docComment ∨ t.kind = some .markdownComment)) ∧
    ∀ j t, k < j → j < i → ts[j]? = some t → ∃ kind, t.kind = some kind ∧ Lexer.isHidden kind = true

/-- the position in the stream of what comes behind the given tokens -/
def position (l : List (Lexer.Kind × List Nat)) : Nat := (l.filter fun t => t.1 ≠ .space).length

/-- token `n` is the next documentation comment behind `k`, or the declaration `i` if there is none before it -/
def Next (ts : List Tok) (k i n : Nat) : Prop := k < n ∧ (n = i ∨ Attached ts n i) ∧ ∀ j, k < j → j < n → ¬ Attached ts j i

/-- a line of an indented comment: empty, or indented -/
def Line (indent raw shown : List Nat) : Prop := (raw = [] ∧ shown = []) ∨ raw = indent ++ shown

/-- a part of a text in one line -/
def OneLine (s : List Nat) : Prop := ∀ c ∈ s, c ∉ [10, 13, 0x85, 0x2028, 0x2029]

/-- lines put together -/
def unlines (lines : List (List Nat)) : List Nat := [10].intercalate lines

end Zserio.DocAttach
