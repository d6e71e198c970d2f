import Verif.Model.Packages
/-
What the grammar and the front end of the compiler guarantee for the packages of a schema, and the name of a symbol in
Python.
-/
namespace Zserio.Names

/-- The packages the front end passes to the generator:
packages have different names (ZserioAstBuilder.java:92-99), identifiers are those of the lexer (ZserioLexer.g4:154), and the
compiler makes the name of an instantiation without `instantiate` out of the name of the template, possibly shortened, and
what follows an underscore (ZserioAstTemplator.java:239-260, 333-361); it is located in the package of the template. -/
structure FrontEnd (ps : List PackageDecl) : Prop where
  names : (ps.map (·.name)).Nodup
  ids : ∀ p ∈ ps, ∀ id ∈ p.name, IsIdentifier id
  symbols : ∀ p ∈ ps, ∀ s ∈ p.symbols, IsIdentifier s.name
  instances : ∀ p ∈ ps, ∀ s ∈ p.symbols, s.kind = .instance →
    ∃ t ∈ p.symbols, t.kind = .template ∧ ∃ r rest, r ≠ [] ∧ r <+: t.name ∧ s.name = r ++ py! "_" ++ rest

/-- There is a module for the symbol: it is no template and the generation of its code is not switched off. -/
def SymbolDecl.Generated (s : SymbolDecl) : Prop := s.kind ≠ .template ∧ s.emitted = true

/-- The name of a symbol in Python: constants in upper snake case, types as they are. -/
def SymbolDecl.inPython (s : SymbolDecl) : PyStr := if s.kind = .const then upperSnake s.name else s.name

end Zserio.Names
