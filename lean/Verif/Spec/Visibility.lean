import Verif.Model.Visibility
/-
What the language guide says about names and imports (doc/ZserioLanguageOverview.md:1490-1541), without reference to how imports are
processed.
-/
namespace Zserio.Visibility

/-- the package `q` defines the symbol `n` -/
def Root.Defines (root : Root) (q : PackageName) (n : Name) : Prop := ∃ d, root.get q = some d ∧ n ∈ d.locals

/-- a reference with the package name `q` (`[]`: without) and the name `n` fits the symbol -/
def Fits (q : PackageName) (n : Name) (s : Symbol) : Prop := s.name = n ∧ (q = [] ∨ q = s.package)

/-- symbols which are defined in the package itself or imported one by one, and not with their whole package -/
def Package.Near (d : Package) (q : PackageName) (n : Name) (s : Symbol) : Prop :=
  Fits q n s ∧ ((s.package = d.name ∧ n ∈ d.locals) ∨ (.single s.package n ∈ d.imports ∧ .all s.package ∉ d.imports))

/-- symbols of packages which are imported as a whole -/
def Package.Far (root : Root) (d : Package) (q : PackageName) (n : Name) (s : Symbol) : Prop :=
  Fits q n s ∧ .all s.package ∈ d.imports ∧ root.Defines s.package n

/-- the only one -/
def Only {α : Type} (p : α → Prop) (s : α) : Prop := p s ∧ ∀ s', p s' → s' = s

/-- none -/
def NoOne {α : Type} (p : α → Prop) : Prop := ∀ s, ¬ p s

/-- The package does not import its own symbols one by one. -/
def Package.NoSelfImport (d : Package) : Prop := ∀ n, .single d.name n ∉ d.imports

/-- The imports have been resolved (Import.java): what is imported exists. -/
def Package.Resolved (root : Root) (d : Package) : Prop := ∀ i ∈ d.imports, i.resolve root = .ok ()

/-- the packages of a schema: found under their names -/
def Package.In (root : Root) (d : Package) : Prop := root.get d.name = some d

end Zserio.Visibility
