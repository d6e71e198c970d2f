import Verif.Model.Emitters
/-
What is expected to be generated for the symbols of a schema.
-/
namespace Zserio.Emitters
open Templates (PackageName TypeId InstantiateDecl)

/-- is code wanted for symbols of this kind? -/
def Options.wants (o : Options) : Kind → Bool
  | .ruleGroup => false
  | .sqlTable | .sqlDatabase => o.withSqlCode
  | .service => o.withServiceCode
  | .pubsub => o.withPubsubCode
  | _ => true

/-- the template for symbols of each kind -/
def Kind.templateName : Kind → PyStr
  | .const => py! "Constant.py.ftl"
  | .ruleGroup => []
  | .subtype => py! "Subtype.py.ftl"
  | .structure => py! "Structure.py.ftl"
  | .choice => py! "Choice.py.ftl"
  | .union => py! "Union.py.ftl"
  | .enum => py! "Enumeration.py.ftl"
  | .bitmask => py! "Bitmask.py.ftl"
  | .sqlTable => py! "SqlTable.py.ftl"
  | .sqlDatabase => py! "SqlDatabase.py.ftl"
  | .service => py! "Service.py.ftl"
  | .pubsub => py! "Pubsub.py.ftl"

/-- what a node stands for: a symbol which is no template for itself, a template for all its instantiations -/
def Node.means (pkg : PackageName) : Node → List Symbol
  | .symbol k n => [⟨k, pkg, n⟩]
  | .template _ _ insts => insts.map Inst.symbol
  | .instantiateType _ _ => []

/-- all that a schema consists of -/
def expected (s : List Package) : List Symbol := s.flatMap fun p => p.nodes.flatMap (Node.means p.name)

/-- the file of a symbol -/
def Symbol.file (x : Symbol) : File := ⟨x.pkg, x.moduleName, x.kind.templateName, x⟩

/-- an instantiation in another package than its template -/
def Inst.Moved (i : Inst) : Prop := i.pkg ≠ i.templatePkg

instance (i : Inst) : Decidable i.Moved := inferInstanceAs (Decidable (_ ≠ _))

/-- the instantiations of a template -/
def Node.insts : Node → List Inst
  | .template _ _ insts => insts
  | _ => []

/-- the instantiation asked for by `instantiate` -/
def Node.requested : Node → List Inst
  | .instantiateType _ i => [i]
  | _ => []

/-- all instantiations of templates -/
def allInsts (s : List Package) : List Inst := s.flatMap fun p => p.nodes.flatMap Node.insts

/-- all instantiations asked for by `instantiate` -/
def requested (s : List Package) : List Inst := s.flatMap fun p => p.nodes.flatMap Node.requested

/-- Instantiations are where they are asked for. -/
structure Located (s : List Package) : Prop where
  /-- instantiations know the packages of their templates -/
  home : ∀ p ∈ s, ∀ k n insts, .template k n insts ∈ p.nodes → ∀ i ∈ insts, i.templatePkg = p.name
  /-- an `instantiate` makes an instantiation for its own package -/
  own : ∀ p ∈ s, ∀ n i, .instantiateType n i ∈ p.nodes → i.pkg = p.name
  /-- each instantiation in another package than its template is made by exactly one `instantiate` -/
  moved : ((requested s).filter fun i => i.Moved).Perm ((allInsts s).filter fun i => i.Moved)

/-- what is asked for in the schema -/
def sourceDecls (ps : List (PackageName × List Source)) : List (InstantiateDecl × Nat) :=
  ps.flatMap fun p => p.2.flatMap fun
    | .instantiate d i => [(d, i)]
    | _ => []

/-- the templates of the schema -/
def sourceTemplates (ps : List (PackageName × List Source)) : List TypeId :=
  ps.flatMap fun p => p.2.flatMap fun
    | .template _ id => [id]
    | _ => []

/-- The schema which the templator has processed. -/
structure Processed (res : Templates.Result) (ps : List (PackageName × List Source)) : Prop where
  /-- symbols are in their packages, and there are no two templates and no two `instantiate` of the same name -/
  templatePkg : ∀ p ∈ ps, ∀ k id, .template k id ∈ p.2 → id.pkg = p.1
  declPkg : ∀ p ∈ ps, ∀ d i, .instantiate d i ∈ p.2 → d.id.pkg = p.1
  templates : (sourceTemplates ps).Nodup
  decls : ((sourceDecls ps).map fun x => x.1.id).Nodup
  /-- all templates which are instantiated and all visible `instantiate` are part of the schema -/
  closed : ∀ e ∈ res.state.entries, e.template ∈ sourceTemplates ps
  visible : ∀ c ∈ res.state.calls, ∀ d ∈ c.vis, ∃ i, (d, i) ∈ sourceDecls ps
  /-- the reference of an `instantiate` has been visited, and that `instantiate` was found for it -/
  own : ∀ d i, (d, i) ∈ sourceDecls ps → ∃ c ∈ res.state.calls, c.index = i ∧ Templates.visible c.vis c.template c.args = some d

end Zserio.Emitters
