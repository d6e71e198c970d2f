import Verif.Model.CppBind
/-
Which class is wanted for a name.
-/
namespace Zserio.CppBind

/-- the module has a class of this name -/
def Available (m : Module) (c : ClassName) : Prop := ∃ attributes, m = some attributes ∧ (attributes c.cppName).isSome

/-- the class which a name denotes if the C++ implementation is wanted and may be missing -/
def Preferred (m : Module) (c : ClassName) (cls : Cls) : Prop :=
  (∃ attributes id, m = some attributes ∧ attributes c.cppName = some id ∧ cls = .cpp id) ∨ (¬ Available m c ∧ cls = .python c)

end Zserio.CppBind
