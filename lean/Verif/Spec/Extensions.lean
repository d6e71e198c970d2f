import Verif.Model.Extensions
/-
What is expected of the calls of extensions.
-/
namespace Zserio.Extensions

/-- the call of an extension has not raised -/
def Event.Succeeded : Event → Prop
  | .check e => e.check = .ok ()
  | .process e => e.process = .ok ()
  | _ => True

/-- the call of an extension has raised an exception; its message begins with the name of the extension -/
def Event.FailedWith (m : PyStr) : Event → Prop
  | .check e => ∃ t, e.check = .error t ∧ m = e.name ++ py! ": " ++ t
  | .process e => ∃ t, e.process = .error t ∧ m = e.name ++ py! ": " ++ t
  | _ => False

/-- the extension which is called -/
def Event.called : Event → Option Extension
  | .check e => some e
  | .process e => some e
  | _ => none

/-- the extension which generates -/
def Event.processed : Event → Option Extension
  | .process e => some e
  | _ => none

end Zserio.Extensions
