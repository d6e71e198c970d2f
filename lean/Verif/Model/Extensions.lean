import Verif.Model.Version
/-
When the extensions of the compiler are called: ExtensionManager.java and `execute` of ZserioTool.java in compiler/core/src/zserio/tools.

Simplifications: an extension is given by what its methods do for the schema and the arguments at hand; exceptions are their messages; how the
jar files of extensions are found is not represented.
-/
namespace Zserio.Extensions

/-- Extension.java for a fixed schema and fixed arguments: the results of `isEnabled`, `check` and `process`; an error is the message of an
exception -/
structure Extension where
  name : PyStr
  zserioVersion : PyStr
  isEnabled : Bool
  check : Except PyStr Unit
  process : Except PyStr Unit
  deriving DecidableEq

/-- what can be observed -/
inductive Event where
  | ignored (e : Extension)
  | noExtensions
  | check (e : Extension)
  | process (e : Extension)
  | disabled (e : Extension)
  | done
  deriving DecidableEq

/-- the events, and the exception if there is one -/
structure Run where
  events : List Event
  result : Except PyStr Unit
  deriving DecidableEq

/-- one statement after another; an exception skips the rest -/
def Run.seq (a b : Run) : Run :=
  match a.result with
  | .error m => ⟨a.events, .error m⟩
  | .ok _ => ⟨a.events ++ b.events, b.result⟩

/-- ExtensionManager.java:33-53: the extensions which are kept -/
def available (core : PyStr) (loaded : List Extension) : List Extension :=
  loaded.filter fun e => Version.matchExtension core e.zserioVersion

/-- ExtensionManager.java:46-51: messages about the others -/
def ignoredEvents (core : PyStr) (loaded : List Extension) : List Event :=
  (loaded.filter fun e => !Version.matchExtension core e.zserioVersion).map .ignored

/-- the messages of exceptions get the name of the extension (ExtensionManager.java:217-225, 236-244) -/
def wrap (e : Extension) : Except PyStr Unit → Except PyStr Unit
  | .ok _ => .ok ()
  | .error m => .error (e.name ++ [ch! ':', ch! ' '] ++ m)

/-- `check` (ExtensionManager.java:209-226) -/
def check (e : Extension) : Run := ⟨[.check e], wrap e e.check⟩

/-- `process` (ExtensionManager.java:228-245) -/
def process (e : Extension) : Run := ⟨[.process e], wrap e e.process⟩

/-- the first loop of `callExtensions` (ExtensionManager.java:84-88) -/
def checkAll : List Extension → Run
  | [] => ⟨[], .ok ()⟩
  | e :: es => (check e).seq (checkAll es)

/-- the body of the second loop (ExtensionManager.java:92-101) -/
def callOne (cross : Bool) (e : Extension) : Run :=
  if e.isEnabled then
    (if !cross then check e else ⟨[], .ok ()⟩).seq (process e)
  else ⟨[.disabled e], .ok ()⟩

/-- the second loop of `callExtensions` (ExtensionManager.java:90-102) -/
def callAll (cross : Bool) : List Extension → Run
  | [] => ⟨[], .ok ()⟩
  | e :: es => (callOne cross e).seq (callAll cross es)

/-- `callExtensions` (ExtensionManager.java:74-104) -/
def callExtensions (cross : Bool) (es : List Extension) : Run :=
  if es.isEmpty then ⟨[.noExtensions], .ok ()⟩
  else (if cross then checkAll es else ⟨[], .ok ()⟩).seq (callAll cross es)

/-- ZserioTool.java:127-165: the constructor and `process`, for arguments which ask neither for help nor for the version and have a file name;
`parsed` is the result of `parse` -/
def tool (core : PyStr) (loaded : List Extension) (cross : Bool) (parsed : Except PyStr Unit) : Run :=
  Run.seq ⟨ignoredEvents core loaded, .ok ()⟩
    (Run.seq ⟨[], parsed⟩ (Run.seq (callExtensions cross (available core loaded)) ⟨[.done], .ok ()⟩))

end Zserio.Extensions
