import Verif.Model.JsonText
/-
Which files a run of the compiler writes: reading of the schema files (ZserioTool.java, InputFileManager.java), time stamps
(ResourceManager.java, ZserioExtensionParameters.java, OutputFileManager.java) and writing of the generated files
(PythonDefaultEmitter.java, FreeMarkerUtil.java), as a machine whose steps can be interleaved with other things which happen to the
files.

Simplifications: one run at a time; directories can be created and files can be read and written (a failure of that is `stop`);
the class path is one file; an output file is decoded without errors. What the compiler makes of the schema is a parameter
(`Jar.imports`, `Jar.outputs`).
-/
namespace Zserio.Regen

/-- A file: its text and the time of its last modification -/
structure File where
  text : PyStr
  stamp : Nat
  deriving DecidableEq

/-- a directory tree -/
abbrev Tree := PyStr → Option File

/-- a file is changed -/
def Tree.put (t : Tree) (p : PyStr) (f : Option File) : Tree := fun q => if q = p then f else t q

/-- The options which change the generated code, PythonExtensionParameters.java:21-29 -/
structure Flags where
  writerCode : Bool
  pubsubCode : Bool
  serviceCode : Bool
  sqlCode : Bool
  rangeCheckCode : Bool
  typeInfoCode : Bool
  codeComments : Bool
  deriving DecidableEq

/-- An installed compiler: the versions of the Python extension and of the core, and the time stamp of its files. `imports` are the
files of the packages which a schema file imports, `none` if it cannot be parsed. `outputs` are the files generated for the
contents of the schema files in the order in which they are parsed: for each the path and the text behind the file header, `none` if
the schema is refused. -/
structure Jar where
  version : PyStr
  core : PyStr
  stamp : Nat
  imports : PyStr → Option (List PyStr)
  outputs : Flags → List PyStr → Option (List (PyStr × PyStr))

/-! ## The header of generated files -/

/-- java.util.StringJoiner with the delimiter `, ` -/
def join : List PyStr → PyStr
  | [] => []
  | [x] => x
  | x :: xs => x ++ py! ", " ++ join xs

/-- the names of the options which are set, PythonExtensionParameters.java:30-45 -/
def Flags.names (f : Flags) : List PyStr :=
  (if f.writerCode then [py! "writerCode"] else []) ++
  (if f.pubsubCode then [py! "pubsubCode"] else []) ++
  (if f.serviceCode then [py! "serviceCode"] else []) ++
  (if f.sqlCode then [py! "sqlCode"] else []) ++
  (if f.rangeCheckCode then [py! "rangeCheckCode"] else []) ++
  (if f.typeInfoCode then [py! "typeInfoCode"] else []) ++
  (if f.codeComments then [py! "codeComments"] else [])

/-- the first line of `generatorDescription`, TemplateDataContext.java:23-25 -/
def Jar.versionLine (j : Jar) : PyStr :=
  py! "# Automatically generated by Zserio Python generator version " ++ j.version ++ py! " using Zserio core " ++ j.core ++ py! "."

/-- the second line of it, TemplateDataContext.java:26 -/
def Flags.setupLine (f : Flags) : PyStr := py! "# Generator setup: " ++ join f.names

/-- the text of a generated file: `file_header` (FileHeader.inc.ftl:1-3), with which every template begins, and the rest -/
def Jar.fileText (j : Jar) (f : Flags) (body : PyStr) : PyStr :=
  j.versionLine ++ [ch! '\n'] ++ f.setupLine ++ [ch! '\n'] ++ body

/-- java.io.BufferedReader.readLine: a line and what follows it -/
def takeLine : PyStr → PyStr × PyStr
  | [] => ([], [])
  | c :: s =>
    if c = ch! '\n' then ([], s)
    else if c = ch! '\r' then
      match s with
      | d :: s' => if d = ch! '\n' then ([], s') else ([], d :: s')
      | [] => ([], [])
    else ((c :: (takeLine s).1), (takeLine s).2)

/-- java.nio.file.Files.lines(...).limit(n) -/
def firstLines : Nat → PyStr → List PyStr
  | 0, _ => []
  | _, [] => []
  | n + 1, s => (takeLine s).1 :: firstLines n (takeLine s).2

/-- PythonDefaultEmitter.checkGeneratorDescription, PythonDefaultEmitter.java:102-114 -/
def checkDescription (j : Jar) (f : Flags) : Option File → Bool
  | none => false
  | some file => firstLines 2 file.text = [j.versionLine, f.setupLine]

/-! ## Time stamps -/

/-- java.io.File.lastModified -/
def lastModified : Option File → Nat
  | none => 0
  | some f => f.stamp

/-- `lastModifiedTime` and `lastModifiedTimeError` of InputFileManager.java:121-122 -/
structure InputTime where
  time : Nat := 0
  error : Bool := false

/-- InputFileManager.registerFile, InputFileManager.java:68-88 -/
def InputTime.register (t : InputTime) (stamp : Nat) : InputTime :=
  if t.error then t
  else if stamp > t.time then ⟨stamp, false⟩
  else if stamp = 0 then ⟨0, true⟩
  else t

/-- ZserioExtensionParameters.java:21-23 -/
def sourceTime (input resource : Nat) : Nat := if input = 0 ∨ resource = 0 then 0 else max input resource

/-- OutputFileManager.checkTimestamps, OutputFileManager.java:60-66 -/
def checkTimestamps (ignore : Bool) (time : Nat) (file : Option File) : Bool :=
  if ignore ∨ time = 0 then false else lastModified file > time

/-! ## A run -/

/-- What a run was started with: the compiler, the options, and `-ignoreTimestamps` -/
structure Params where
  jar : Jar
  flags : Flags
  ignore : Bool

/-- How far the compiler is.
* `idle`: it does not run; the last run was successful or not
* `reading`: files which are to be parsed, the parsed files, their latest time stamp, and the file which has been parsed but not yet
  registered
* `emitting`: the time of the sources, the files which are to be generated, those which are registered, and the text which has still
  to be written to the file which is open -/
inductive Proc where
  | idle (success : Bool)
  | reading (a : Params) (todo : List PyStr) (view : List (PyStr × PyStr)) (time : InputTime)
      (current : Option (PyStr × PyStr × List PyStr))
  | emitting (a : Params) (time : Nat) (todo : List (PyStr × PyStr)) (registered : List PyStr) (opened : Option PyStr)

/-- The files, the installed compiler, the clock, and the run -/
structure State where
  clock : Nat
  sources : Tree
  out : Tree
  jar : Jar
  proc : Proc

/-- What can happen.
* `edit`: a schema file is written; `copy` gives it a time stamp, like `cp -p`, `mv` or `tar`
* `start`: the compiler is started with the file `main`
* `step`: the next step of the compiler; at most `n + 1` characters are written
* `stop`: the compiler is killed, or fails (for instance since the disk is full) -/
inductive Event where
  | tick
  | edit (p text : PyStr)
  | copy (p text : PyStr) (stamp : Nat)
  | remove (p : PyStr)
  | install (j : Jar)
  | start (main : PyStr) (flags : Flags) (ignore : Bool)
  | step (n : Nat)
  | stop

/-- the paths of the parsed files, InputFileManager.inputFiles -/
def paths (view : List (PyStr × PyStr)) : List PyStr := view.map (·.1)

/-- the next step of parsing: ZserioTool.parsePackage and parseImportedPackages (ZserioTool.java:206-248), with the recursion over
the imports as a list of files which are still to be parsed; then ZserioTool.process (158-165) -/
def readStep (s : State) (a : Params) (todo : List PyStr) (view : List (PyStr × PyStr)) (time : InputTime) :
    Option (PyStr × PyStr × List PyStr) → Proc
  | some (p, text, imports) =>
    .reading a (imports ++ todo) (view ++ [(p, text)]) (time.register (lastModified (s.sources p))) none
  | none =>
    match todo with
    | [] =>
      match a.jar.outputs a.flags (view.map (·.2)) with
      | none => .idle false
      | some outs => .emitting a (sourceTime time.time s.jar.stamp) outs [] none
    | p :: ps =>
      if (paths view).contains p then .reading a ps view time none
      else
        match s.sources p with
        | none => .idle false
        | some f =>
          match a.jar.imports f.text with
          | none => .idle false
          | some imports => .reading a ps view time (some (p, f.text, imports))

/-- OutputFileManager.registerOutputFile, OutputFileManager.java:76-83, at the end of PythonDefaultEmitter.processTemplate -/
def register (a : Params) (time : Nat) (p : PyStr) (rest : List (PyStr × PyStr)) (registered : List PyStr) : Proc :=
  if registered.contains p then .idle false else .emitting a time rest (registered ++ [p]) none

/-- the next step of generation: PythonDefaultEmitter.processTemplate (PythonDefaultEmitter.java:74-89) and
FreeMarkerUtil.processTemplate (FreeMarkerUtil.java:91-121), which truncates the file, writes it in pieces and closes it -/
def emitStep (s : State) (n : Nat) (a : Params) (time : Nat) (todo : List (PyStr × PyStr)) (registered : List PyStr)
    (opened : Option PyStr) : State :=
  match todo with
  | [] => { s with proc := .idle true }
  | (p, body) :: rest =>
    match opened with
    | none =>
      if !checkTimestamps a.ignore time (s.out p) || !checkDescription a.jar a.flags (s.out p) then
        { s with
          out := s.out.put p (some ⟨[], s.clock⟩)
          proc := .emitting a time todo registered (some (a.jar.fileText a.flags body)) }
      else { s with proc := register a time p rest registered }
    | some [] => { s with proc := register a time p rest registered }
    | some text =>
      { s with
        out := s.out.put p (some ⟨((s.out p).map (·.text)).getD [] ++ text.take (n + 1), s.clock⟩)
        proc := .emitting a time todo registered (some (text.drop (n + 1))) }

/-- the next state -/
def apply (s : State) : Event → State
  | .tick => { s with clock := s.clock + 1 }
  | .edit p text => { s with sources := s.sources.put p (some ⟨text, s.clock⟩) }
  | .copy p text stamp => { s with sources := s.sources.put p (some ⟨text, stamp⟩) }
  | .remove p => { s with sources := s.sources.put p none }
  | .install j => { s with jar := j }
  | .start main flags ignore =>
    match s.proc with
    | .idle _ => { s with proc := .reading ⟨s.jar, flags, ignore⟩ [main] [] {} none }
    | _ => s
  | .step n =>
    match s.proc with
    | .idle _ => s
    | .reading a todo view time current => { s with proc := readStep s a todo view time current }
    | .emitting a time todo registered opened => emitStep s n a time todo registered opened
  | .stop => { s with proc := .idle false }

/-- a history -/
def run (s : State) (es : List Event) : State := es.foldl apply s

end Zserio.Regen
