import Verif.Model.JsonText
/-
Which implementation of the classes of the runtime library is used: runtime/src/zserio/cppbind.py and the modules which call it.

Simplifications: the module `zserio_cpp` is the partial function from names of classes to classes, or missing; other errors than ImportError
while it is imported are not represented.  Paths are those below compiler/extensions/python/runtime/src/zserio.
-/
namespace Zserio.CppBind

/-- the classes which have a second implementation: exception.py:8, bitbuffer.py:14, bitreader.py:14, bitwriter.py:23 -/
inductive ClassName where
  | exception
  | bitBuffer
  | reader
  | writer
  deriving DecidableEq

/-- the names which are passed to `import_cpp_class`: exception.py:15, bitbuffer.py:102, bitreader.py:641, bitwriter.py:392 -/
def ClassName.cppName : ClassName → PyStr
  | .exception => py! "PythonRuntimeException"
  | .bitBuffer => py! "BitBuffer"
  | .reader => py! "BitStreamReader"
  | .writer => py! "BitStreamWriter"

/-- a class: that of the Python runtime, or what the module `zserio_cpp` has under a name -/
inductive Cls where
  | python (c : ClassName)
  | cpp (id : Nat)
  deriving DecidableEq

/-- the module `zserio_cpp`: `none` if it cannot be imported, otherwise its attributes -/
abbrev Module := Option (PyStr → Option Nat)

/-- an exception: its class and the text it is about (the value of the variable or the name of the class) -/
inductive Raised where
  | unknownImplementation (cls : Cls) (impl : PyStr)
  | notAvailable (cls : Cls) (name : PyStr)
  deriving DecidableEq

/-- `getattr(importlib.import_module("zserio_cpp"), cppname)` (cppbind.py:43): `none` is ImportError or AttributeError -/
def lookup (m : Module) (name : PyStr) : Option Nat := m.bind fun attributes => attributes name

/-- `import_cpp_class` (cppbind.py:13-48): `env` is the value of ZSERIO_PYTHON_IMPLEMENTATION, `exc` the class of exceptions -/
def importCppClass (env : Option PyStr) (m : Module) (exc : Cls) (name : PyStr) : Except Raised (Option Cls) :=
  match env with
  | none =>
    match lookup m name with
    | some c => .ok (some (.cpp c))
    | none => .ok none
  | some impl =>
    if impl ∉ [py! "python", py! "cpp", py! "c++"] then .error (.unknownImplementation exc impl)
    else if impl ≠ py! "python" then
      match lookup m name with
      | some c => .ok (some (.cpp c))
      | none => if impl ∈ [py! "cpp", py! "c++"] then .error (.notAvailable exc name) else .ok none
    else .ok none

/-- `C = import_cpp_class(name) or C` (exception.py:14-16, bitbuffer.py:102, bitwriter.py:392; bitreader.py:641-643 is the same with an `if`) -/
def choose (env : Option PyStr) (m : Module) (exc : Cls) (c : ClassName) : Except Raised Cls := do
  let r ← importCppClass env m exc c.cppName
  .ok (r.getD (.python c))

/-- the names which the modules of the runtime library have for the classes after `import zserio` -/
structure Runtime where
  exception : Cls
  bitBuffer : Cls
  reader : Cls
  writer : Cls
  deriving DecidableEq

/-- `import zserio` (__init__.py:16-18): bitbuffer.py imports exception.py first (bitbuffer.py:7), whose own exception is passed to it
(exception.py:15); the other modules raise the exception which has been chosen (cppbind.py:30-35) -/
def importZserio (env : Option PyStr) (m : Module) : Except Raised Runtime := do
  let exc ← choose env m (.python .exception) .exception
  let bitBuffer ← choose env m exc .bitBuffer
  let reader ← choose env m exc .reader
  let writer ← choose env m exc .writer
  .ok { exception := exc, bitBuffer := bitBuffer, reader := reader, writer := writer }

/-- the class of a name -/
def Runtime.get (r : Runtime) : ClassName → Cls
  | .exception => r.exception
  | .bitBuffer => r.bitBuffer
  | .reader => r.reader
  | .writer => r.writer

end Zserio.CppBind
