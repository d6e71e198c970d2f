import Verif.Model.GeneratedNames
/-
Model of the checks of names a compound type has to pass before Python code is generated for it:
ast/IdentifierValidator.java, ast/ScopeSymbolValidator.java, extension/common/ReservedKeywordsClashChecker.java of the core,
PythonScopeSymbolClashChecker.java and PythonGeneratedSymbolsClashChecker.java of the Python extension, in the order in
which they are executed (PythonExtension.java:51-88).
-/
namespace Zserio.Names

/-- The errors of the checkers. -/
inductive ClashError where
  | reservedPrefix (name : PyStr)
  | firstLetter (name : PyStr)
  | keyword (name : PyStr)
  | symbolClash (name : PyStr)
  | leadingUnderscore (name : PyStr)
  | apiClash (name : PyStr)
  | indicatorClash (name : PyStr)
  deriving DecidableEq, Repr

/-- Checks which are made one after the other for all elements of a list: the first error counts. -/
def checkAll {α : Type} (check : α → Except ClashError Unit) : List α → Except ClashError Unit
  | [] => .ok ()
  | a :: rest =>
    match check a with
    | .ok _ => checkAll check rest
    | .error e => .error e

/-- A loop which puts names into a map and fails if the map contains the name already: `ScopeSymbolValidator.validate`
(ScopeSymbolValidator.java:19-30), `PythonScopeSymbolClashChecker.addSymbol`
(PythonScopeSymbolClashChecker.java:163-174). `seen` are the keys of the map; `convert` makes the key of a name. -/
def addSymbols (convert : PyStr → PyStr) (error : PyStr → ClashError) (seen : List PyStr) :
    List PyStr → Except ClashError Unit
  | [] => .ok ()
  | s :: rest =>
    if convert s ∈ seen then .error (error s) else addSymbols convert error (convert s :: seen) rest

/-- `IdentifierValidator.validate` (IdentifierValidator.java:21-28), called for each identifier of the source
(ZserioParseTreeChecker.java:458). -/
def validateIdentifier (id : PyStr) : Except ClashError Unit :=
  if (py! "zserio").isPrefixOf (toLower id) then .error (.reservedPrefix id) else .ok ()

/-- `name.substring(0, 1).toLowerCase() + name.substring(1)` (ScopeSymbolValidator.java:21) -/
def normalizeFirst : PyStr → PyStr
  | [] => []
  | c :: rest => lowerChar c :: rest

/-- `CompoundType.checkSymbolNames` (CompoundType.java:169-183) -/
def checkSymbolNames (c : CompoundDecl) : Except ClashError Unit :=
  match addSymbols normalizeFirst .firstLetter [] (c.params ++ c.fields.map (·.name)) with
  | .ok _ => addSymbols normalizeFirst .firstLetter [] c.functions
  | .error e => .error e

/-- `PYTHON_KEYWORDS` (PythonExtension.java:122-128) -/
def extensionKeywords : List PyStr :=
  [py! "False", py! "None", py! "True", py! "__peg_parser__", py! "and", py! "as", py! "assert", py! "async",
   py! "await", py! "break", py! "class", py! "continue", py! "def", py! "del", py! "elif", py! "else", py! "except",
   py! "finally", py! "for", py! "from", py! "global", py! "if", py! "import", py! "in", py! "is", py! "lambda",
   py! "nonlocal", py! "not", py! "or", py! "pass", py! "raise", py! "return", py! "try", py! "while", py! "with",
   py! "yield"]

/-- `ReservedKeywordsClashChecker.checkId` (ReservedKeywordsClashChecker.java:195-204) -/
def checkKeyword (id : PyStr) : Except ClashError Unit :=
  if id ∈ extensionKeywords then .error (.keyword id) else .ok ()

/-- All names of a compound type: parameters, fields and functions. -/
def CompoundDecl.symbols (c : CompoundDecl) : List PyStr := c.params ++ c.fields.map (·.name) ++ c.functions

/-- `ReservedKeywordsClashChecker.checkCompound` (ReservedKeywordsClashChecker.java:181-193) without the name of the
type -/
def checkCompoundKeywords (c : CompoundDecl) : Except ClashError Unit := checkAll checkKeyword c.symbols

/-- `PythonScopeSymbolClashChecker.checkCompoundType` (PythonScopeSymbolClashChecker.java:113-124) -/
def checkScopeSymbols (c : CompoundDecl) : Except ClashError Unit :=
  addSymbols toLowerSnakeCase .symbolClash [] c.symbols

/-- `getTemplateApiMethods` (PythonGeneratedSymbolsClashChecker.java:183-198): the names which follow `def ` in the lines of
the template of the type and begin with a letter (Structure.py.ftl:67, 92, 122, 354, 374, 399, 433, 458, 498, 533, 581, 602;
Choice.py.ftl and Union.py.ftl in addition `choice_tag`). Simplification: the names are listed, not read from the template. -/
def apiMethods (k : CompoundKind) : List PyStr :=
  [py! "from_reader", py! "from_reader_packed", py! "type_info", py! "init_packing_context", py! "bitsizeof",
   py! "bitsizeof_packed", py! "initialize_offsets", py! "initialize_offsets_packed", py! "read", py! "read_packed",
   py! "write", py! "write_packed"]
  ++ if k = .structure then [] else [py! "choice_tag"]

/-- The keys of `indicatorNames` (PythonGeneratedSymbolsClashChecker.java:129-141) -/
def indicatorNames (c : CompoundDecl) : List PyStr :=
  c.fields.flatMap fun f =>
    (if f.isOptional then [isUsedName f.name, isSetName f.name] else [])
      ++ if f.isExtended then [isPresentName f.name] else []

/-- `CompoundSymbolNameChecker.check` (PythonGeneratedSymbolsClashChecker.java:109-120, 154-181) for the Python name of a
symbol -/
def checkGeneratedName (c : CompoundDecl) (name : PyStr) : Except ClashError Unit :=
  if (py! "_").isPrefixOf name then .error (.leadingUnderscore name)
  else if name ∈ apiMethods c.kind then .error (.apiClash name)
  else if name ∈ indicatorNames c then .error (.indicatorClash name)
  else .ok ()

/-- `PythonGeneratedSymbolsClashChecker.checkCompoundType` (PythonGeneratedSymbolsClashChecker.java:82-106): fields,
parameters, functions -/
def checkGeneratedSymbols (c : CompoundDecl) : Except ClashError Unit :=
  match checkAll (fun f => checkGeneratedName c (propertyName f.name)) c.fields with
  | .error e => .error e
  | .ok _ =>
    match checkAll (fun p => checkGeneratedName c (propertyName p)) c.params with
    | .error e => .error e
    | .ok _ => checkAll (fun f => checkGeneratedName c (functionName f)) c.functions

/-- All checks, in the order in which they are executed: the parser, the core, the extension. -/
def checkCompound (c : CompoundDecl) : Except ClashError Unit :=
  match checkAll validateIdentifier c.symbols with
  | .error e => .error e
  | .ok _ =>
    match checkSymbolNames c with
    | .error e => .error e
    | .ok _ =>
      match checkCompoundKeywords c with
      | .error e => .error e
      | .ok _ =>
        match checkScopeSymbols c with
        | .error e => .error e
        | .ok _ => checkGeneratedSymbols c

end Zserio.Names
