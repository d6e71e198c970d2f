import Verif.Model.JsonText
/-
The command line of the compiler: which warnings are printed, which parts of the code are generated, and the top level package.

Sources: compiler/core/src/zserio/tools/WarningsConfig.java, CommandLineArguments.java, ZserioToolPrinter.java,
compiler/core/src/zserio/ast/IdentifierValidator.java, compiler/core/antlr/ZserioLexer.g4.

Not modelled: how the library Apache Commons CLI splits the command line into options and their values; of it only groups of options
are modelled.  Options for files, the help topic and the options of extensions are left out.
-/
namespace Zserio.Options

/-- CommandLineArguments.java: the messages of ParseException -/
inductive Problem where
  | unknownWarning
  | warningConflict
  | alreadySelected
  | topLevelPackage
  | writerConflict
  deriving DecidableEq, Repr

/-- WarningsConfig.java:206-226 `WarningConfig` -/
structure Config where
  enabled : Bool
  priority : Int
  deriving DecidableEq, Repr

/-- `Integer.MAX_VALUE` -/
def maxPriority : Int := 2 ^ 31 - 1

/-- `Integer.MIN_VALUE` -/
def minPriority : Int := -(2 ^ 31)

/-- WarningsConfig.java:258 `ALL` -/
def all : String := "all"

/-- WarningsConfig.java:20-57, the calls of `addWarning`: the warnings and whether they are enabled by default -/
def added : List (String × Bool) := [
  ("choice-unhandled-enum-item", true),
  ("default-instantiation", false),
  ("doc-comment-format", true),
  ("doc-comment-missing", false),
  ("doc-comment-link", true),
  ("doc-comment-unused", true),
  ("encoding", true),
  ("import", true),
  ("optional-field-reference", true),
  ("timestamp", true),
  ("sql-primary-key", true),
  ("unpackable-array", true),
  ("unpackable-union", true),
  ("unused", false)]

/-- WarningsConfig.java:22 and 150-159 `addWarningGroup`, `addWarning`: the map `warningsDefinitionMap` with the priorities -/
def definitions : List (String × Int) := (all, 0) :: added.map fun w => (w.1, maxPriority)

/-- WarningsConfig.java:155-159 `addWarning`: the map `warningsConfigMap` -/
def initial : List (String × Config) := added.map fun w => (w.1, ⟨w.2, minPriority⟩)

/-- WarningsConfig.java:143-148 `setWarning`; there is an entry for the option -/
def setWarning (m : List (String × Config)) (option : String) (enabled : Bool) (priority : Int) : List (String × Config) :=
  m.map fun e => if e.1 = option ∧ priority > e.2.priority then (e.1, ⟨enabled, priority⟩) else e

/-- the priority of an option in the definitions -/
def priorityOf (option : String) : Int := ((definitions.lookup option).getD 0)

/-- WarningsConfig.java:135-141 `setAll`.  The Java map has no order; each entry is changed on its own, so the order does not matter. -/
def setAll (m : List (String × Config)) (value : Bool) : List (String × Config) :=
  (m.map (·.1)).foldl (fun m option => setWarning m option value (priorityOf all)) m

/-- WarningsConfig.java:116-125 `setWarnings` -/
def setWarnings (m : List (String × Config)) (options : List String) (value : Bool) : List (String × Config) :=
  options.foldl (fun m option => if option = all then setAll m value else setWarning m option value (priorityOf option)) m

/-- WarningsConfig.java:99-114 `validate`, 127-133 `checkIfExists` -/
def validate (enabled disabled : List String) : Except Problem Unit :=
  if !enabled.all (fun o => (definitions.lookup o).isSome) then .error .unknownWarning
  else if !disabled.all (fun o => (definitions.lookup o).isSome) then .error .unknownWarning
  else if !(enabled.filter (disabled.contains ·)).isEmpty then .error .warningConflict
  else .ok ()

/-- WarningsConfig.java:67-74, the constructor -/
def warningsConfig (enabled disabled : List String) : Except Problem (List (String × Config)) := do
  validate enabled disabled
  .ok (setWarnings (setWarnings initial enabled true) disabled false)

/-- WarningsConfig.java:83-87 `isEnabled` -/
def isEnabled (m : List (String × Config)) (option : String) : Bool :=
  match m.lookup option with
  | some c => c.enabled
  | none => false

/-- ZserioToolPrinter.java:42-47, 71-76 `printWarning`: the warnings which the compiler finds, with their options, are printed if the
options are enabled -/
def printed {α : Type} (m : List (String × Config)) (found : List (String × α)) : List (String × α) :=
  found.filter fun w => isEnabled m w.1

/-! ### parts of the code -/

/-- a command line after it was split into options: the options without values, the values of `-withWarnings` and `-withoutWarnings`, and
of `-setTopLevelPackage` -/
structure CommandLine where
  options : List String
  withWarnings : List String := []
  withoutWarnings : List String := []
  topLevelPackage : Option PyStr := none

/-- CommandLineArguments.java:340-439 `addOptions`: the groups; only one option of a group can be used -/
def groups : List (String × String) := [
  ("withPubsubCode", "withoutPubsubCode"),
  ("withRangeCheckCode", "withoutRangeCheckCode"),
  ("withServiceCode", "withoutServiceCode"),
  ("withSqlCode", "withoutSqlCode"),
  ("withTypeInfoCode", "withoutTypeInfoCode"),
  ("withValidationCode", "withoutValidationCode"),
  ("withWriterCode", "withoutWriterCode"),
  ("withCrossExtensionCheck", "withoutCrossExtensionCheck"),
  ("withGlobalRuleIdCheck", "withoutGlobalRuleIdCheck"),
  ("withCodeComments", "withoutCodeComments")]

/-- CommandLineArguments.java:681-695: what `readOptions` sets -/
structure Settings where
  pubsubCode : Bool
  rangeCheckCode : Bool
  serviceCode : Bool
  sqlCode : Bool
  typeInfoCode : Bool
  validationCode : Bool
  writerCode : Bool
  crossExtensionCheck : Bool
  globalRuleIdCheck : Bool
  codeComments : Bool
  warnings : List (String × Config)
  topLevelPackageIds : List PyStr
  deriving DecidableEq, Repr

/-- Java `String.split` with a single character: the parts between the separators -/
def splitParts (sep : Nat) : PyStr → List PyStr
  | [] => [[]]
  | c :: cs => if c = sep then [] :: splitParts sep cs else
      match splitParts sep cs with
      | [] => [[c]]
      | p :: ps => (c :: p) :: ps

/-- Java `String.split`: empty parts at the end are dropped, unless there is no separator -/
def javaSplit (sep : Nat) (s : PyStr) : List PyStr :=
  if s.contains sep then ((splitParts sep s).reverse.dropWhile (·.isEmpty)).reverse else [s]

/-- ZserioLexer.g4:154 the characters of identifiers -/
def isIdStart (c : Nat) : Bool := (ch! 'a' ≤ c && c ≤ ch! 'z') || (ch! 'A' ≤ c && c ≤ ch! 'Z') || c = ch! '_'

/-- ZserioLexer.g4:154 -/
def isIdPart (c : Nat) : Bool := isIdStart c || (ch! '0' ≤ c && c ≤ ch! '9')

/-- ZserioLexer.g4:110 `WS` -/
def isWhite (c : Nat) : Bool := c = 13 || c = 10 || c = 12 || c = 9 || c = 32

/-- ZserioLexer.g4:39-107, 119: the keywords and `true` and `false`, which the lexer prefers to identifiers -/
def keywords : List PyStr := [py! "align", py! "bit", py! "bool", py! "bitmask", py! "bytes", py! "case", py! "choice", py! "const",
  py! "default", py! "enum", py! "explicit", py! "extend", py! "extern", py! "float16", py! "float32", py! "float64", py! "function",
  py! "if", py! "implicit", py! "import", py! "instantiate", py! "int", py! "int16", py! "int32", py! "int64", py! "int8", py! "isset",
  py! "lengthof", py! "numbits", py! "on", py! "optional", py! "package", py! "packed", py! "pubsub", py! "publish", py! "return",
  py! "rule", py! "rule_group", py! "service", py! "sql", py! "sql_database", py! "sql_table", py! "sql_virtual",
  py! "sql_without_rowid", py! "string", py! "struct", py! "subscribe", py! "subtype", py! "topic", py! "uint16", py! "uint32",
  py! "uint64", py! "uint8", py! "union", py! "using", py! "valueof", py! "varint", py! "varint16", py! "varint32", py! "varint64",
  py! "varsize", py! "varuint", py! "varuint16", py! "varuint32", py! "varuint64", py! "zserio_compatibility_version", py! "true",
  py! "false"]

/-- Whether the first token of the text is an identifier: whitespace is skipped, the longest match counts.  Characters which begin no
token are skipped by the lexer, too; here such texts are refused (a simplification). -/
def firstTokenIsId (s : PyStr) : Bool :=
  match s.dropWhile isWhite with
  | [] => false
  | c :: cs => isIdStart c && !keywords.contains (c :: cs.takeWhile isIdPart)

/-- `toLowerCase` of a letter of ASCII.  The only other character with a lower case letter in `zserio` would be no part of an
identifier. -/
def toLower (c : Nat) : Nat := if ch! 'A' ≤ c && c ≤ ch! 'Z' then c + 32 else c

/-- IdentifierValidator.java:35-47 `validateTopLevelPackageId`, 21-28 `validate` -/
def validTopLevelId (id : PyStr) : Bool := firstTokenIsId id && !(py! "zserio").isPrefixOf (id.map toLower)

/-- CommandLineArguments.java:500-555 `validateOptions`, `validateTopLevelPackageNameIds` -/
def validateOptions (options : List String) (ids : List PyStr) : Except Problem Unit :=
  if !ids.all validTopLevelId then .error .topLevelPackage
  else if options.contains "withoutWriterCode" then
    if options.contains "withRangeCheckCode" then .error .writerConflict
    else if options.contains "withValidationCode" then .error .writerConflict
    else if options.contains "withPubsubCode" then .error .writerConflict
    else if options.contains "withServiceCode" then .error .writerConflict
    else .ok ()
  else .ok ()

/-- CommandLineArguments.java:475-478: the parts of the name of the top level package -/
def topLevelIds (c : CommandLine) : List PyStr :=
  match c.topLevelPackage with
  | none => []
  | some name => javaSplit (ch! '.') name

/-- CommandLineArguments.java:455-498 `readOptions`, after the library has refused two options of one group -/
def readOptions (c : CommandLine) : Except Problem Settings :=
  if groups.any (fun g => c.options.contains g.1 && c.options.contains g.2) then .error .alreadySelected
  else do
    let has := c.options.contains
    let warnings ← warningsConfig c.withWarnings c.withoutWarnings
    validateOptions c.options (topLevelIds c)
    let writer := !has "withoutWriterCode"
    .ok {
      pubsubCode := !has "withoutPubsubCode" && writer
      rangeCheckCode := has "withRangeCheckCode"
      serviceCode := !has "withoutServiceCode" && writer
      sqlCode := !has "withoutSqlCode"
      typeInfoCode := has "withTypeInfoCode"
      validationCode := has "withValidationCode"
      writerCode := writer
      crossExtensionCheck := !has "withoutCrossExtensionCheck"
      globalRuleIdCheck := has "withGlobalRuleIdCheck"
      codeComments := has "withCodeComments"
      warnings := warnings
      topLevelPackageIds := topLevelIds c }

end Zserio.Options
