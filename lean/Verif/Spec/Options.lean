import Verif.Model.Options
/-
What the user guide says about the options of the compiler, doc/ZserioUserGuide.md, sections "Zserio Command Line Interface" and
"Zserio Warnings Subsystem".
-/
namespace Zserio.Options

/-- the list of warnings in the guide, with "Enabled by default" or "Disabled by default" -/
def documented : List (String × Bool) := [
  ("choice-unhandled-enum-item", true),
  ("default-instantiation", false),
  ("doc-comment-format", true),
  ("doc-comment-missing", false),
  ("doc-comment-link", true),
  ("doc-comment-unused", true),
  ("encoding", true),
  ("import", true),
  ("optional-field-reference", true),
  ("timestamp", true),
  ("sql-primary-key", true),
  ("unpackable-array", true),
  ("unpackable-union", true),
  ("unused", false)]

/-- A warning is on: it is named in `-withWarnings`; or not in `-withoutWarnings`, and `all` is in `-withWarnings`; or neither it nor
`all` is named and it is on by default. -/
def On (enabled disabled : List String) (w : String) : Prop :=
  ∃ byDefault, (w, byDefault) ∈ documented ∧
    (w ∈ enabled ∨ (w ∉ disabled ∧ ("all" ∈ enabled ∨ ("all" ∉ disabled ∧ byDefault = true))))

/-- the name of a warning, or `all` -/
def Known (o : String) : Prop := o = "all" ∨ ∃ d, (o, d) ∈ documented

/-- what can be enabled and disabled by a pair of options -/
inductive Feature where
  | pubsubCode
  | rangeCheckCode
  | serviceCode
  | sqlCode
  | typeInfoCode
  | validationCode
  | writerCode
  | crossExtensionCheck
  | globalRuleIdCheck
  | codeComments
  deriving DecidableEq, Repr

/-- the option which enables it -/
def Feature.on : Feature → String
  | .pubsubCode => "withPubsubCode"
  | .rangeCheckCode => "withRangeCheckCode"
  | .serviceCode => "withServiceCode"
  | .sqlCode => "withSqlCode"
  | .typeInfoCode => "withTypeInfoCode"
  | .validationCode => "withValidationCode"
  | .writerCode => "withWriterCode"
  | .crossExtensionCheck => "withCrossExtensionCheck"
  | .globalRuleIdCheck => "withGlobalRuleIdCheck"
  | .codeComments => "withCodeComments"

/-- the option which disables it -/
def Feature.off : Feature → String
  | .pubsubCode => "withoutPubsubCode"
  | .rangeCheckCode => "withoutRangeCheckCode"
  | .serviceCode => "withoutServiceCode"
  | .sqlCode => "withoutSqlCode"
  | .typeInfoCode => "withoutTypeInfoCode"
  | .validationCode => "withoutValidationCode"
  | .writerCode => "withoutWriterCode"
  | .crossExtensionCheck => "withoutCrossExtensionCheck"
  | .globalRuleIdCheck => "withoutGlobalRuleIdCheck"
  | .codeComments => "withoutCodeComments"

/-- "By default is enabled" -/
def Feature.byDefault : Feature → Bool
  | .pubsubCode | .serviceCode | .sqlCode | .writerCode | .crossExtensionCheck => true
  | _ => false

/-- "can be enabled only when writer code is enabled" -/
def Feature.needsWriter : Feature → Bool
  | .pubsubCode | .rangeCheckCode | .serviceCode | .validationCode => true
  | _ => false

/-- what the compiler does -/
def Settings.get (s : Settings) : Feature → Bool
  | .pubsubCode => s.pubsubCode
  | .rangeCheckCode => s.rangeCheckCode
  | .serviceCode => s.serviceCode
  | .sqlCode => s.sqlCode
  | .typeInfoCode => s.typeInfoCode
  | .validationCode => s.validationCode
  | .writerCode => s.writerCode
  | .crossExtensionCheck => s.crossExtensionCheck
  | .globalRuleIdCheck => s.globalRuleIdCheck
  | .codeComments => s.codeComments

/-- What is wanted: what the options say; if they say nothing then the default, where features which need the writer are off without it. -/
def Wanted (options : List String) (f : Feature) : Prop :=
  f.on ∈ options ∨ (f.off ∉ options ∧ f.byDefault = true ∧ (f.needsWriter = true → Feature.writerCode.off ∉ options))

/-- a letter of ASCII or the underscore -/
def Letter (c : Nat) : Prop := (97 ≤ c ∧ c ≤ 122) ∨ (65 ≤ c ∧ c ≤ 90) ∨ c = 95

/-- a letter of ASCII, the underscore or a digit -/
def LetterOrDigit (c : Nat) : Prop := Letter c ∨ (48 ≤ c ∧ c ≤ 57)

/-- a name which can be given to a package: an identifier which is no keyword and does not begin with `zserio` in whatever case -/
def PackageId (s : PyStr) : Prop :=
  (∃ c cs, s = c :: cs ∧ Letter c ∧ ∀ x ∈ cs, LetterOrDigit x) ∧ s ∉ keywords ∧
    ¬ ∃ p r, s = p ++ r ∧ p.map toLower = py! "zserio"

/-- the name of a package: its parts with dots between them -/
def dotted (ids : List PyStr) : PyStr := List.intercalate [ch! '.'] ids

end Zserio.Options
