import Verif.Model.JsonText
/-
Versions of zserio: parsing and comparing them, the compatibility version of a schema, and the versions of extensions.

Sources: compiler/core/src/zserio/tools/ZserioVersion.java, ExtensionVersionMatcher.java, compiler/core/src/zserio/ast/CompatibilityVersion.java,
compiler/core/src/zserio/extension/common/CompatibilityChecker.java.
-/
namespace Zserio.Version
open Json

/-- ZserioVersion.java:8-40: the numbers are Java `int`s -/
structure Version where
  major : Int
  minor : Int
  revision : Int
  preRelease : Option Int := none
  deriving DecidableEq, Repr

/-- a Java `int` -/
def toInt32 (x : Int) : Int := Int.bmod x (2 ^ 32)

/-- `Integer.compareTo` -/
def compareInteger (a b : Int) : Int := if a < b then -1 else if a = b then 0 else 1

/-- ZserioVersion.java:147-154 `comparePreRelease` -/
def comparePreRelease (a b : Option Int) : Int :=
  match a with
  | none => if b.isNone then 0 else 1
  | some p =>
    match b with
    | none => -1
    | some q => compareInteger p q

/-- ZserioVersion.java:45-56 `compareTo`; the subtractions are those of Java -/
def compareTo (a b : Version) : Int :=
  if a.major ≠ b.major then toInt32 (a.major - b.major)
  else if a.minor ≠ b.minor then toInt32 (a.minor - b.minor)
  else if a.revision ≠ b.revision then toInt32 (a.revision - b.revision)
  else comparePreRelease a.preRelease b.preRelease

/-- ZserioVersion.java:58-66 `equals` -/
def equals (a b : Version) : Bool := compareTo a b = 0

/-- Java `Integer.toString` -/
def intText (x : Int) : PyStr := decimalInt x

/-- ZserioVersion.java:39-43 `toString` -/
def toText (v : Version) : PyStr :=
  intText v.major ++ [ch! '.'] ++ intText v.minor ++ [ch! '.'] ++ intText v.revision ++
    match v.preRelease with
    | none => []
    | some p => py! "-pre" ++ intText p

/-- `\d` -/
def isDigit (c : Nat) : Bool := ch! '0' ≤ c && c ≤ ch! '9'

/-- the number which the digits denote -/
def number (s : PyStr) : Nat := s.foldl (fun n c => n * 10 + (c - ch! '0')) 0

/-- Java `Integer.parseInt`: an optional sign and digits, within the range of `int`.  Digits of other scripts, which Java accepts, are
refused here. -/
def parseInt (s : PyStr) : Option Int :=
  let (negative, ds) := match s with
    | c :: cs => if c = ch! '-' then (true, cs) else if c = ch! '+' then (false, cs) else (false, s)
    | [] => (false, s)
  if ds = [] ∨ ¬ ds.all isDigit then none
  else
    let x : Int := if negative then -(number ds) else number ds
    if x < -(2 ^ 31) ∨ x > 2 ^ 31 - 1 then none else some x

/-- a line terminator of Java regular expressions -/
def isTerminator (c : Nat) : Bool := c = 10 || c = 13 || c = 0x85 || c = 0x2028 || c = 0x2029

/-- what `$` skips at the end: one line terminator -/
def chomp (s : PyStr) : PyStr :=
  match s.reverse with
  | 10 :: 13 :: r => r.reverse
  | c :: r => if isTerminator c then r.reverse else s
  | [] => s

/-- the digits at the beginning, and what follows -/
def takeDigits (s : PyStr) : PyStr × PyStr := (s.takeWhile isDigit, s.dropWhile isDigit)

/-- the regular expression `^(\d+)\.(\d+)\.(\d+)(?:-pre(.*))?$` of ZserioVersion.java:130 -/
def matchVersion (s : PyStr) : Option (PyStr × PyStr × PyStr × Option PyStr) :=
  let (a, s₁) := takeDigits (chomp s)
  match s₁ with
  | 46 :: s₁ =>
    let (b, s₂) := takeDigits s₁
    match s₂ with
    | 46 :: s₂ =>
      let (c, s₃) := takeDigits s₂
      if a = [] ∨ b = [] ∨ c = [] then none
      else if s₃ = [] then some (a, b, c, none)
      else if (py! "-pre").isPrefixOf s₃ ∧ ¬ (s₃.drop 4).any isTerminator then some (a, b, c, some (s₃.drop 4))
      else none
    | _ => none
  | _ => none

/-- ZserioVersion.java:128-145 `parseVersion`; none for an exception -/
def parseVersion (s : PyStr) : Option Version := do
  let (a, b, c, p) ← matchVersion s
  let pre ← match p with
    | none => some none
    | some t => (parseInt t).map some
  let major ← parseInt a
  let minor ← parseInt b
  let revision ← parseInt c
  return ⟨major, minor, revision, pre⟩

/-- ZserioVersion.java:157 `VERSION_STRING` -/
def currentVersion : Version := ⟨2, 18, 2, none⟩

/-- CompatibilityVersion.java:66 `MINIMUM_SUPPORTED_VERSION` -/
def minimumVersion : Version := ⟨2, 4, 0, none⟩

/-- CompatibilityChecker.java:106 `PACKED_ARRAY_CHANGE_VERSION` -/
def packedVersion : Version := ⟨2, 5, 0, none⟩

/-- CompatibilityVersion.java:19-47: the compatibility version of a package, none for an exception; `s` is the literal without quotes -/
def compatibilityVersion (s : PyStr) : Option Version := do
  let v ← parseVersion s
  if compareTo v currentVersion > 0 then none
  else if compareTo v minimumVersion < 0 then none
  else return v

/-- ExtensionVersionMatcher.java:16-31 `match` -/
def matchExtension (core extension : PyStr) : Bool :=
  match parseVersion core, parseVersion extension with
  | some c, some e => c.major = e.major && c.minor = e.minor && compareTo c e ≥ 0
  | _, _ => false

/-- a package: its compatibility version, and for each structure, choice and union whether its fields are packed arrays -/
structure Package where
  version : Option Version
  compounds : List (List Bool)

/-- CompatibilityChecker.java:78-104 `checkCompoundPackedArrays` -/
def checkCompound (version : Option Version) (fields : List Bool) : Bool :=
  match version with
  | none => true
  | some v => if compareTo v packedVersion < 0 then !fields.any id else true

/-- CompatibilityChecker.java: all packages, with the version of the root package -/
def checkSchema (root : Package) (packages : List Package) : Bool :=
  packages.all fun p => p.compounds.all (checkCompound root.version)

/-- CompatibilityChecker.java:37-57 `beginPackage`: whether there is a warning -/
def warnPackage (root p : Package) : Bool :=
  match p.version with
  | none => false
  | some v =>
    match root.version with
    | none => true
    | some w => compareTo v w ≠ 0

end Zserio.Version
