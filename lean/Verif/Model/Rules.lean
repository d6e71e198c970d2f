import Verif.Model.JsonText
/-
Identifiers of rules: which are accepted, and the check that they are unique.

Sources: compiler/core/src/zserio/ast/RuleIdValidator.java, RuleIdUniqueChecker.java, Rule.java, Package.java, Root.java, ZserioAstChecker.java.
-/
namespace Zserio.Rules
open Json

/-- `[a-zA-Z]` -/
def isLetter (c : Nat) : Bool := (ch! 'a' ≤ c && c ≤ ch! 'z') || (ch! 'A' ≤ c && c ≤ ch! 'Z')

/-- `[a-zA-Z0-9_:.-]` -/
def isIdChar (c : Nat) : Bool :=
  isLetter c || (ch! '0' ≤ c && c ≤ ch! '9') || c = ch! '_' || c = ch! ':' || c = ch! '.' || c = ch! '-'

/-- RuleIdValidator.java:10-19 `validate`: the whole text matches `[a-zA-Z][a-zA-Z0-9_:.-]*` -/
def validId (s : PyStr) : Bool :=
  match s with
  | [] => false
  | c :: cs => isLetter c && cs.all isIdChar

/-- `String.toLowerCase(Locale.ENGLISH)` of texts in ASCII -/
def lowerChar (c : Nat) : Nat := if ch! 'A' ≤ c && c ≤ ch! 'Z' then c + 32 else c

/-- RuleIdUniqueChecker.java:35 -/
def lower (s : PyStr) : PyStr := s.map lowerChar

/-- a package: the identifiers of the rules of each of its rule groups; none for an expression which is not a constant string -/
structure Package where
  groups : List (List (Option PyStr))

/-- why a schema is refused -/
inductive Refusal where
  | notConstant
  | invalid (id : PyStr)
  | notUnique (id : PyStr)
  deriving DecidableEq, Repr

/-- Rule.java:65-77 `evaluate` -/
def evaluate (rule : Option PyStr) : Except Refusal PyStr :=
  match rule with
  | none => .error .notConstant
  | some id => if validId id then .ok id else .error (.invalid id)

/-- a loop -/
def evaluateAll : List (Option PyStr) → Except Refusal (List PyStr)
  | [] => .ok []
  | r :: rs =>
    match evaluate r with
    | .error e => .error e
    | .ok id =>
      match evaluateAll rs with
      | .error e => .error e
      | .ok ids => .ok (id :: ids)

/-- RuleIdUniqueChecker.java:32-46 `visitRule`, for all rules; `seen`: the keys of `rulesMap` -/
def checkUnique : List PyStr → List PyStr → Except Refusal Unit
  | _, [] => .ok ()
  | seen, id :: ids => if seen.contains (lower id) then .error (.notUnique id) else checkUnique (lower id :: seen) ids

/-- the rules of a package, in their order -/
def Package.rules (p : Package) : List (Option PyStr) := p.groups.flatMap id

/-- the packages, one after the other -/
def evaluatePackages : List Package → Except Refusal (List (List PyStr))
  | [] => .ok []
  | p :: ps =>
    match evaluateAll p.rules with
    | .error e => .error e
    | .ok ids =>
      match evaluatePackages ps with
      | .error e => .error e
      | .ok rest => .ok (ids :: rest)

/-- Package.java:260-261, for all packages: each has a checker of its own -/
def checkPackages : List (List PyStr) → Except Refusal Unit
  | [] => .ok ()
  | ids :: rest =>
    match checkUnique [] ids with
    | .error e => .error e
    | .ok () => checkPackages rest

/-- ZserioAstEvaluator.java:133-137, then ZserioAstChecker.java:28-32 and Root.java:84-91: `global` is -withGlobalRuleIdCheck, which is off by
default (CommandLineArguments.java:471) -/
def check (global : Bool) (packages : List Package) : Except Refusal Unit :=
  match evaluatePackages packages with
  | .error e => .error e
  | .ok ids =>
    match checkPackages ids with
    | .error e => .error e
    | .ok () => if global then checkUnique [] ids.flatten else .ok ()

end Zserio.Rules
