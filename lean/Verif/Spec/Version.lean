import Verif.Model.Version
/-
What versions mean: `major.minor.revision`, or `major.minor.revision-preN` for pre-releases, which come before the release.
-/
namespace Zserio.Version

/-- the numbers are those of Java, and not negative except perhaps the one of the pre-release -/
def Valid (v : Version) : Prop :=
  (0 ≤ v.major ∧ v.major < 2 ^ 31) ∧ (0 ≤ v.minor ∧ v.minor < 2 ^ 31) ∧ (0 ≤ v.revision ∧ v.revision < 2 ^ 31) ∧
    ∀ p, v.preRelease = some p → -(2 ^ 31) ≤ p ∧ p < 2 ^ 31

/-- pre-releases come before the release, and in the order of their numbers -/
def PreBefore : Option Int → Option Int → Prop
  | some p, some q => p < q
  | some _, none => True
  | none, _ => False

/-- `a` is older than `b` -/
def Before (a b : Version) : Prop :=
  a.major < b.major ∨ (a.major = b.major ∧ (a.minor < b.minor ∨ (a.minor = b.minor ∧ (a.revision < b.revision ∨
    (a.revision = b.revision ∧ PreBefore a.preRelease b.preRelease)))))

/-- the text is a number: digits with this value, which fits into a Java `int` -/
def Number (s : PyStr) (x : Int) : Prop := s ≠ [] ∧ (∀ c ∈ s, 48 ≤ c ∧ c ≤ 57) ∧ x = number s ∧ x < 2 ^ 31

/-- a number with an optional sign -/
def SignedNumber (s : PyStr) (x : Int) : Prop :=
  Number s x ∨ (∃ t, s = (ch! '+') :: t ∧ Number t x) ∨
    ∃ t, s = (ch! '-') :: t ∧ t ≠ [] ∧ (∀ c ∈ t, 48 ≤ c ∧ c ≤ 57) ∧ x = -(number t) ∧ -(2 ^ 31) ≤ x

/-- the text of a version -/
def Text (s : PyStr) (v : Version) : Prop :=
  ∃ a b c, Number a v.major ∧ Number b v.minor ∧ Number c v.revision ∧
    match v.preRelease with
    | none => s = a ++ (ch! '.') :: b ++ (ch! '.') :: c
    | some x => ∃ p, SignedNumber p x ∧ s = a ++ (ch! '.') :: b ++ (ch! '.') :: c ++ py! "-pre" ++ p

end Zserio.Version
