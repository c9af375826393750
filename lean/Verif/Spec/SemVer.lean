import Verif.Model.Version

/-! # Specification: precedence of semantic versions (semver.org, rule 11) -/
namespace Verif.Spec.SemVer
open Verif.Version

variable {S : Type} [LinearOrder S]

/-- Precedence of two identifiers: numbers numerically, numbers before names, names lexically. -/
def IdPrec : PR S → PR S → Prop
  | .num a, .num b => a < b
  | .num _, .alpha _ => True
  | .alpha _, .num _ => False
  | .alpha a, .alpha b => a < b

/-- Dictionary order of identifier lists, a proper prefix comes first. -/
inductive ListPrec : List (PR S) → List (PR S) → Prop
  | nil (b : PR S) (bs : List (PR S)) : ListPrec [] (b :: bs)
  | head {a b : PR S} (h : IdPrec a b) (as bs : List (PR S)) : ListPrec (a :: as) (b :: bs)
  | tail (a : PR S) {as bs : List (PR S)} (h : ListPrec as bs) : ListPrec (a :: as) (a :: bs)

/-- Precedence of versions: by (major, minor, patch), then a pre-release precedes the release, then by the identifiers. -/
def Prec (v o : Ver S) : Prop :=
  v.major < o.major ∨ v.major = o.major ∧ (v.minor < o.minor ∨ v.minor = o.minor ∧ (v.patch < o.patch ∨
    v.patch = o.patch ∧ (v.pre ≠ [] ∧ (o.pre = [] ∨ ListPrec v.pre o.pre))))

end Verif.Spec.SemVer
