import Verif.Spec.Real
/-!
# Specification of correctly rounded interval results
-/
namespace Intervals.Spec
open Intervals CppVal
variable {K : Type} [Field K] [LinearOrder K] [Fmt K]

/-- `R` is the correctly rounded range of the set `V` of real numbers: `V` has a least and a greatest element, the bounds of `R` are these,
each rounded once (zero bounds may have either sign), and `R` contains the rounded value of every element of `V`. -/
def RoundedRange (V : K → Prop) (R : Ivl (Fl K)) : Prop :=
  (∀ v, V v → Fmt.rnd v ∈ᵢ R) ∧
  (∃ v, V v ∧ (∀ w, V w → v ≤ w) ∧ eq R.lo (Fmt.rnd v) = true) ∧
  (∃ v, V v ∧ (∀ w, V w → w ≤ v) ∧ eq R.hi (Fmt.rnd v) = true)
end Intervals.Spec
