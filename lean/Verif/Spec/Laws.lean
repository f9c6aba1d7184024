import Verif.Model.FltArith
/-!
# Specification of laws of floating-point interval arithmetic
-/
namespace Intervals.Spec
open Intervals CppVal
variable {K : Type} [Field K] [LinearOrder K]

/-- both results are the NaN interval, or both are intervals with equal bounds (in the sense of `==`: zero bounds may differ in sign) -/
def SameVal (r r' : Outcome (Ivl (Fl K))) : Prop :=
  (r = .ok ⟨.nan, .nan⟩ ∧ r' = .ok ⟨.nan, .nan⟩) ∨
  ∃ R R', r = .ok R ∧ r' = .ok R' ∧ eq R.lo R'.lo = true ∧ eq R.hi R'.hi = true
end Intervals.Spec
