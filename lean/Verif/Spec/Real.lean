import Verif.Model.FltArith
import Verif.Spec.Interval
import Mathlib.Data.Real.Basic
/-!
# Specification of interval functions in exact real arithmetic
-/
namespace Intervals.Spec
open Intervals CppVal

/-- both bounds are finite numbers (and the interval is assigned, NaN-free) -/
def FiniteI {K : Type} [Field K] [LinearOrder K] (X : Ivl (Fl K)) : Prop :=
  X.lo.isFinite = true ∧ X.hi.isFinite = true ∧ Proper X

/-- `res` is the exact range of the real function `f` over the points of `X`: it contains every value, and both bounds are values (zero bounds
may have either sign). -/
def RealRange (f : ℝ → ℝ) (X : Ivl (Fl ℝ)) (res : Outcome (Ivl (Fl ℝ))) : Prop :=
  ∃ R, res = .ok R ∧ (∀ x : ℝ, .num x ∈ᵢ X → .num (f x) ∈ᵢ R) ∧
    (∃ x : ℝ, .num x ∈ᵢ X ∧ eq R.lo (.num (f x)) = true) ∧ (∃ x : ℝ, .num x ∈ᵢ X ∧ eq R.hi (.num (f x)) = true)
end Intervals.Spec

namespace Intervals.Spec
open Intervals CppVal
variable {K : Type} [Field K] [LinearOrder K]

/-- an operand whose bounds are finite numbers -/
def FiniteA (X : Arg (Fl K)) : Prop := X.lo.isFinite = true ∧ X.hi.isFinite = true ∧ ProperA X

/-- `R` is the exact range of the set `V` of numbers: it contains them all, and both bounds are among them (zero bounds may have either sign). -/
def ExactRange (V : K → Prop) (R : Ivl (Fl K)) : Prop :=
  (∀ v, V v → .num v ∈ᵢ R) ∧ (∃ v, V v ∧ eq R.lo (.num v) = true) ∧ (∃ v, V v ∧ eq R.hi (.num v) = true)
end Intervals.Spec
