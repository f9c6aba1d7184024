import Verif.Spec.ConstraintTree
/-!
# Comparisons that can be used again (C104)
-/
namespace Intervals.Spec
open Intervals CppVal

/-- `!=` -/
def unequalX : XRel → Bool
  | .xNe | .neX => true
  | _ => false
/-- the two intervals have equal bounds -/
def EqualBounds {T : Type} [CppVal T] (x y : Ivl T) : Prop := eq x.lo y.lo = true ∧ eq x.hi y.hi = true
/-- stepping an operand down makes it smaller also after it is converted, and stepping it up makes it larger -/
def StepsApart {ι : Type} {V : ι → Type} {T : Type} [∀ i, CppVal (V i)] [CppVal T] (E : OperandTypes V T) : Prop :=
  ∀ i v p, NotNan v → (E.pr i v = .ok p → lt (E.cv i p) (E.cv i v) = true) ∧ (E.su i v = .ok p → lt (E.cv i v) (E.cv i p) = true)
end Intervals.Spec
