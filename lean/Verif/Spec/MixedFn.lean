import Verif.Model.MixedFn
import Verif.Spec.Real
import Verif.Spec.IntArith
/-!
# Specification vocabulary for functions of operands of different value types
-/
namespace Intervals.Spec
open Intervals CppVal
variable {n : Nat} {K : Type} [Field K] [LinearOrder K]

/-- the number `v` is a point of the operand: an integer if the operand is of the integer type -/
def MemD (v : K) : DArg n K → Prop
  | .int X => ∃ m : ℤ, InI m X ∧ v = m
  | .flt X => .num v ∈ₐ X
/-- the operand has finite bounds and a point -/
def FiniteD : DArg n K → Prop
  | .int X => Inhab X
  | .flt X => FiniteA X
/-- the operand is of the integer type -/
def IsIntD : DArg n K → Prop
  | .int _ => True
  | .flt _ => False
end Intervals.Spec
