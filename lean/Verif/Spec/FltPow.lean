import Verif.Model.Elem
/-!
# The power of floating-point numbers, as computed from the exponential and the logarithm
-/
namespace Intervals.Spec
open Intervals

variable {K : Type} [Field K] [LinearOrder K] [Fmt K] [Libm K]

/-- `x ^ y = exp(y · log x)` with `0 · ∞ = 0` in the exponent -/
def powPt (x y : Fl K) : Fl K := Libm.exp (if y.isZero || (Libm.log x).isZero then .num 0 else Fl.mul y (Libm.log x))

/-- `(-1) ^ n` -/
def signPow (n : ℤ) : Fl K := if Even n then .num 1 else .num (-1)
end Intervals.Spec
