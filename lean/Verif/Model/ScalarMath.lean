import Verif.Model.Elem
/-!
# The scalar function without an interval counterpart (include/intervals/math.hpp:251–257)
-/
namespace Intervals
open CppVal
variable {K : Type} [Field K] [LinearOrder K] [Fmt K] [Libm K]

/-- scalar `blend_quadratic` (math.hpp:251–257); `square` is math.hpp:65–70.  `std::sqrt` is called directly, without the debug check of the
library's own `sqrt`.  (The README lists an interval overload, which does not exist.) -/
def blendQuadraticS (dbg : Bool) (a b x y : Fl K) : Outcome (Fl K) := do
  let (wa, wb) ← fractionalWeightsS dbg a b
  let p := Fl.mul wa x
  let q := Fl.mul wb y
  return Libm.sqrt (Fl.add (Fl.mul p p) (Fl.mul q q))
end Intervals
