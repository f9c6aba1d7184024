import Verif.Model.FltArith
/-!
# Classification of floating-point intervals (include/intervals/interval.hpp:1339–1375)
-/
namespace Intervals
open CppVal
variable {K : Type} [Field K] [LinearOrder K] [Fmt K]

/-- `isinf(X)` (interval.hpp:1339–1357). -/
def isInfI (dbg : Bool) (x : Ivl (Fl K)) : Outcome BoolSet := do
  expectsDebug dbg x.assigned
  let result := BoolSet.empty
  let result := if isNegInf x.lo || isPosInf x.hi then BoolSet.assign result true else result
  let result := if !isNegInf x.hi && !isPosInf x.lo then BoolSet.assign result false else result
  return result
/-- `isfinite(X)` (interval.hpp:1358–1363). -/
def isFiniteI (dbg : Bool) (x : Ivl (Fl K)) : Outcome BoolSet := do BoolSet.not dbg (← isInfI dbg x)
/-- `isnan(X)` (interval.hpp:1364–1375). -/
def isNanI (dbg : Bool) (x : Ivl (Fl K)) : Outcome BoolSet := do
  expectsDebug dbg x.assigned
  if Fl.isNan x.lo || Fl.isNan x.hi then return BoolSet.both
  return BoolSet.single false
end Intervals
