import Verif.Model.Elem
import Verif.Model.Constraint
/-!
# The small example programs (examples/simple1.cpp, examples/simple3.cpp)

Arguments are passed by value; the parameter `x` has address 0.  Integer literals convert to the floating-point type; as operands of a
comparison they keep the discrete type `int`.
-/
namespace Intervals
open CppVal
variable {K : Type} [Field K] [LinearOrder K] [Fmt K]

/-- `f1` (examples/simple1.cpp:12–16): `square(x) - 2*x`. -/
def simpleF1 (dbg : Bool) (x : Ivl (Fl K)) : Outcome (Ivl (Fl K)) := do
  let s ← squareI dbg x
  let p ← mulI dbg (.scalar (.num 2)) (.ivl x)
  subI dbg (.ivl s) (.ivl p)

/-- `f2` (examples/simple1.cpp:17–21): `square(x - 1) - 1`. -/
def simpleF2 (dbg : Bool) (x : Ivl (Fl K)) : Outcome (Ivl (Fl K)) := do
  let d ← subI dbg (.ivl x) (.scalar (.num 1))
  let s ← squareI dbg d
  subI dbg (.ivl s) (.scalar (.num 1))

variable [Libm K]

/-- `s(T x)` with `T = interval<floating-point>` (examples/simple3.cpp:14–30). -/
def simpleS (dbg : Bool) (x : Ivl (Fl K)) : Outcome (Ivl (Fl K)) := do
  let cond ← condGe dbg (.ident false 0 x) (.scalar true (.num 0))
  let result ← if BoolSet.possibly cond.truth then do
      let xc ← constrain dbg false 0 x cond
      Ivl.assignPartial Ivl.unassigned (← sqrtI dbg xc)
    else pure Ivl.unassigned
  let result ← if BoolSet.possiblyNot cond.truth then Ivl.assignPartial result (Ivl.ofVal (.num 0)) else pure result
  return result

/-- `s(T x)` with a floating-point `T` (examples/simple3.cpp:14–30): the condition is a `bool`, `constrain` is math.hpp:283–290. -/
def simpleSScalar (dbg : Bool) (x : Fl K) : Outcome (Fl K) := do
  let result := .num 0
  let cond := ge x (.num 0)
  let result ← if cond then do
      expects cond
      sqrtS dbg x
    else pure result
  let result ← if !cond then pure (.num 0) else pure result
  return result
end Intervals
