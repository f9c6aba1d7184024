import Verif.Model.Constraint
/-!
# The branch-both-ways programs of the README, the examples and the tests

Parameters are passed by value, so `a` and `b` are two distinct objects: address 0 and address 1.  `d` says whether the value type is
discrete.  `T{ }` is the unassigned interval.
-/
namespace Intervals
open CppVal
variable {T : Type _} [CppVal T] [CppLimits T] [CppStep T]

/-- `max3(T a, T b)` with `T = interval<…>` (README.md:44–62, examples/doc/sample.cpp). -/
def max3 (dbg d : Bool) (a b : Ivl T) : Outcome (Ivl T) := do
  let x := Ivl.unassigned
  let c ← condLt dbg (.ident d 0 a) (.ident d 1 b)
  let x ← if BoolSet.possibly c.truth then do
      let bc ← constrain dbg d 1 b c
      Ivl.assignPartial x bc
    else pure x
  let nc ← Cond.mkNot dbg c
  let x ← if BoolSet.possibly nc.truth then do
      let nc ← Cond.mkNot dbg c
      let ac ← constrain dbg d 0 a nc
      Ivl.assignPartial x ac
    else pure x
  return x

/-- `max3(T a, T b)` with a scalar `T` (README.md:44–62): the condition is a `bool`, `constrain` is math.hpp:283–290 and `assign_partial`
math.hpp:267–273. `T{ }` is passed as `zero`. -/
def max3Scalar (zero a b : T) : Outcome T := do
  let x := zero
  let c := lt a b
  let x ← if c then do expects c; pure b else pure x
  let x ← if !c then do expects (!c); pure a else pure x
  return x

/-- `imax0` (examples/simple2.cpp:12–26). -/
def imax0 (dbg d : Bool) (a b : Ivl T) : Outcome (Ivl T) := do
  let result := Ivl.unassigned
  let cond ← condGe dbg (.ident d 0 a) (.ident d 1 b)
  let result ← if BoolSet.possibly cond.truth then Ivl.assignPartial result a else pure result
  let result ← if BoolSet.possiblyNot cond.truth then Ivl.assignPartial result b else pure result
  return result

/-- `imax` (examples/simple2.cpp:27–43); `maxG` (test/test-interval.cpp:1199–1214) is the same program. -/
def imax (dbg d : Bool) (a b : Ivl T) : Outcome (Ivl T) := do
  let result := Ivl.unassigned
  let cond ← condGe dbg (.ident d 0 a) (.ident d 1 b)
  let result ← if BoolSet.possibly cond.truth then do
      let ac ← constrain dbg d 0 a cond
      Ivl.assignPartial result ac
    else pure result
  let result ← if BoolSet.possiblyNot cond.truth then do
      let bc ← constrain dbg d 1 b (← Cond.mkNot dbg cond)
      Ivl.assignPartial result bc
    else pure result
  return result

/-- `maxG0` (test/test-interval.cpp:1185–1198): evaluates the comparison a second time. -/
def maxG0 (dbg d : Bool) (x y : Ivl T) : Outcome (Ivl T) := do
  let result := Ivl.unassigned
  let cond ← condGe dbg (.ident d 0 x) (.ident d 1 y)
  let result ← if BoolSet.possibly cond.truth then Ivl.assignPartial result x else pure result
  let cond2 ← condGe dbg (.ident d 0 x) (.ident d 1 y)
  let result ← if BoolSet.possiblyNot cond2.truth then Ivl.assignPartial result y else pure result
  return result

end Intervals
