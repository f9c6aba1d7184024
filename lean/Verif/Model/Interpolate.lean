import Verif.Model.Algorithm
import Verif.Model.FltArith
/-!
# The interpolation examples (examples/interpolate-linear.cpp, examples/interpolate-nn.cpp)

Tables are lists of floating-point numbers.  `gsl_ExpectsAudit` checks are off by default and not modelled.  `id` and `idi` are the
addresses of the variables `x` and `i`.
-/
namespace Intervals
open CppVal

variable {K : Type} [Field K] [LinearOrder K] [Fmt K]

/-- The right-hand side `y0 + (x - x0)/(x1 - x0)*(y1 - y0)` of the scalar function (examples/interpolate-linear.cpp:68). -/
def lerpPoint (x0 x1 y0 y1 x : Fl K) : Fl K := Fl.add y0 (Fl.mul (Fl.div (Fl.sub x x0) (Fl.sub x1 x0)) (Fl.sub y1 y0))

/-- `interpolate_linear_scalar` (examples/interpolate-linear.cpp:26–72).  `result` is indeterminate at first; every branch that is taken
assigns it, and exactly one is taken (or both of the first two if `n = 0`, which the first contract excludes), so the branches are
written as one conditional. -/
def interpolateLinearScalar (dbg : Bool) (xs ys : List (Fl K)) (x : Fl K) : Outcome (Fl K) := do
  expects (decide (2 ≤ xs.length))
  expectsDebug dbg (decide (ys.length = xs.length))
  let n : Int := xs.length
  let pos ← lowerBoundS xs x
  let i := pos.val
  if i = 0 then rangeAt ys 0
  else if i = n then rangeAt ys (n - 1)
  else do
    let x0 ← rangeAt xs (i - 1)
    let x1 ← rangeAt xs i
    let y0 ← rangeAt ys (i - 1)
    let y1 ← rangeAt ys i
    return lerpPoint x0 x1 y0 y1 x

/-- the loop body of `interpolate_linear` for an interval `x` (examples/interpolate-linear.cpp:112–117) -/
def lerpBody (dbg : Bool) (xs ys : List (Fl K)) (id : Nat) (x : Ivl (Fl K)) (j : Index) (result : Ivl (Fl K)) : Outcome (Ivl (Fl K)) := do
  let x0 ← rangeAt xs (j.val - 1)
  let x1 ← rangeAt xs j.val
  let y0 ← rangeAt ys (j.val - 1)
  let y1 ← rangeAt ys j.val
  let xc ← constrainAt dbg false id x xs (lowerPredI dbg false (.ident false id x)) (.scalar j)
  let d ← subI dbg (.ivl xc) (.scalar x0)
  let q ← divI dbg (.ivl d) (.scalar (Fl.sub x1 x0))
  let p ← mulI dbg (.ivl q) (.scalar (Fl.sub y1 y0))
  let r ← addI dbg (.scalar y0) (.ivl p)
  Ivl.assignPartial result r

/-- the third part of `interpolate_linear` (examples/interpolate-linear.cpp:107–119); `i` is the interval of positions, `c` the condition
`!below & !above` -/
def lerpMiddle (dbg : Bool) (xs ys : List (Fl K)) (id idi : Nat) (x : Ivl (Fl K)) (i : Ivl Index) (c : Cond Index) (result : Ivl (Fl K)) :
    Outcome (Ivl (Fl K)) := do
  if BoolSet.possibly c.truth then do
    let ic ← constrain dbg true idi i c
    let it ← enumerateI ic
    forEach (lerpBody dbg xs ys id x) it result
  else return result

/-- `interpolate_linear` for `T = interval<floating-point>` (examples/interpolate-linear.cpp:74–122). -/
def interpolateLinear (dbg : Bool) (xs ys : List (Fl K)) (id idi : Nat) (x : Ivl (Fl K)) : Outcome (Ivl (Fl K)) := do
  expects (decide (2 ≤ xs.length))
  expectsDebug dbg (decide (ys.length = xs.length))
  let zero ← SInt.of 63 0
  let n ← SInt.of 63 xs.length
  let begin_ ← BInt.ofInt 0 xs.length 0
  let pos ← lowerBoundI dbg false xs (.ident false id x)
  let i ← iterDiffI 63 dbg (.ivl pos) (.scalar begin_)
  let below ← condEq dbg (.ident true idi i) (.scalar true zero)
  let r1 ← if BoolSet.possibly below.truth then do Ivl.assignPartial Ivl.unassigned (Ivl.ofVal (← rangeAt ys 0)) else pure Ivl.unassigned
  let above ← condEq dbg (.ident true idi i) (.scalar true n)
  let r2 ← if BoolSet.possibly above.truth then do Ivl.assignPartial r1 (Ivl.ofVal (← rangeAt ys (n.val - 1))) else pure r1
  lerpMiddle dbg xs ys id idi x i (Cond.mkAnd (← Cond.mkNot dbg below) (← Cond.mkNot dbg above)) r2

/-- `interpolate_linear` for a floating-point `T` (examples/interpolate-linear.cpp:74–122): the same source, with `bool` conditions, the
scalar overloads of `assign_partial` and `constrain` (math.hpp:268–274, 284–291) and `enumerate` of a single index. -/
def interpolateLinearS (dbg : Bool) (xs ys : List (Fl K)) (x : Fl K) : Outcome (Fl K) := do
  expects (decide (2 ≤ xs.length))
  expectsDebug dbg (decide (ys.length = xs.length))
  let n ← SInt.of 63 xs.length
  let begin_ ← BInt.ofInt 0 xs.length 0
  let pos ← lowerBoundS xs x
  let i ← Iter.diff 63 pos begin_
  let below := decide (i.val = 0)
  let r1 ← if below then rangeAt ys 0 else pure (.num 0)
  let above := decide (i.val = n.val)
  let r2 ← if above then rangeAt ys (n.val - 1) else pure r1
  let c := !below && !above
  if c then do
    expects c
    forEach (fun (j : Index) (_ : Fl K) => do
      let x0 ← rangeAt xs (j.val - 1)
      let x1 ← rangeAt xs j.val
      let y0 ← rangeAt ys (j.val - 1)
      let y1 ← rangeAt ys j.val
      let xc ← constrainAtS dbg x xs (lowerPredS x) (.scalar j)
      return lerpPoint x0 x1 y0 y1 xc) (enumerateS i) r2
  else return r2

/-! ## Nearest neighbour -/

/-- An iterator of `makeshift::index_range(n)` (examples/interpolate-nn.cpp:37, 57) is a counter of type `gsl::index`.  Assumption on that
dependency, whose source is not in the repository: the counter can be read and incremented past the end of the range, as long as it does not
overflow. -/
abbrev Counter := Iter (2^63 - 1)
def Counter.ofIter {n : Nat} (it : Iter n) : Outcome Counter := BInt.ofInt 0 _ it.val
/-- `*it` of such an iterator is the counter. -/
def Counter.read (it : Counter) : Outcome Index := SInt.of 63 it.val

/-- the predicate `midpoint(xs[i], xs[i + 1]) < x` for a scalar (examples/interpolate-nn.cpp:38–41); `mid` is `std::midpoint` -/
def nnPredS (mid : Fl K → Fl K → Fl K) (xs : List (Fl K)) (x : Fl K) (i : Nat) : Outcome Bool := do
  return lt (mid (← rangeAt xs i) (← rangeAt xs (i + 1))) x
/-- the same for an interval (examples/interpolate-nn.cpp:58–61) -/
def nnPredI (dbg : Bool) (mid : Fl K → Fl K → Fl K) (xs : List (Fl K)) (id : Nat) (x : Ivl (Fl K)) (i : Nat) : Outcome (Cond (Fl K)) := do
  condLt dbg (.scalar false (mid (← rangeAt xs i) (← rangeAt xs (i + 1)))) (.ident false id x)

/-- `interpolate_nearest_neighbour_scalar` (examples/interpolate-nn.cpp:26–44) -/
def nearestScalar (dbg : Bool) (mid : Fl K → Fl K → Fl K) (xs ys : List (Fl K)) (x : Fl K) : Outcome (Fl K) := do
  expects (decide (2 ≤ xs.length))
  expectsDebug dbg (decide (xs.length = ys.length))
  let it ← stdPartitionPoint (nnPredS mid xs x) (List.range (xs.length - 1))
  atS ys (← Counter.read (← Counter.ofIter it))

/-- `interpolate_nearest_neighbour` for an interval (examples/interpolate-nn.cpp:46–64): `*it` on an interval of iterators is the loop of
interval.hpp:681–690. -/
def nearest (dbg : Bool) (mid : Fl K → Fl K → Fl K) (xs ys : List (Fl K)) (id : Nat) (x : Ivl (Fl K)) : Outcome (Ivl (Fl K)) := do
  expects (decide (2 ≤ xs.length))
  expectsDebug dbg (decide (xs.length = ys.length))
  let it ← partitionPointI (nnPredI dbg mid xs id x) (List.range (xs.length - 1))
  let i ← derefI Counter.read ⟨← Counter.ofIter it.lo, ← Counter.ofIter it.hi⟩
  atI ys i
end Intervals
