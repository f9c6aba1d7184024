import Verif.Model.Algorithm
import Verif.Model.Iter
/-!
# Step functions given by a table (callers of include/intervals/algorithm.hpp:126–169, 198–222, interval.hpp:444–453)

`auto [preds, pos] = lower_bound(xs, x); return at(ys, pos - begin(xs));` (or `upper_bound`), the pattern of examples/interpolate-linear.cpp:87–88 and
examples/interpolate-nn.cpp:57–63 without the interpolation.  `find` is the search; the iterators of `xs` are positions, so `begin(xs)` is position 0.
-/
namespace Intervals
open CppVal

variable {n : Nat} {W : Type _}
/-- `pos - begin(xs)` for an iterator (examples/interpolate-linear.cpp:41) -/
def stepIndexS (pos : Iter n) : Outcome Index := do Iter.diff 63 pos (← BInt.ofInt 0 n 0)
/-- `pos - begin(xs)` for an interval of iterators (examples/interpolate-linear.cpp:88, interval.hpp:444–453) -/
def stepIndexI (dbg : Bool) (pos : Ivl (Iter n)) : Outcome (Ivl Index) := do iterDiffI 63 dbg (.ivl pos) (.scalar (← BInt.ofInt 0 n 0))

/-- the program for a number: search, then `at` (algorithm.hpp:198–205) -/
def stepS (find : Outcome (Iter n)) (ys : List W) : Outcome W := do atS ys (← stepIndexS (← find))
/-- the program for an interval and a table of numbers (algorithm.hpp:206–222) -/
def stepI {T : Type _} [CppVal T] [CppLimits T] (dbg : Bool) (find : Outcome (Ivl (Iter n))) (ys : List T) : Outcome (Ivl T) := do
  atI ys (← stepIndexI dbg (← find))
/-- the program for an interval and a table of enumerators or `bool`s (algorithm.hpp:206–222) -/
def stepSet [DecidableEq W] {vals : List W} (dbg : Bool) (find : Outcome (Ivl (Iter n))) (ys : List W) : Outcome (CSet vals) := do
  atSet dbg ys (← stepIndexI dbg (← find))

/-! ## Snapping to a grid

The smallest element that is not below `x`, `*lower_bound(xs, x).second`, and the largest that is not above it, `*prev(upper_bound(xs, x).second)`. -/
section snap
variable {T : Type} [CppVal T]
/-- `*pos` for the position that `lower_bound` finds for a number (algorithm.hpp:126–136) -/
def snapUpS (a : List T) (v : T) : Outcome T := do readAt a (← lowerBoundS a v)
/-- `*prev(pos)` for the position that `upper_bound` finds for a number (algorithm.hpp:148–158) -/
def snapDownS (a : List T) (v : T) : Outcome T := do readAt a (← Iter.pred (← upperBoundS a v))
variable [CppLimits T]
/-- `*pos` for the interval of positions that `lower_bound` finds for an interval (algorithm.hpp:126–147, interval.hpp:681–690) -/
def snapUpI (dbg d : Bool) (a : List T) (value : Operand T) : Outcome (Ivl T) := do derefI (readAt a) (← lowerBoundI dbg d a value)
/-- `*prev(pos)` for the interval of positions that `upper_bound` finds for an interval (algorithm.hpp:148–169, interval.hpp:681–690, 1377–1382) -/
def snapDownI (dbg d : Bool) (a : List T) (value : Operand T) : Outcome (Ivl T) := do derefI (readAt a) (← prevI (← upperBoundI dbg d a value))
end snap
end Intervals
