import Verif.Model.ConstraintTree
import Verif.Model.Algorithm
/-!
# Searching in ranges of elements of another value type (include/intervals/algorithm.hpp:55–82, 91–169, detail/algorithm.hpp:276–290)

`lower_bound(range, x)` for an interval `x` and elements of another arithmetic type, e.g. a table of `int` breakpoints and an `interval<double>`.  `V` is the type of the
elements, `U` the value type of `x`, and `T` the common type to which the comparison converts both; `ce`, `cx` are these conversions.
-/
namespace Intervals
open CppVal

section search
variable {V U T : Type} [CppVal V] [CppNum V] [CppVal U] [CppNum U] [CppVal T] [CppNum T] (ce : V → T) (cx : U → T)

/-- `partition_point` with a predicate returning a condition (algorithm.hpp:105–123); only the truth set of the condition matters for the search. -/
def partitionPointB {W : Type _} (pred : W → Outcome BoolSet) (a : List W) : Outcome (Ivl (Iter a.length)) := do
  let first ← stdPartitionPoint (fun v => do return BoolSet.always (← pred v)) a
  let last ← stdPartitionPoint (fun v => do return BoolSet.possibly (← pred v)) a
  Ivl.make first last

/-- `lower_bound(range, value)` for a number (algorithm.hpp:126–136): `element < value` in the common type -/
def lowerBoundMS (a : List V) (v : U) : Outcome (Iter a.length) := partitionPointS (fun e => .ok (lt (ce e) (cx v))) a
/-- `upper_bound(range, value)` for a number (algorithm.hpp:148–158): `!(value < element)` in the common type -/
def upperBoundMS (a : List V) (v : U) : Outcome (Iter a.length) := partitionPointS (fun e => .ok (!lt (cx v) (ce e))) a
/-- `lower_bound(range, value)` for an interval (algorithm.hpp:126–147, interval.hpp:135–147). -/
def lowerBoundM (dbg : Bool) (a : List V) (x : Ivl U) : Outcome (Ivl (Iter a.length)) :=
  partitionPointB (fun e => opLtM ce cx dbg (.scalar e) (.ivl x)) a
/-- `upper_bound(range, value)` for an interval (algorithm.hpp:148–169, interval.hpp:135–147, detail/interval.hpp:397–402). -/
def upperBoundM (dbg : Bool) (a : List V) (x : Ivl U) : Outcome (Ivl (Iter a.length)) :=
  partitionPointB (fun e => do BoolSet.not dbg (← opLtM cx ce dbg (.ivl x) (.scalar e))) a
end search

section part
variable {ι : Type} {V : ι → Type} [∀ i, CppVal (V i)] [∀ i, CppNum (V i)] {T : Type} [CppVal T] [CppNum T] (E : OperandTypes V T)
/-- the predicate of the partitioning that `lower_bound(range, x)` returns (algorithm.hpp:130–135) for an lvalue `x`, with the current bounds of `x` -/
def lowerPredT (dbg : Bool) (x : Ivl T) (i : ι) (e : V i) : Outcome (MCond V) := mkCmp E dbg x i (.scalar e) .lessX
/-- the predicate of the partitioning that `upper_bound(range, x)` returns (algorithm.hpp:152–157) -/
def upperPredT (dbg : Bool) (x : Ivl T) (i : ι) (e : V i) : Outcome (MCond V) := do MCond.mkNot dbg (← mkCmp E dbg x i (.scalar e) .xLess)

variable [CppStep T]
/-- `constrain(x, preds[index])` (algorithm.hpp:55–82, detail/algorithm.hpp:276–290) for the interval `x` and a predicate that returns a condition on `x`. -/
def constrainAtT {W : Type _} (dbg d : Bool) (x : Ivl T) (a : List W) (pred : W → Outcome (MCond V)) (index : Arg Index) : Outcome (Ivl T) := do
  let index ← partitionAt dbg a index
  if a.isEmpty then return x
  let ilo := index.lo
  let ihi := index.hi
  let xlo ← if 0 < ilo.val then do constrainT E dbg d x (← pred (← rangeAt a (ilo.val - 1))) else pure x
  let xhi ← if ihi.val < a.length then do constrainT E dbg d x (← MCond.mkNot dbg (← pred (← rangeAt a ihi.val))) else pure x
  expectsDebug dbg (ge xlo.hi xhi.lo && le xlo.lo xhi.hi)
  Ivl.make (cmax xlo.lo xhi.lo) (cmin xlo.hi xhi.hi)
end part
end Intervals
