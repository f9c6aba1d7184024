import Verif.Model.Constraint
import Verif.Model.Mixed
/-!
# `constrain` with operands of two value types (include/intervals/detail/interval.hpp:244–269, 397–418, 441–627, interval.hpp:109–186, 1499–1507)

`constrain(x, x < r)` for an interval `x` and an operand `r` (a scalar or an interval) of another value type, e.g. `interval<long long>` and
`int`, `interval<double>` and `interval<int>`, `interval<double>` and `float`.  `T` is the value type of `x`, `V` the one of `r`, and `cv` the conversion
from `V` to `T`.  `T` has to be the common type of both: otherwise `UInterval{ xlo, std::min<T>(xhi, rhi) }` is a narrowing list-initialization
and does not compile.  `succ` and `pred` step `r` in its own type (`pr`, `su`: built-in `--` and `++` for integral `V`, nothing for floating-point types) before the
conversion.

Simplification: the condition is formed from `x` with its current bounds, and `r` is not `x` (it has another type).
-/
namespace Intervals
open CppVal

/-- A comparison condition with the interval `x` on one side (detail/interval.hpp:333–363); `operator >` and `operator >=` exchange their operands
(interval.hpp:161–186). -/
inductive XRel where
  /-- `less_constraint{ x, r }` -/
  | xLess
  /-- `less_constraint{ r, x }` -/
  | lessX
  /-- `less_equal_constraint{ x, r }` -/
  | xLeq
  /-- `less_equal_constraint{ r, x }` -/
  | leqX
  /-- `equal_constraint{ x, r }` -/
  | xEq
  /-- `equal_constraint{ r, x }` -/
  | eqX
  /-- `not_equal_constraint{ x, r }` -/
  | xNe
  /-- `not_equal_constraint{ r, x }` -/
  | neX
  deriving DecidableEq

/-- `operator !` (detail/interval.hpp:397–418) on the kind of condition -/
def XRel.neg : XRel → XRel
  | .xLess => .leqX
  | .lessX => .xLeq
  | .xLeq => .lessX
  | .leqX => .xLess
  | .xEq => .xNe
  | .eqX => .neX
  | .xNe => .xEq
  | .neX => .eqX

section
variable {V T : Type _} [CppVal V] [CppNum V] [CppVal T] [CppNum T]

/-- `compare_lt`, … (interval.hpp:47–106) with the operands in the order of the condition -/
def XRel.compare (cv : V → T) (x : Ivl T) (r : Arg V) : XRel → BoolSet
  | .xLess => compareLtM (fun v : T => v) cv (.ivl x) r
  | .lessX => compareLtM cv (fun v : T => v) r (.ivl x)
  | .xLeq => compareLeqM (fun v : T => v) cv (.ivl x) r
  | .leqX => compareLeqM cv (fun v : T => v) r (.ivl x)
  | .xEq => compareEqM (fun v : T => v) cv (.ivl x) r
  | .eqX => compareEqM cv (fun v : T => v) r (.ivl x)
  | .xNe => compareNeqM (fun v : T => v) cv (.ivl x) r
  | .neX => compareNeqM cv (fun v : T => v) r (.ivl x)

variable [CppStep T]
/-- `detail::constrain` (detail/interval.hpp:441–627) with `optional` false; `s` is the truth set of the condition, `d` says that `T` is an integral type. -/
def constrainRel (cv : V → T) (pr su : V → Outcome V) (d dbg : Bool) (s : BoolSet) (x : Ivl T) (r : Arg V) (k : XRel) : Outcome (Ivl T) :=
  if BoolSet.contains s true then
    match k with
    | .xLess => do                                                                        -- 502–511
      expectsDebug dbg (lt x.lo (cv r.hi))
      Ivl.make x.lo (cmin x.hi (cv (← pr r.hi)))
    | .lessX => do                                                                        -- 524–533
      expectsDebug dbg (lt (cv r.lo) x.hi)
      Ivl.make (cmax (cv (← su r.lo)) x.lo) x.hi
    | .xLeq => do                                                                         -- 454–463
      expectsDebug dbg (le x.lo (cv r.hi))
      Ivl.make x.lo (cmin x.hi (cv r.hi))
    | .leqX => do                                                                         -- 476–485
      expectsDebug dbg (le (cv r.lo) x.hi)
      Ivl.make (cmax (cv r.lo) x.lo) x.hi
    | .xEq => do                                                                          -- 553–562
      expectsDebug dbg (ge (cv r.hi) x.lo && le (cv r.lo) x.hi)
      Ivl.make (cmax x.lo (cv r.lo)) (cmin x.hi (cv r.hi))
    | .eqX => do
      expectsDebug dbg (ge x.hi (cv r.lo) && le x.lo (cv r.hi))
      Ivl.make (cmax (cv r.lo) x.lo) (cmin (cv r.hi) x.hi)
    | .xNe => do                                                                          -- 583–605
      expectsDebug dbg (ne x.lo (cv r.hi) || ne x.hi (cv r.lo))
      if d && ne x.lo x.hi && eq r.lo r.hi && eq x.lo (cv r.lo) then Ivl.make (← succStep d x.lo) x.hi
      else if d && ne x.lo x.hi && eq r.lo r.hi && eq x.hi (cv r.lo) then Ivl.make x.lo (← predStep d x.hi)
      else return x
    | .neX => do                                                                          -- 606–617
      expectsDebug dbg (ne (cv r.lo) x.hi || ne (cv r.hi) x.lo)
      if d && ne x.lo x.hi && eq r.lo r.hi && eq x.lo (cv r.lo) then Ivl.make (← succStep d x.lo) x.hi
      else if d && ne x.lo x.hi && eq r.lo r.hi && eq x.hi (cv r.lo) then Ivl.make x.lo (← predStep d x.hi)
      else return x
  else .error .contract

/-- `constrain(x, c)` (interval.hpp:1499–1507) where `c` compares `x` with `r` -/
def constrainM (cv : V → T) (pr su : V → Outcome V) (d dbg : Bool) (x : Ivl T) (r : Arg V) (k : XRel) : Outcome (Ivl T) := do
  expectsDebug dbg (x.assigned && r.assigned)
  constrainRel cv pr su d dbg (k.compare cv x r) x r k
/-- `constrain(x, !c)` where `c` compares `x` with `r` -/
def constrainNotM (cv : V → T) (pr su : V → Outcome V) (d dbg : Bool) (x : Ivl T) (r : Arg V) (k : XRel) : Outcome (Ivl T) := do
  expectsDebug dbg (x.assigned && r.assigned)
  constrainRel cv pr su d dbg (← BoolSet.not dbg (k.compare cv x r)) x r k.neg
end
end Intervals
