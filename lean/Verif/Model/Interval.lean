import Verif.Model.BoolSet
import Verif.Model.Val
/-!
# `interval<T>`: representation, construction, assignment, queries, comparisons, min/max, if_else, merge, intersect
(include/intervals/interval.hpp; generic in the value type)
-/
namespace Intervals
open CppVal

/-- The two members of `interval_base<T>` (interval.hpp:533–535). -/
structure Ivl (T : Type _) where
  lo : T
  hi : T
  deriving DecidableEq, Repr

namespace Ivl
variable {T : Type _} [CppVal T]

/-- `assigned()` (interval.hpp:565–569): `!(lower_ > upper_)`. -/
def assigned (x : Ivl T) : Bool := !gt x.lo x.hi

/-- `interval()` for floats and integers (interval.hpp:727–730, 797–800): `[inf,-inf]` / `[max,min]`.  Iterators have no such
constructor. -/
def unassigned [CppLimits T] : Ivl T := ⟨CppLimits.top, CppLimits.bot⟩

/-- `interval(T value)` (interval.hpp:731–734, 801–804, 866–869). -/
def ofVal (v : T) : Ivl T := ⟨v, v⟩

/-- `explicit interval(T _lower, T _upper)` (interval.hpp:735–739, 805–809, 870–874). -/
def make (lo hi : T) : Outcome (Ivl T) := do
  expects (!gt lo hi)
  return ⟨lo, hi⟩

/-- `from_unordered_bounds` (interval.hpp:559–563). -/
def fromUnorderedBounds (b1 b2 : T) : Outcome (Ivl T) := make (cmin b1 b2) (cmax b1 b2)

/-- `lower()` (interval.hpp:585–591). -/
def lower (dbg : Bool) (x : Ivl T) : Outcome T := do
  expectsDebug dbg x.assigned
  return x.lo
/-- `upper()` (interval.hpp:592–598). -/
def upper (dbg : Bool) (x : Ivl T) : Outcome T := do
  expectsDebug dbg x.assigned
  return x.hi
/-- `value()` (interval.hpp:599–607). -/
def value (x : Ivl T) : Outcome T := if eq x.lo x.hi then .ok x.lo else .error .contract
/-- `get<I>` (interval.hpp:1426–1433). -/
def get0 (dbg : Bool) (x : Ivl T) : Outcome T := lower dbg x
def get1 (dbg : Bool) (x : Ivl T) : Outcome T := upper dbg x

/-- `_assign` (interval.hpp:549–554). -/
def assignCore (x : Ivl T) (lo hi : T) : Ivl T := ⟨cmin x.lo lo, cmax x.hi hi⟩
/-- `assign(T rhs)` (interval.hpp:768–773, 838–843, 900–905). -/
def assignVal (x : Ivl T) (v : T) : Ivl T := assignCore x v v
/-- `assign(basebase const& rhs)` (interval.hpp:774–781, 844–851, 906–913). -/
def assign (x rhs : Ivl T) : Outcome (Ivl T) := do
  expects rhs.assigned
  return assignCore x rhs.lo rhs.hi
/-- `reset()` (interval.hpp:750–755, 820–825; absent for iterators). -/
def reset [CppLimits T] (_x : Ivl T) : Ivl T := unassigned
/-- `reset(T rhs)` (interval.hpp:756–761, 826–831, 888–893). -/
def resetVal (_x : Ivl T) (v : T) : Ivl T := ⟨v, v⟩
/-- `reset(basebase const& rhs)` (interval.hpp:762–767, 832–837, 894–899). -/
def resetIvl (_x rhs : Ivl T) : Ivl T := ⟨rhs.lo, rhs.hi⟩

/-- free `assign(interval&, interval const&)` (interval.hpp:1463–1469). -/
def assignFree (lhs rhs : Ivl T) : Outcome (Ivl T) := do
  expects (!lhs.assigned)
  return resetIvl lhs rhs
/-- free `assign_partial(interval&, interval const&)` (interval.hpp:1470–1475). -/
def assignPartial (lhs rhs : Ivl T) : Outcome (Ivl T) := assign lhs rhs
/-- free `reset(IntervalT&, interval const&)` (interval.hpp:1476–1481). -/
def resetFree (lhs rhs : Ivl T) : Ivl T := resetIvl lhs rhs

/-- `overlaps_with` (interval.hpp:609–613). -/
def overlapsWith (x rhs : Ivl T) : Bool := x.assigned && ge rhs.hi x.lo && le rhs.lo x.hi
/-- `contains(T value)` (interval.hpp:614–618). -/
def containsVal (x : Ivl T) (v : T) : Bool := le x.lo v && le v x.hi
/-- `contains(interval_base const&)` (interval.hpp:619–623). -/
def contains (x rhs : Ivl T) : Bool := x.assigned && ge rhs.lo x.lo && le rhs.hi x.hi
/-- `encloses(T value)` (interval.hpp:624–628). -/
def enclosesVal (x : Ivl T) (v : T) : Bool := lt x.lo v && lt v x.hi
/-- `encloses(interval_base const&)` (interval.hpp:629–633). -/
def encloses (x rhs : Ivl T) : Bool := gt rhs.lo x.lo && lt rhs.hi x.hi
/-- `matches(T value)` (interval.hpp:634–638). -/
def matchesVal (x : Ivl T) (v : T) : Bool := eq x.lo v && eq x.hi v
/-- `matches(interval_base const&)` (interval.hpp:639–643). -/
def matchesIvl (x rhs : Ivl T) : Bool := eq x.lo rhs.lo && eq x.hi rhs.hi

/-- `if_else(set<bool>, interval, interval)` (interval.hpp:1517–1531).  (Instantiable for floats and integers only: the iterator
specialisation has no default constructor.) -/
def ifElse [CppLimits T] (cond : BoolSet) (t f : Ivl T) : Outcome (Ivl T) := do
  let result := unassigned
  let result ← if BoolSet.possibly cond then assign result t else pure result
  let result ← if BoolSet.possiblyNot cond then assign result f else pure result
  return result
/-- `if_else(set<bool>, T, interval)` (interval.hpp:1532–1537). -/
def ifElseVI [CppLimits T] (cond : BoolSet) (t : T) (f : Ivl T) : Outcome (Ivl T) := ifElse cond (ofVal t) f
/-- `if_else(set<bool>, interval, T)` (interval.hpp:1538–1543). -/
def ifElseIV [CppLimits T] (cond : BoolSet) (t : Ivl T) (f : T) : Outcome (Ivl T) := ifElse cond t (ofVal f)
/-- `if_else(set<bool>, T, T)` (interval.hpp:1544–1550). -/
def ifElseVV [CppLimits T] (cond : BoolSet) (t f : T) : Outcome (Ivl T) := ifElse cond (ofVal t) (ofVal f)

/-- converting copy `interval(interval_base<U> const&)` with `U = T` (interval.hpp:740–748, 810–818). -/
def convert [CppLimits T] (rhs : Ivl T) : Ivl T := if rhs.assigned then ⟨rhs.lo, rhs.hi⟩ else unassigned

/-- The fold `(result.assign(args), ...)` of `merge` (interval.hpp:1558). -/
def mergeLoop : List (Ivl T) → Ivl T → Outcome (Ivl T)
  | [], r => .ok r
  | a :: as, r => do mergeLoop as (← assign r a)
/-- `merge(arg0, args...)` (interval.hpp:1553–1560), arguments of one interval type. -/
def merge (arg0 : Ivl T) (args : List (Ivl T)) : Outcome (Ivl T) := mergeLoop args arg0

/-- `detail::narrow_interval` (detail/interval.hpp:679–687) with `X(u)` a plain copy (argument of the same interval type). -/
def narrowInterval (x u : Ivl T) : Outcome (Ivl T) := do
  let xu := u
  let r ← fromUnorderedBounds (cmax x.lo xu.lo) (cmin x.hi xu.hi)
  return resetIvl x r
/-- The fold of `intersect` (interval.hpp:1566). -/
def intersectLoop : List (Ivl T) → Ivl T → Outcome (Ivl T)
  | [], r => .ok r
  | a :: as, r => do intersectLoop as (← narrowInterval r a)
/-- `intersect(arg0, args...)` (interval.hpp:1561–1568), arguments of one interval type. -/
def intersect (arg0 : Ivl T) (args : List (Ivl T)) : Outcome (Ivl T) := intersectLoop args arg0

end Ivl

/-- An operand of an operator that accepts scalars and intervals; `lower`, `upper`, `assigned`, `contains` dispatch on it
(detail/interval.hpp:147–208). -/
inductive Arg (T : Type _) where
  | scalar (v : T)
  | ivl (x : Ivl T)

namespace Arg
variable {T : Type _} [CppVal T]
/-- `detail::lower` (detail/interval.hpp:147–161). -/
def lo : Arg T → T
  | scalar v => v
  | ivl x => x.lo
/-- `detail::upper` (detail/interval.hpp:162–176). -/
def hi : Arg T → T
  | scalar v => v
  | ivl x => x.hi
/-- `detail::assigned` (detail/interval.hpp:194–208). -/
def assigned : Arg T → Bool
  | scalar _ => true
  | ivl x => x.assigned
/-- `detail::contains` (detail/interval.hpp:178–192). -/
def contains : Arg T → T → Bool
  | scalar w, v => eq w v
  | ivl x, v => x.containsVal v
end Arg

section compare
variable {T : Type _} [CppVal T]

/-- `compare_eq` (interval.hpp:47–61). -/
def compareEq (l r : Arg T) : BoolSet :=
  let result := BoolSet.empty
  let result := if ge r.hi l.lo && le r.lo l.hi then BoolSet.assign result true else result
  let result := if ne l.lo r.hi || ne l.hi r.lo then BoolSet.assign result false else result
  result
/-- `compare_neq` (interval.hpp:62–76). -/
def compareNeq (l r : Arg T) : BoolSet :=
  let result := BoolSet.empty
  let result := if ge r.hi l.lo && le r.lo l.hi then BoolSet.assign result false else result
  let result := if ne l.lo r.hi || ne l.hi r.lo then BoolSet.assign result true else result
  result
/-- `compare_lt` (interval.hpp:77–91). -/
def compareLt (l r : Arg T) : BoolSet :=
  let result := BoolSet.empty
  let result := if lt l.lo r.hi then BoolSet.assign result true else result
  let result := if ge l.hi r.lo then BoolSet.assign result false else result
  result
/-- `compare_leq` (interval.hpp:92–106). -/
def compareLeq (l r : Arg T) : BoolSet :=
  let result := BoolSet.empty
  let result := if le l.lo r.hi then BoolSet.assign result true else result
  let result := if gt l.hi r.lo then BoolSet.assign result false else result
  result

/-- The truth set of `operator ==` (interval.hpp:109–121; the constraint part is modelled in `Constraint.lean`). -/
def opEq (dbg : Bool) (l r : Arg T) : Outcome BoolSet := do
  expectsDebug dbg (l.assigned && r.assigned)
  return compareEq l r
/-- `operator !=` (interval.hpp:122–134). -/
def opNe (dbg : Bool) (l r : Arg T) : Outcome BoolSet := do
  expectsDebug dbg (l.assigned && r.assigned)
  return compareNeq l r
/-- `operator <` (interval.hpp:135–147). -/
def opLt (dbg : Bool) (l r : Arg T) : Outcome BoolSet := do
  expectsDebug dbg (l.assigned && r.assigned)
  return compareLt l r
/-- `operator <=` (interval.hpp:148–160). -/
def opLe (dbg : Bool) (l r : Arg T) : Outcome BoolSet := do
  expectsDebug dbg (l.assigned && r.assigned)
  return compareLeq l r
/-- `operator >` (interval.hpp:161–173). -/
def opGt (dbg : Bool) (l r : Arg T) : Outcome BoolSet := do
  expectsDebug dbg (l.assigned && r.assigned)
  return compareLt r l
/-- `operator >=` (interval.hpp:174–186). -/
def opGe (dbg : Bool) (l r : Arg T) : Outcome BoolSet := do
  expectsDebug dbg (l.assigned && r.assigned)
  return compareLeq r l

/-- `infimum` (interval.hpp:920–927). -/
def infimum (dbg : Bool) (x : Ivl T) : Outcome T := do
  expectsDebug dbg x.assigned
  return x.lo
/-- `supremum` (interval.hpp:928–935). -/
def supremum (dbg : Bool) (x : Ivl T) : Outcome T := do
  expectsDebug dbg x.assigned
  return x.hi
/-- `min(L,R)` on intervals (interval.hpp:937–945). -/
def minI (dbg : Bool) (l r : Arg T) : Outcome (Ivl T) := do
  expectsDebug dbg (l.assigned && r.assigned)
  Ivl.make (cmin l.lo r.lo) (cmin l.hi r.hi)
/-- `max(L,R)` on intervals (interval.hpp:946–954). -/
def maxI (dbg : Bool) (l r : Arg T) : Outcome (Ivl T) := do
  expectsDebug dbg (l.assigned && r.assigned)
  Ivl.make (cmax l.lo r.lo) (cmax l.hi r.hi)

end compare
end Intervals
