import Verif.Model.IntArith
/-!
# Intervals of random-access iterators (include/intervals/interval.hpp:416–453, 671–701, 1377–1388)

An iterator into a range of `n` elements is its position `0 … n`; moving outside is undefined behaviour.  Offsets are values of a
signed integer type with `m` value bits.
-/
namespace Intervals
open CppVal
variable {n m : Nat}

/-- `it + d` of a random-access iterator: undefined if the result leaves the range. -/
def Iter.add (it : Iter n) (d : SInt m) : Outcome (Iter n) := BInt.ofInt 0 n (it.val + d.val)
/-- `it - d`. -/
def Iter.sub (it : Iter n) (d : SInt m) : Outcome (Iter n) := BInt.ofInt 0 n (it.val - d.val)
/-- `it1 - it2`: the difference as a value of `std::iter_difference_t`. -/
def Iter.diff (m : Nat) (a b : Iter n) : Outcome (SInt m) := SInt.of m (a.val - b.val)

/-- `operator +(iterator, integral)` (interval.hpp:416–424). -/
def iterAddI (dbg : Bool) (l : Arg (Iter n)) (r : Arg (SInt m)) : Outcome (Ivl (Iter n)) := do
  expectsDebug dbg (l.assigned && r.assigned)
  Ivl.make (← Iter.add l.lo r.lo) (← Iter.add l.hi r.hi)
/-- `operator +(integral, iterator)` (interval.hpp:425–433); `n + it` is `it + n`. -/
def addIterI (dbg : Bool) (l : Arg (SInt m)) (r : Arg (Iter n)) : Outcome (Ivl (Iter n)) := do
  expectsDebug dbg (l.assigned && r.assigned)
  Ivl.make (← Iter.add r.lo l.lo) (← Iter.add r.hi l.hi)
/-- `operator -(iterator, integral)` (interval.hpp:434–442). -/
def iterSubI (dbg : Bool) (l : Arg (Iter n)) (r : Arg (SInt m)) : Outcome (Ivl (Iter n)) := do
  expectsDebug dbg (l.assigned && r.assigned)
  Ivl.make (← Iter.sub l.lo r.hi) (← Iter.sub l.hi r.lo)
/-- `operator -(iterator, iterator)` (interval.hpp:444–453). -/
def iterDiffI (m : Nat) (dbg : Bool) (l r : Arg (Iter n)) : Outcome (Ivl (SInt m)) := do
  expectsDebug dbg (l.assigned && r.assigned)
  Ivl.make (← Iter.diff m l.lo r.hi) (← Iter.diff m l.hi r.lo)

/-- `detail::pred` on an iterator (detail/interval.hpp:257–269). -/
def Iter.pred (it : Iter n) : Outcome (Iter n) := BInt.ofInt 0 n (it.val - 1)
/-- `detail::succ` on an iterator (detail/interval.hpp:244–256). -/
def Iter.succ (it : Iter n) : Outcome (Iter n) := BInt.ofInt 0 n (it.val + 1)
/-- `prev(interval)` (interval.hpp:1377–1382). -/
def prevI (x : Ivl (Iter n)) : Outcome (Ivl (Iter n)) := do Ivl.make (← Iter.pred x.lo) (← Iter.pred x.hi)
/-- `next(interval)` (interval.hpp:1383–1388). -/
def nextI (x : Ivl (Iter n)) : Outcome (Ivl (Iter n)) := do Ivl.make (← Iter.succ x.lo) (← Iter.succ x.hi)

/-- Reading `*pos` of an iterator into the elements `a`: undefined past the end. -/
def readAt {V : Type} (a : List V) (pos : Iter a.length) : Outcome V :=
  match a[pos.val.toNat]? with
  | some v => .ok v
  | none => .error .ub

/-- The loop `for (pos = lower, end = upper; pos <= end; ++pos) result.assign(*pos);` (interval.hpp:685–688).  `read` is `*pos`. -/
def derefLoop {V : Type} [CppVal V] (read : Iter n → Outcome V) (last pos : Iter n) (result : Ivl V) : Outcome (Ivl V) :=
  if pos.val ≤ last.val then
    match read pos with
    | .error e => .error e
    | .ok v =>
      match hstep : BInt.ofInt 0 n (pos.val + 1) with
      | .error e => .error e
      | .ok pos' => derefLoop read last pos' (Ivl.assignVal result v)
  else .ok result
termination_by ((n : Int) + 1 - pos.val).toNat
decreasing_by
  have hp := pos.le
  unfold BInt.ofInt at hstep
  split at hstep
  · cases hstep; simp only; omega
  · cases hstep

/-- `operator *` of an iterator interval (interval.hpp:681–690). -/
def derefI {V : Type} [CppVal V] [CppLimits V] (read : Iter n → Outcome V) (x : Ivl (Iter n)) : Outcome (Ivl V) :=
  derefLoop read x.hi x.lo Ivl.unassigned
/-- `operator [](std::ptrdiff_t)` and `operator [](interval<std::ptrdiff_t>)` (interval.hpp:691–700). -/
def indexI {V : Type} [CppVal V] [CppLimits V] (dbg : Bool) (read : Iter n → Outcome V) (x : Ivl (Iter n)) (d : Arg (SInt m)) :
    Outcome (Ivl V) := do
  derefI read (← iterAddI dbg (.ivl x) d)

end Intervals
