import Verif.Model.Constraint
import Verif.Model.CSet
import Verif.Model.Iter
/-!
# Searching, partitioning, enumeration and indexed access
(include/intervals/algorithm.hpp, include/intervals/detail/algorithm.hpp)

A random-access range is the list of its elements.  `gsl::index` is `SInt 63`.
-/
namespace Intervals
open CppVal

/-- `gsl::index` (`std::ptrdiff_t`). -/
abbrev Index := SInt 63

/-! ## Binary search -/
section search
variable {V : Type _}

/-- The loop of `std::ranges::partition_point` (called in algorithm.hpp:99, 109, 114) on the `len` elements from position `first`:
halve the remaining length, continue behind the middle element if the predicate holds for it and before it otherwise.  Reading outside
the range is undefined. -/
def ppLoop (pred : V → Outcome Bool) (a : List V) (first len : Nat) : Outcome Nat :=
  if len = 0 then .ok first
  else
    match a[first + len / 2]? with
    | none => .error .ub
    | some v =>
      match pred v with
      | .error e => .error e
      | .ok true => ppLoop pred a (first + len / 2 + 1) (len - len / 2 - 1)
      | .ok false => ppLoop pred a first (len / 2)
termination_by len

/-- `std::ranges::partition_point(range, pred)`, an iterator into the range. -/
def stdPartitionPoint (pred : V → Outcome Bool) (a : List V) : Outcome (Iter a.length) := do
  BInt.ofInt 0 a.length ((← ppLoop pred a 0 a.length : Nat) : Int)

/-- `partition_point` with a predicate returning `bool` (algorithm.hpp:97–104): the position.  The `partitioning` object that is
returned with it consists of the range and the predicate. -/
def partitionPointS (pred : V → Outcome Bool) (a : List V) : Outcome (Iter a.length) := stdPartitionPoint pred a

variable {T : Type _} [CppVal T]
/-- `partition_point` with a predicate returning a condition, i.e. a `set<bool>` (algorithm.hpp:105–123). -/
def partitionPointI (pred : V → Outcome (Cond T)) (a : List V) : Outcome (Ivl (Iter a.length)) := do
  let first ← stdPartitionPoint (fun v => do return BoolSet.always (← pred v).truth) a
  let last ← stdPartitionPoint (fun v => do return BoolSet.possibly (← pred v).truth) a
  Ivl.make first last

/-- The predicate of `lower_bound` for scalars, `comp(element, value)` with `std::less<>` (algorithm.hpp:130–135). -/
def lowerPredS (x : T) (e : T) : Outcome Bool := .ok (lt e x)
/-- The predicate of `upper_bound` for scalars, `!comp(value, element)` (algorithm.hpp:152–157). -/
def upperPredS (x : T) (e : T) : Outcome Bool := .ok (!lt x e)
/-- The predicate of `lower_bound` for an interval `value` (algorithm.hpp:130–135, 141–146): an lvalue is captured by reference, so the
condition has its identity (`.ident`); of an rvalue a copy `T(value)` without identity is compared (`.anon`).  `dE`: the elements are of
a discrete type. -/
def lowerPredI (dbg dE : Bool) (value : Operand T) (e : T) : Outcome (Cond T) := condLt dbg (.scalar dE e) value
/-- The predicate of `upper_bound` for an interval `value` (algorithm.hpp:152–157, 163–168). -/
def upperPredI (dbg dE : Bool) (value : Operand T) (e : T) : Outcome (Cond T) := do Cond.mkNot dbg (← condLt dbg value (.scalar dE e))

/-- `lower_bound(range, x)` for a scalar (algorithm.hpp:126–136). -/
def lowerBoundS (a : List T) (x : T) : Outcome (Iter a.length) := partitionPointS (lowerPredS x) a
/-- `upper_bound(range, x)` for a scalar (algorithm.hpp:148–158). -/
def upperBoundS (a : List T) (x : T) : Outcome (Iter a.length) := partitionPointS (upperPredS x) a
/-- `lower_bound(range, value)` for an interval (algorithm.hpp:126–147). -/
def lowerBoundI (dbg dE : Bool) (a : List T) (value : Operand T) : Outcome (Ivl (Iter a.length)) :=
  partitionPointI (lowerPredI dbg dE value) a
/-- `upper_bound(range, value)` for an interval (algorithm.hpp:148–169). -/
def upperBoundI (dbg dE : Bool) (a : List T) (value : Operand T) : Outcome (Ivl (Iter a.length)) :=
  partitionPointI (upperPredI dbg dE value) a

/-! ## Constraining by a partition -/

/-- `range[i]`: undefined outside the range. -/
def rangeAt (a : List V) (i : Int) : Outcome V :=
  if i < 0 then .error .ub
  else match a[i.toNat]? with
    | some v => .ok v
    | none => .error .ub

/-- `partitioning::operator[]` with an index or an interval of indices (detail/algorithm.hpp:276–290).  (The overloads taking iterators,
266–275, initialise an aggregate with an empty base without braces for it and cannot be instantiated.) -/
def partitionAt (dbg : Bool) (a : List V) (index : Arg Index) : Outcome (Arg Index) := do
  expects index.assigned
  expectsDebug dbg (decide (0 ≤ index.lo.val) && decide (index.hi.val ≤ a.length))
  return index

variable [CppStep T]
/-- `constrain(interval, partitioning_constraint)` (algorithm.hpp:55–82) for the interval at address `id` with bounds `x`.  The copies
`xlo`, `xhi` keep its identity. -/
def constrainPart (dbg d : Bool) (id : Nat) (x : Ivl T) (a : List V) (pred : V → Outcome (Cond T)) (index : Arg Index) :
    Outcome (Ivl T) := do
  if a.isEmpty then return x
  let ilo := index.lo
  let ihi := index.hi
  let xlo ← if 0 < ilo.val then do constrain dbg d id x (← pred (← rangeAt a (ilo.val - 1))) else pure x
  let xhi ← if ihi.val < a.length then do constrain dbg d id x (← Cond.mkNot dbg (← pred (← rangeAt a ihi.val))) else pure x
  expectsDebug dbg (ge xlo.hi xhi.lo && le xlo.lo xhi.hi)
  Ivl.make (cmax xlo.lo xhi.lo) (cmin xlo.hi xhi.hi)

/-- `constrain(x, preds[index])` for an interval `x`. -/
def constrainAt (dbg d : Bool) (id : Nat) (x : Ivl T) (a : List V) (pred : V → Outcome (Cond T)) (index : Arg Index) :
    Outcome (Ivl T) := do
  constrainPart dbg d id x a pred (← partitionAt dbg a index)

/-- `constrain(scalar, partitioning_constraint)` (algorithm.hpp:29–47); the predicate is evaluated only in debug mode. -/
def constrainPartS (dbg : Bool) (x : T) (a : List V) (pred : V → Outcome Bool) (index : Arg Index) : Outcome T := do
  if a.isEmpty then return x
  let ilo := index.lo
  let ihi := index.hi
  if dbg && decide (0 < ilo.val) then expects (← pred (← rangeAt a (ilo.val - 1)))
  if dbg && decide (ihi.val < a.length) then expects (!(← pred (← rangeAt a ihi.val)))
  return x
/-- `constrain(x, preds[index])` for a scalar `x`. -/
def constrainAtS (dbg : Bool) (x : T) (a : List V) (pred : V → Outcome Bool) (index : Arg Index) : Outcome T := do
  constrainPartS dbg x a pred (← partitionAt dbg a index)
end search

/-! ## Enumeration -/

/-- What the enumerating iterators have in common: comparison with the sentinel, `operator *`, `operator ++`.  `fuel` is a proof
artefact: it bounds the number of increments. -/
class EnumIt (It : Type _) (V : outParam (Type _)) where
  done : It → Bool
  deref : It → Outcome V
  inc : It → Outcome It
  fuel : It → Nat
  inc_fuel : ∀ it it', inc it = .ok it' → fuel it' < fuel it

/-- `for (auto v : range) body` over the iterators `it … sentinel`, the body acting on a state. -/
def forEach {It V σ : Type _} [EnumIt It V] (body : V → σ → Outcome σ) (it : It) (s : σ) : Outcome σ :=
  if EnumIt.done it then .ok s
  else
    match EnumIt.deref it with
    | .error e => .error e
    | .ok v =>
      match body v s with
      | .error e => .error e
      | .ok s' =>
        match h : EnumIt.inc it with
        | .error e => .error e
        | .ok it' => forEach body it' s'
termination_by EnumIt.fuel it
decreasing_by exact EnumIt.inc_fuel _ _ h

/-- the values a range-for loop visits, in order -/
def visits {It V : Type _} [EnumIt It V] (it : It) : Outcome (List V) := forEach (fun v l => .ok (l ++ [v])) it []

/-- `single_value_iterator` (detail/algorithm.hpp:25–71). -/
structure SingleIt (V : Type _) where
  value : V
  exhausted : Bool

namespace SingleIt
variable {V : Type _}
/-- `operator ++()` (detail/algorithm.hpp:48–55). -/
def inc (it : SingleIt V) : Outcome (SingleIt V) := do
  expects (!it.exhausted)
  return { it with exhausted := true }
/-- `operator ++(int)` (detail/algorithm.hpp:56–63): the iterator afterwards and the returned one. -/
def postInc (it : SingleIt V) : Outcome (SingleIt V × SingleIt V) := do
  expects (!it.exhausted)
  return ({ it with exhausted := true }, ⟨it.value, false⟩)
/-- `operator *` (detail/algorithm.hpp:64–70). -/
def deref (it : SingleIt V) : Outcome V := do
  expects (!it.exhausted)
  return it.value
instance : EnumIt (SingleIt V) V where
  done it := it.exhausted
  deref := deref
  inc := inc
  fuel it := if it.exhausted then 0 else 1
  inc_fuel it it' h := by
    unfold inc at h
    cases e : it.exhausted <;> rw [e] at h <;> cases h
    simp
end SingleIt

/-- `set_value_iterator` (detail/algorithm.hpp:89–142); `index` starts at -1. -/
structure SetIt {V : Type _} (vals : List V) where
  value : CSet vals
  index : Int
  exhausted : Bool

namespace SetIt
variable {V : Type _} [DecidableEq V] {vals : List V}
/-- The loop `while (++index != ssize(values)) …` (detail/algorithm.hpp:118–126); `contains_index` fails fast outside
`0 … size-1` (set.hpp:140), so an `index` past the end — never reached from `begin` — is a contract violation; the second branch
states it directly, for termination. -/
def advance (s : CSet vals) (index : Int) : Outcome (SetIt vals) :=
  if index + 1 = (vals.length : Int) then .ok ⟨s, index + 1, true⟩
  else
    if (vals.length : Int) < index + 1 then .error .contract
    else
      match CSet.containsIndex s (index + 1) with
      | .error e => .error e
      | .ok true => .ok ⟨s, index + 1, false⟩
      | .ok false => advance s (index + 1)
termination_by ((vals.length : Int) - index).toNat
/-- `operator ++()` (detail/algorithm.hpp:113–127). -/
def inc (it : SetIt vals) : Outcome (SetIt vals) := do
  expects (!it.exhausted)
  advance it.value it.index
/-- `operator ++(int)` (detail/algorithm.hpp:128–134). -/
def postInc (it : SetIt vals) : Outcome (SetIt vals × SetIt vals) := do
  let result := it
  return (← inc it, result)
/-- `operator *` (detail/algorithm.hpp:135–141). -/
def deref (it : SetIt vals) : Outcome V := do
  expects (!it.exhausted)
  rangeAt vals it.index
omit [DecidableEq V] in
theorem advance_index (s : CSet vals) (index : Int) (it : SetIt vals) (h : advance s index = .ok it) :
    index < it.index ∧ it.index ≤ vals.length := by
  induction hn : ((vals.length : Int) - index).toNat using Nat.strongRecOn generalizing index with
  | ind n ih =>
    unfold advance at h
    split at h
    · cases h; simp only; omega
    · split at h
      · cases h
      · split at h
        · cases h
        · cases h; simp only; omega
        · have := ih _ (by omega) _ h rfl
          omega
instance : EnumIt (SetIt vals) V where
  done it := it.exhausted
  deref := deref
  inc := inc
  fuel it := ((vals.length : Int) - it.index).toNat
  inc_fuel it it' h := by
    unfold inc at h
    cases e : it.exhausted <;> rw [e] at h
    · have := advance_index _ _ _ h
      omega
    · cases h
end SetIt

/-- `interval_value_iterator` (detail/algorithm.hpp:162–215) over a bounded integer type or iterators of one range. -/
structure IvlIt (l h : Int) where
  pos : BInt l h
  upper : BInt l h
  exhausted : Bool

namespace IvlIt
variable {l h : Int}
/-- `operator ++()` (detail/algorithm.hpp:186–200). -/
def inc (it : IvlIt l h) : Outcome (IvlIt l h) := do
  expects (!it.exhausted)
  if eq it.pos it.upper then return { it with exhausted := true }
  else return { it with pos := ← BInt.ofInt l h (it.pos.val + 1) }
/-- `operator ++(int)` (detail/algorithm.hpp:201–207). -/
def postInc (it : IvlIt l h) : Outcome (IvlIt l h × IvlIt l h) := do
  let result := it
  return (← inc it, result)
/-- `operator *` (detail/algorithm.hpp:208–214). -/
def deref (it : IvlIt l h) : Outcome (BInt l h) := do
  expects (!it.exhausted)
  return it.pos
instance : EnumIt (IvlIt l h) (BInt l h) where
  done it := it.exhausted
  deref := deref
  inc := inc
  fuel it := (h - it.pos.val).toNat + (if it.exhausted then 0 else 1)
  inc_fuel it it' hi := by
    unfold inc at hi
    cases e : it.exhausted <;> rw [e] at hi
    · simp only [Bool.not_false, expects_true, ok_bind] at hi
      split at hi
      · cases hi; simp
      · unfold BInt.ofInt at hi
        split at hi
        · next hv =>
          cases hi
          have := it.pos.le
          simp only
          omega
        · cases hi
    · cases hi
end IvlIt

/-- `enumerate(T value)` and `begin()` (algorithm.hpp:172–178, detail/algorithm.hpp:77–81). -/
def enumerateS {V : Type _} (v : V) : SingleIt V := ⟨v, false⟩
/-- `enumerate(set<T>)` and `begin()` (algorithm.hpp:179–186, detail/algorithm.hpp:148–154). -/
def enumerateSet {V : Type _} [DecidableEq V] {vals : List V} (s : CSet vals) : Outcome (SetIt vals) := do
  expects (CSet.assigned s)
  SetIt.inc ⟨s, -1, false⟩
/-- `enumerate(interval)` and `begin()` (algorithm.hpp:187–195, detail/algorithm.hpp:221–225). -/
def enumerateI {l h : Int} (x : Ivl (BInt l h)) : Outcome (IvlIt l h) := do
  expects x.assigned
  return ⟨x.lo, x.hi, false⟩

/-! ## Indexed access -/

/-- `at(range, index)` (algorithm.hpp:198–205). -/
def atS {V : Type _} (a : List V) (i : Index) : Outcome V := do
  expects (decide (0 ≤ i.val) && decide (i.val < a.length))
  rangeAt a i.val

/-- The loop `for (index = lower; index <= upper; ++index) assign_partial(result, range[index]);` (algorithm.hpp:216–219). -/
def atLoop {V A : Type _} (step : A → V → Outcome A) (a : List V) (last index : Index) (result : A) : Outcome A :=
  if index.val ≤ last.val then
    match rangeAt a index.val with
    | .error e => .error e
    | .ok v =>
      match step result v with
      | .error e => .error e
      | .ok result' =>
        match h : BInt.ofInt (-(2:Int)^63) ((2:Int)^63 - 1) (index.val + 1) with
        | .error e => .error e
        | .ok index' => atLoop step a last index' result'
  else .ok result
termination_by ((2:Int)^63 - index.val).toNat
decreasing_by
  have hp := index.le
  unfold BInt.ofInt at h
  split at h
  · cases h; simp only; omega
  · cases h

/-- `at(range, interval<gsl::index>)` (algorithm.hpp:206–221) for a result type with empty value `empty` and `assign_partial` `step`. -/
def atGen {V A : Type _} (empty : A) (step : A → V → Outcome A) (a : List V) (i : Ivl Index) : Outcome A := do
  expects i.assigned
  expects (decide (0 ≤ i.lo.val) && decide (i.hi.val < a.length))
  atLoop step a i.hi i.lo empty

/-- … for a range of scalars: the result is an interval; `range[index]` converts to a degenerate interval (interval.hpp:1470–1475). -/
def atI {T : Type _} [CppVal T] [CppLimits T] (a : List T) (i : Ivl Index) : Outcome (Ivl T) :=
  atGen Ivl.unassigned (fun r v => Ivl.assignPartial r (Ivl.ofVal v)) a i
/-- … for a range of intervals. -/
def atII {T : Type _} [CppVal T] [CppLimits T] (a : List (Ivl T)) (i : Ivl Index) : Outcome (Ivl T) :=
  atGen Ivl.unassigned (fun r v => Ivl.assignPartial r v) a i
/-- … for a range of enumerators or `bool`s: the result is a set; `range[index]` converts to a singleton (set.hpp:450–455). -/
def atSet {V : Type _} [DecidableEq V] {vals : List V} (dbg : Bool) (a : List V) (i : Ivl Index) : Outcome (CSet vals) :=
  atGen (CSet.empty vals) (fun r v => do CSet.assignSet dbg r (← CSet.ofVal vals v)) a i
/-- … for a range of sets. -/
def atSetSet {V : Type _} [DecidableEq V] {vals : List V} (dbg : Bool) (a : List (CSet vals)) (i : Ivl Index) : Outcome (CSet vals) :=
  atGen (CSet.empty vals) (fun r v => CSet.assignSet dbg r v) a i

end Intervals
