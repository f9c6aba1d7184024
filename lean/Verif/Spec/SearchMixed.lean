import Verif.Spec.Algorithm
import Verif.Spec.ConstraintTree
import Verif.Model.SearchMixed
/-!
# Specification vocabulary for searching in ranges of elements of another value type
-/
namespace Intervals.Spec
open Intervals CppVal
section
variable {V U T : Type} [CppVal V] [CppNum V] [CppVal U] [CppNum U] [CppVal T] [CppNum T] (ce : V → T) (cx : U → T)
/-- the search for a number -/
def Search.findMS (k : Search) (a : List V) (v : U) : Outcome (Iter a.length) := match k with
  | .lower => lowerBoundMS ce cx a v
  | .upper => upperBoundMS ce cx a v
/-- the search for an interval -/
def Search.findM (k : Search) (dbg : Bool) (a : List V) (x : Ivl U) : Outcome (Ivl (Iter a.length)) := match k with
  | .lower => lowerBoundM ce cx dbg a x
  | .upper => upperBoundM ce cx dbg a x
/-- what the search asks of a (converted) element and a (converted) value -/
def Search.asks (k : Search) (e v : T) : Bool := match k with
  | .lower => lt e v
  | .upper => le e v
/-- the converted elements are free of NaN and in ascending order -/
def SortedM (a : List V) : Prop := a.Pairwise (fun u v => le (ce u) (ce v) = true) ∧ ∀ u ∈ a, NotNan (ce u)
end

section
variable {ι : Type} {V : ι → Type} [∀ i, CppVal (V i)] [∀ i, CppNum (V i)] {T : Type} [CppVal T] [CppNum T] (E : OperandTypes V T)
/-- the predicate of the partitioning that the search returns -/
def Search.predT (k : Search) (dbg : Bool) (x : Ivl T) (i : ι) : V i → Outcome (MCond V) := match k with
  | .lower => lowerPredT E dbg x i
  | .upper => upperPredT E dbg x i
/-- the smallest value that is kept behind the element `e`: `lower_bound` steps the element up in its own type -/
def Search.from (k : Search) (i : ι) (e : V i) : Outcome T := match k with
  | .lower => do return E.cv i (← E.su i e)
  | .upper => .ok (E.cv i e)
/-- the largest value that is kept before the element `e`: `upper_bound` steps the element down in its own type -/
def Search.upto (k : Search) (i : ι) (e : V i) : Outcome T := match k with
  | .lower => .ok (E.cv i e)
  | .upper => do return E.cv i (← E.pr i e)
/-- `v` belongs to the partition `J`: its position is in `J` -/
def Search.InPart {i : ι} (k : Search) (a : List (V i)) (J : Arg Index) (v : T) : Prop :=
  ∃ r, k.findMS (E.cv i) (fun v : T => v) a v = .ok r ∧ J.lo.val ≤ r.val ∧ r.val ≤ J.hi.val
end
end Intervals.Spec
