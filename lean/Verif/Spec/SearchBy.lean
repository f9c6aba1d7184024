import Verif.Spec.Algorithm
import Verif.Model.SearchCmp
/-!
# Specification vocabulary for searching with a comparison function
-/
namespace Intervals
open CppVal
variable {T : Type _} [CppVal T]
/-- what the search asks of an element with key `u` and the value `v` -/
def Order.holds : Order → Spec.Search → T → T → Bool
  | .less, .lower, u, v => lt u v
  | .less, .upper, u, v => le u v
  | .greater, .lower, u, v => lt v u
  | .greater, .upper, u, v => le v u
/-- the end of an interval that comes first in the order -/
def Order.first (o : Order) (X : Ivl T) : T := match o with
  | .less => X.lo
  | .greater => X.hi
/-- the end of an interval that comes last in the order -/
def Order.last (o : Order) (X : Ivl T) : T := match o with
  | .less => X.hi
  | .greater => X.lo
/-- the keys are free of NaN, and in the order -/
def Order.SortedBy {V : Type _} (o : Order) (key : V → T) (a : List V) : Prop :=
  (match o with
    | .less => a.Pairwise fun u v => le (key u) (key v) = true
    | .greater => a.Pairwise fun u v => le (key v) (key u) = true) ∧ ∀ u ∈ a, Spec.NotNan (key u)

namespace Spec
variable {V : Type _}
/-- the scalar search -/
def Search.byS (k : Search) (o : Order) (key : V → T) (a : List V) (v : T) : Outcome (Iter a.length) := match k with
  | .lower => lowerBoundByS (o.evS key) a v
  | .upper => upperBoundByS (o.veS key) a v
/-- the interval search -/
def Search.byI (k : Search) (o : Order) (key : V → T) (dbg dE : Bool) (a : List V) (value : Operand T) : Outcome (Ivl (Iter a.length)) := match k with
  | .lower => lowerBoundByI (o.evI key dbg dE) a value
  | .upper => upperBoundByI dbg (o.veI key dbg dE) a value
/-- the predicate of the partitioning that the interval search returns -/
def Search.predBy (k : Search) (o : Order) (key : V → T) (dbg dE : Bool) (value : Operand T) : V → Outcome (Cond T) := match k with
  | .lower => lowerPredByI (o.evI key dbg dE) value
  | .upper => upperPredByI dbg (o.veI key dbg dE) value

end Spec
end Intervals
