import Verif.Model.Algorithm
/-!
# Searching with a comparison function (the parameter `comp` of `lower_bound` and `upper_bound`, algorithm.hpp:126–169)

`comp` is called with an element and the value, in this order by `lower_bound` and in the other by `upper_bound`; so it is given here by two functions.  Elements
can be of any type.  Model/Algorithm has the instance `std::less<>`.
-/
namespace Intervals
open CppVal
section
variable {V : Type _} {T : Type _}

/-- the predicate of `lower_bound(range, x, comp)` for a scalar, `comp(element, value)` (algorithm.hpp:130–135) -/
def lowerPredByS (comp : V → T → Outcome Bool) (x : T) (e : V) : Outcome Bool := comp e x
/-- the predicate of `upper_bound(range, x, comp)` for a scalar, `!comp(value, element)` (algorithm.hpp:152–157) -/
def upperPredByS (comp : T → V → Outcome Bool) (x : T) (e : V) : Outcome Bool := do return !(← comp x e)
/-- `lower_bound(range, x, comp)` for a scalar (algorithm.hpp:126–136). -/
def lowerBoundByS (comp : V → T → Outcome Bool) (a : List V) (x : T) : Outcome (Iter a.length) := partitionPointS (lowerPredByS comp x) a
/-- `upper_bound(range, x, comp)` for a scalar (algorithm.hpp:148–158). -/
def upperBoundByS (comp : T → V → Outcome Bool) (a : List V) (x : T) : Outcome (Iter a.length) := partitionPointS (upperPredByS comp x) a

variable [CppVal T]
/-- the predicate of `lower_bound(range, value, comp)` for an interval (algorithm.hpp:130–135, 141–146); for lvalues and rvalues see `lowerPredI` -/
def lowerPredByI (comp : V → Operand T → Outcome (Cond T)) (value : Operand T) (e : V) : Outcome (Cond T) := comp e value
/-- the predicate of `upper_bound(range, value, comp)` for an interval (algorithm.hpp:152–157, 163–168) -/
def upperPredByI (dbg : Bool) (comp : Operand T → V → Outcome (Cond T)) (value : Operand T) (e : V) : Outcome (Cond T) := do
  Cond.mkNot dbg (← comp value e)
/-- `lower_bound(range, value, comp)` for an interval (algorithm.hpp:126–147). -/
def lowerBoundByI (comp : V → Operand T → Outcome (Cond T)) (a : List V) (value : Operand T) : Outcome (Ivl (Iter a.length)) :=
  partitionPointI (lowerPredByI comp value) a
/-- `upper_bound(range, value, comp)` for an interval (algorithm.hpp:148–169). -/
def upperBoundByI (dbg : Bool) (comp : Operand T → V → Outcome (Cond T)) (a : List V) (value : Operand T) : Outcome (Ivl (Iter a.length)) :=
  partitionPointI (upperPredByI dbg comp value) a

/-- A strict comparison `<` or `>` of the key of an element with a value: `std::less<>`, `std::greater<>`, or `[](auto const& e, auto const& v) { return e.key < v; }` -/
inductive Order where
  | less | greater
  deriving DecidableEq
variable (o : Order) (key : V → T) (dbg dE : Bool)
/-- `comp(element, value)` on numbers -/
def Order.evS (e : V) (x : T) : Outcome Bool := match o with
  | .less => .ok (lt (key e) x)
  | .greater => .ok (gt (key e) x)
/-- `comp(value, element)` on numbers -/
def Order.veS (x : T) (e : V) : Outcome Bool := match o with
  | .less => .ok (lt x (key e))
  | .greater => .ok (gt x (key e))
/-- `comp(element, value)` on an interval: the operators of interval.hpp:135–147, 161–173; `dE`: the key is of a discrete type -/
def Order.evI (e : V) (x : Operand T) : Outcome (Cond T) := match o with
  | .less => condLt dbg (.scalar dE (key e)) x
  | .greater => condGt dbg (.scalar dE (key e)) x
/-- `comp(value, element)` on an interval -/
def Order.veI (x : Operand T) (e : V) : Outcome (Cond T) := match o with
  | .less => condLt dbg x (.scalar dE (key e))
  | .greater => condGt dbg x (.scalar dE (key e))
end
end Intervals
