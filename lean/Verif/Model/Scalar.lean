import Verif.Model.Interval
/-!
# Overloads for scalars (include/intervals/logic.hpp:47–56, include/intervals/math.hpp:38–63, 259–330)

What generic code calls when it is instantiated with a plain value type.
-/
namespace Intervals.Scalar
open CppVal
variable {T : Type _}

/-- `if_else(bool, T, T)` (logic.hpp:51–56). -/
def ifElse (cond : Bool) (t f : T) : T := if cond then t else f
/-- `assign(T&, T)` (math.hpp:261–266): the new value of `lhs`. -/
def assign (_lhs rhs : T) : T := rhs
/-- `assign_partial(T&, T)` (math.hpp:268–273). -/
def assignPartial (_lhs rhs : T) : T := rhs
/-- `reset(T&, T)` (math.hpp:275–280). -/
def reset (_lhs rhs : T) : T := rhs
/-- `constrain(T, bool)` (math.hpp:283–290). -/
def constrain (x : T) (c : Bool) : Outcome T := do
  expects c
  return x
/-- `merge(T0, Ts...)` (math.hpp:313–320): the first argument. -/
def merge (arg0 : T) (_args : List T) : T := arg0
/-- `intersect(T0, Ts...)` (math.hpp:321–328): the first argument. -/
def intersect (arg0 : T) (_args : List T) : T := arg0
/-- `infimum(X)` (math.hpp:39–44). -/
def infimum (x : T) : T := x
/-- `supremum(X)` (math.hpp:45–50). -/
def supremum (x : T) : T := x
/-- `min(T, T)` (math.hpp:52–57). -/
def min [CppVal T] (lhs rhs : T) : T := if lt rhs lhs then rhs else lhs
/-- `max(T, T)` (math.hpp:58–63). -/
def max [CppVal T] (lhs rhs : T) : T := if lt lhs rhs then rhs else lhs
end Intervals.Scalar
