/-!
# Type traits (include/intervals/type_traits.hpp, detail/type_traits.hpp, concepts.hpp)

Types are data.  `enum_`, `flt`, `int`, `iter`, `other` carry a number that tells different types of the kind apart.  Simplification: types are without
`const` and references (`std::remove_cvref_t` is the identity).
-/
namespace Intervals.Traits

/-- the class templates derived from `detail::condition` (detail/interval.hpp:332–379) -/
inductive CondKind where
  | lessEqual | less | equal | notEqual | conjunction | disjunction
deriving DecidableEq

/-- a C++ type, as far as the traits distinguish types -/
inductive CppType where
  | bool
  | enum (n : Nat)
  | flt (n : Nat)
  | int (n : Nat)
  | iter (n : Nat)
  | other (n : Nat)
  /-- `set<T, ReflectorT>`; reflector 0 is `makeshift::reflector` -/
  | set (elem : CppType) (refl : Nat)
  /-- `interval<V>` -/
  | interval (v : CppType)
  /-- `detail::constrained_interval<interval<V>>` (detail/interval.hpp:30–100) -/
  | cinterval (v : CppType)
  /-- `less_constraint<L, R>`, …, `constraint_disjunction<L, R>`: classes derived from `detail::condition`, itself derived from `set<bool>`
  (detail/interval.hpp:318–379) -/
  | cond (k : CondKind) (l r : CppType)
  /-- the class template specialization `interval_of<T>` itself -/
  | intervalOf (t : CppType)
deriving DecidableEq

open CppType

/-- concept `interval_value` (concepts.hpp:24–33); `bool` is an integral type. -/
def isIntervalValue : CppType → Bool
  | .bool | flt _ | int _ | iter _ => true
  | _ => false
/-- concept `any_interval` with one argument (concepts.hpp:35–36) -/
def isInterval : CppType → Bool
  | interval _ | cinterval _ => true
  | _ => false
/-- concept `interval_arg` (concepts.hpp:46–47) -/
def isIntervalArg (t : CppType) : Bool := isIntervalValue t || isInterval t

/-- `interval_value_t<T>` (type_traits.hpp:20–21) -/
def intervalValueT : CppType → Option CppType
  | interval v | cinterval v => some v
  | _ => none
/-- `interval_arg_value_t<T>` (type_traits.hpp:23–24, detail/type_traits.hpp:14–16) -/
def intervalArgValueT (t : CppType) : Option CppType :=
  if isIntervalValue t then some t else intervalValueT t
/-- `interval_of_t<T>` (type_traits.hpp:26) -/
def intervalOfT (t : CppType) : Option CppType := (intervalArgValueT t).map interval
/-- `typename interval_of<T>::type` (type_traits.hpp:27–31): names `interval_of<T>`, not `interval_of_t<T>`. -/
def intervalOfType (t : CppType) : Option CppType := if isIntervalArg t then some (intervalOf t) else none
/-- `interval_t<T>` (type_traits.hpp:33; `interval_type` in interval.hpp:725, 795, 860 and detail/interval.hpp:45) -/
def intervalT : CppType → Option CppType
  | interval v | cinterval v => some (interval v)
  | _ => none
/-- `common_interval_value_t<Ts...>` (type_traits.hpp:35–38); `std::common_type` of the value types is a parameter. -/
def commonIntervalValueT (common : List CppType → Option CppType) (ts : List CppType) : Option CppType := do
  common (← ts.mapM intervalArgValueT)
/-- `common_interval_t<Ts...>` (type_traits.hpp:40–46); also every `std::common_type` specialization of interval.hpp:1581–1620 -/
def commonIntervalT (common : List CppType → Option CppType) (ts : List CppType) : Option CppType :=
  (commonIntervalValueT common ts).map interval

/-- `typename set_of<T, ReflectorT>::type` (type_traits.hpp:49–56).  The specialization for `set<T, ReflectorT>` is for the default second argument only. -/
def setOfType (t : CppType) (r : Nat) : Option CppType :=
  match t with
  | .bool => some (.set .bool r)
  | enum n => some (.set (enum n) r)
  | flt n => some (interval (flt n))
  | int n => some (interval (int n))
  | iter n => some (interval (iter n))
  | .set e r' => if r = 0 then some (.set e r') else none
  | interval v => some (interval v)
  | cinterval v => some (interval v)
  | other _ | intervalOf _ | .cond _ _ _ => none
/-- `set_of_t<T, ReflectorT>` (type_traits.hpp:57): names `set_of<T>`, so the reflector argument is not used. -/
def setOfT (t : CppType) (_r : Nat) : Option CppType := setOfType t 0
/-- `propagate_set_t<S, T, ReflectorT>` (type_traits.hpp:59–62).  The specialization for `set<U, R>` does not match classes derived from it. -/
def propagateSetT (s t : CppType) (r : Nat) : Option CppType :=
  match s with
  | interval _ | cinterval _ | .set _ _ => setOfT t r
  | _ => some t

end Intervals.Traits
