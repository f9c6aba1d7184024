import Verif.Model.NarrowFlt
/-!
# Implicit conversions to narrower value types (include/intervals/interval.hpp:740–748, 810–818)

The converting constructor of `interval<T>` takes an interval of every value type that is convertible to `T`, and is not `explicit`.  `std::convertible_to<T>`
holds for all pairs of arithmetic types, so `interval<double>` converts to `interval<int>` and `interval<long long>` to `interval<short>` without a cast.
-/
namespace Intervals
open CppVal

/-- converting constructor (interval.hpp:740–748, 810–818) with a conversion of the bounds that may be undefined -/
def convertO {U T : Type _} [CppVal U] [CppLimits T] (conv : U → Outcome T) (rhs : Ivl U) : Outcome (Ivl T) :=
  if rhs.assigned then do return ⟨← conv rhs.lo, ← conv rhs.hi⟩ else .ok Ivl.unassigned
/-- `interval<int>{ x }` of an `interval<long long>`, and other pairs of signed integer types (interval.hpp:810–818): the bounds are reduced modulo `2^(m+1)` -/
def convertInt {n : Nat} (m : Nat) (x : Ivl (SInt n)) : Ivl (SInt m) := convertI (narrowCastV m) x
/-- `interval<int>{ x }` of an `interval<double>` (interval.hpp:810–818): the bounds are truncated -/
def convertFI {K : Type} [Field K] [LinearOrder K] [IsStrictOrderedRing K] [FloorRing K] (m : Nat) (x : Ivl (Fl K)) : Outcome (Ivl (SInt m)) := convertO (toIntV m) x

section values
variable {U T : Type _} [CppVal T] (conv : U → Outcome T)
/-- `x.contains(v)` (interval.hpp:614–618) for a `v` of another type, which is converted to the type of the parameter -/
def containsO (x : Ivl T) (v : U) : Outcome Bool := do return x.containsVal (← conv v)
/-- `x.encloses(v)` (interval.hpp:624–628) for a `v` of another type -/
def enclosesO (x : Ivl T) (v : U) : Outcome Bool := do return x.enclosesVal (← conv v)
/-- `x.matches(v)` (interval.hpp:634–638) for a `v` of another type -/
def matchesO (x : Ivl T) (v : U) : Outcome Bool := do return x.matchesVal (← conv v)
/-- `x.assign(v)` (interval.hpp:768–773, 838–843) for a `v` of another type -/
def assignO (x : Ivl T) (v : U) : Outcome (Ivl T) := do return x.assignVal (← conv v)
/-- `x.reset(v)` (interval.hpp:756–761, 826–831) for a `v` of another type -/
def resetO (x : Ivl T) (v : U) : Outcome (Ivl T) := do return x.resetVal (← conv v)
end values
end Intervals
