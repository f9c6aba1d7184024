import Verif.Model.Narrow
import Verif.Model.Elem
/-!
# Narrowing conversions that involve floating-point types (include/intervals/interval.hpp:1391–1423, include/intervals/math.hpp:294–312)

The three functions are templates over the value types; here they are written once over the cast `U → T` and the cast back `T → U`, which
may be undefined behaviour (floating-point to integral).  Model/Narrow.lean has the instance for two signed integer types.
-/
namespace Intervals
open CppVal

section generic
variable {U T : Type _} [CppVal U] [CppVal T] [CppLimits T]

/-- `gsl::narrow<T>(u)` (gsl-lite, outside the repository; scalar overload math.hpp:300–305): casts, casts back, and throws
`narrowing_error` if the result differs from `u`. -/
def narrowG (cast : U → Outcome T) (back : T → Outcome U) (u : U) : Outcome T := do
  let t ← cast u
  let v ← back t
  if ne v u then .error .narrowing else .ok t
/-- `gsl::narrow_failfast<T>(u)` (gsl-lite, outside the repository; scalar overload math.hpp:306–311): the same check as a contract check. -/
def narrowFailfastG (cast : U → Outcome T) (back : T → Outcome U) (u : U) : Outcome T := do
  let t ← cast u
  let v ← back t
  if ne v u then .error .contract else .ok t

/-- `narrow_cast<T>(X)` (interval.hpp:1391–1401). -/
def narrowCastGI (cast : U → Outcome T) (x : Ivl U) : Outcome (Ivl T) :=
  if x.assigned then do Ivl.make (← cast x.lo) (← cast x.hi)
  else .ok Ivl.unassigned
/-- `narrow<T>(X)` (interval.hpp:1402–1412). -/
def narrowGI (cast : U → Outcome T) (back : T → Outcome U) (x : Ivl U) : Outcome (Ivl T) :=
  if x.assigned then do Ivl.make (← narrowG cast back x.lo) (← narrowG cast back x.hi)
  else .ok Ivl.unassigned
/-- `narrow_failfast<T>(X)` (interval.hpp:1413–1423). -/
def narrowFailfastGI (cast : U → Outcome T) (back : T → Outcome U) (x : Ivl U) : Outcome (Ivl T) :=
  if x.assigned then do Ivl.make (← narrowFailfastG cast back x.lo) (← narrowFailfastG cast back x.hi)
  else .ok Ivl.unassigned
end generic

section casts
variable {K : Type} [Field K] [LinearOrder K]

/-- `static_cast<T>(v)` from a floating-point type to a signed integer type of `m` value bits: truncates; undefined behaviour if the
truncated value is not representable, or if `v` is not finite (C++20 [conv.fpint]). -/
def toIntV [IsStrictOrderedRing K] [FloorRing K] (m : Nat) : Fl K → Outcome (SInt m)
  | .num k => SInt.of m (Fl.truncInt k)
  | .nzero => SInt.of m 0
  | _ => .error .ub
/-- `static_cast<T>(v)` to the floating-point format `F` -/
def toFormatO (F : Fmt K) (v : Fl K) : Outcome (Fl K) := .ok (toFormatV F v)
/-- `static_cast<T>(v)` from a signed integer type to the floating-point format `F` -/
def toFloatO {n : Nat} (F : Fmt K) (v : SInt n) : Outcome (Fl K) := .ok (@toFloatV K _ _ F n v)
end casts

section instances
variable {K : Type} [Field K] [LinearOrder K]

/-- `narrow_cast<float>(interval<double>)`, and any other pair of formats (interval.hpp:1391–1401) -/
def narrowCastFF (F : Fmt K) (x : Ivl (Fl K)) : Outcome (Ivl (Fl K)) := narrowCastGI (toFormatO F) x
/-- `narrow<float>(interval<double>)` (interval.hpp:1402–1412); `F₀` is the source format, `F` the target. -/
def narrowFF (F₀ F : Fmt K) (x : Ivl (Fl K)) : Outcome (Ivl (Fl K)) := narrowGI (toFormatO F) (toFormatO F₀) x
/-- `narrow_failfast<float>(interval<double>)` (interval.hpp:1413–1423) -/
def narrowFailfastFF (F₀ F : Fmt K) (x : Ivl (Fl K)) : Outcome (Ivl (Fl K)) := narrowFailfastGI (toFormatO F) (toFormatO F₀) x

variable [IsStrictOrderedRing K] [FloorRing K]
/-- `narrow_cast<int>(interval<double>)` (interval.hpp:1391–1401) -/
def narrowCastFI (m : Nat) (x : Ivl (Fl K)) : Outcome (Ivl (SInt m)) := narrowCastGI (toIntV m) x
/-- `narrow<int>(interval<double>)` (interval.hpp:1402–1412); `F₀` is the source format. -/
def narrowFI (F₀ : Fmt K) (m : Nat) (x : Ivl (Fl K)) : Outcome (Ivl (SInt m)) := narrowGI (toIntV m) (toFloatO F₀) x
/-- `narrow_failfast<int>(interval<double>)` (interval.hpp:1413–1423) -/
def narrowFailfastFI (F₀ : Fmt K) (m : Nat) (x : Ivl (Fl K)) : Outcome (Ivl (SInt m)) := narrowFailfastGI (toIntV m) (toFloatO F₀) x
/-- `narrow_cast<double>(interval<int>)` (interval.hpp:1391–1401) -/
def narrowCastIF {n : Nat} (F : Fmt K) (x : Ivl (SInt n)) : Outcome (Ivl (Fl K)) := narrowCastGI (toFloatO F) x
/-- `narrow<double>(interval<int>)` (interval.hpp:1402–1412) -/
def narrowIF {n : Nat} (F : Fmt K) (x : Ivl (SInt n)) : Outcome (Ivl (Fl K)) := narrowGI (toFloatO F) (toIntV n) x
/-- `narrow_failfast<double>(interval<int>)` (interval.hpp:1413–1423) -/
def narrowFailfastIF {n : Nat} (F : Fmt K) (x : Ivl (SInt n)) : Outcome (Ivl (Fl K)) := narrowFailfastGI (toFloatO F) (toIntV n) x
end instances
end Intervals
