import Verif.Model.Interval
import Verif.Model.Sign
/-!
# Interval arithmetic (include/intervals/interval.hpp:188–414, 486–526, 956–1019, 1436–1460)

The operator templates are modelled once, generic in the value type: the `if constexpr (floating_point_operands<X, Y>)` branches
are selected by `CppNum.isFloat`.  Simplification: both operands have the same value type; for operands of different types this
describes the code after the usual arithmetic conversions of the bounds to the common type.
-/
namespace Intervals
open CppVal

/-- Built-in arithmetic of an `arithmetic` type.  Signed integer operations can have undefined behaviour (`Err.ub`). -/
class CppNum (T : Type _) where
  /-- `std::floating_point<T>` -/
  isFloat : Bool
  /-- `T{ }`, and the literal `0` -/
  zero : T
  /-- the literal `1` -/
  one : T
  /-- `std::numeric_limits<T>::quiet_NaN()`, `infinity()`, `-infinity()`; used in branches for floating-point types only -/
  nan : T
  inf : T
  ninf : T
  neg : T → Outcome T
  add : T → T → Outcome T
  sub : T → T → Outcome T
  mul : T → T → Outcome T
  div : T → T → Outcome T

open CppNum
variable {T : Type _} [CppVal T] [CppNum T]

/-- `is_negative_inf` (detail/interval.hpp:116–130); for integral types `false`. -/
def isNegInf (x : T) : Bool := isFloat T && eq x ninf
/-- `is_positive_inf` (detail/interval.hpp:131–145); for integral types `false`. -/
def isPosInf (x : T) : Bool := isFloat T && eq x inf

/-- `nan_interval<X, Y>()` (detail/interval.hpp:292–303). -/
def nanInterval : Outcome (Ivl T) := Ivl.make nan nan
/-- `inf_interval<X, Y>()` (detail/interval.hpp:305–316). -/
def infInterval : Outcome (Ivl T) := Ivl.make ninf inf

/-- `common_interval_t<X, Y>{ min(v1, v2), max(v1, v2) }` (interval.hpp:259, 265, 355, 376). -/
def hull2 (v1 v2 : T) : Outcome (Ivl T) := Ivl.make (cmin v1 v2) (cmax v1 v2)
/-- `common_interval_t<X, Y>{ min(min(v1, v2), min(v3, v4)), max(max(v1, v2), max(v3, v4)) }` (interval.hpp:273, 412). -/
def hull4 (v1 v2 v3 v4 : T) : Outcome (Ivl T) :=
  Ivl.make (cmin (cmin v1 v2) (cmin v3 v4)) (cmax (cmax v1 v2) (cmax v3 v4))

/-- unary `operator +` (interval.hpp:188–195). -/
def plusI (dbg : Bool) (x : Ivl T) : Outcome (Ivl T) := do
  expectsDebug dbg x.assigned
  return x
/-- unary `operator -` (interval.hpp:196–203). -/
def negI (dbg : Bool) (x : Ivl T) : Outcome (Ivl T) := do
  expectsDebug dbg x.assigned
  Ivl.make (← neg x.hi) (← neg x.lo)

/-- `operator +` (interval.hpp:205–221). -/
def addI (dbg : Bool) (x y : Arg T) : Outcome (Ivl T) := do
  expectsDebug dbg (x.assigned && y.assigned)
  if isFloat T && ((isNegInf x.lo && isPosInf y.hi) || (isNegInf y.lo && isPosInf x.hi)) then
    nanInterval
  else
    Ivl.make (← add x.lo y.lo) (← add x.hi y.hi)

/-- binary `operator -` (interval.hpp:222–238). -/
def subI (dbg : Bool) (x y : Arg T) : Outcome (Ivl T) := do
  expectsDebug dbg (x.assigned && y.assigned)
  if isFloat T && ((isNegInf x.lo && isNegInf y.lo) || (isPosInf y.hi && isPosInf x.hi)) then
    nanInterval
  else
    Ivl.make (← sub x.lo y.hi) (← sub x.hi y.lo)

/-- `operator *` (interval.hpp:239–275).  (Two scalar operands do not occur: `requires any_interval<X, Y>`.) -/
def mulI (dbg : Bool) (x y : Arg T) : Outcome (Ivl T) := do
  expectsDebug dbg (x.assigned && y.assigned)
  if isFloat T && (((isNegInf x.lo || isPosInf x.hi) && y.contains zero)
      || (x.contains zero && (isNegInf y.lo || isPosInf y.hi))) then
    nanInterval
  else
    match x, y with
    | .scalar s, y => do
      let v1 ← mul s y.lo
      let v2 ← mul s y.hi
      hull2 v1 v2
    | x, .scalar s => do
      let v1 ← mul x.lo s
      let v2 ← mul x.hi s
      hull2 v1 v2
    | .ivl x, .ivl y => do
      let v1 ← mul x.lo y.lo
      let v2 ← mul x.lo y.hi
      let v3 ← mul x.hi y.lo
      let v4 ← mul x.hi y.hi
      hull4 v1 v2 v3 v4

/-- `operator /` (interval.hpp:315–414).  The forced trap `0/zero` on integers is undefined behaviour. -/
def divI (dbg : Bool) (x y : Arg T) : Outcome (Ivl T) := do
  expectsDebug dbg (x.assigned && y.assigned)
  match x, y with
  | .scalar s, y =>
    if isFloat T && ((isNegInf s || isPosInf s) && (isNegInf y.lo || isPosInf y.hi)) then nanInterval
    else if isFloat T && (eq s zero && le y.lo zero && le zero y.hi) then nanInterval
    else if isFloat T && (ne s zero && lt y.lo zero && lt zero y.hi) then infInterval
    else if !isFloat T && (le y.lo zero && le zero y.hi) then .error .ub
    else do
      let v1 ← div s y.lo
      let v2 ← div s y.hi
      hull2 v1 v2
  | x, .scalar s =>
    if isFloat T && ((isNegInf x.lo || isPosInf x.hi) && (isNegInf s || isPosInf s)) then nanInterval
    else if isFloat T && (le x.lo zero && le zero x.hi && eq s zero) then nanInterval
    else do
      let v1 ← div x.lo s
      let v2 ← div x.hi s
      hull2 v1 v2
  | .ivl x, .ivl y =>
    if isFloat T && ((isNegInf x.lo || isPosInf x.hi) && (isNegInf y.lo || isPosInf y.hi)) then nanInterval
    else if isFloat T && (le x.lo zero && le zero x.hi && le y.lo zero && le zero y.hi) then nanInterval
    else if isFloat T && ((lt zero x.lo || lt x.hi zero) && lt y.lo zero && lt zero y.hi) then infInterval
    else if !isFloat T && (le y.lo zero && le zero y.hi) then .error .ub
    else do
      let v1 ← div x.lo y.lo
      let v2 ← div x.lo y.hi
      let v3 ← div x.hi y.lo
      let v4 ← div x.hi y.hi
      hull4 v1 v2 v3 v4

/-- `int(x)` converted to the value type (interval.hpp:281, 287; sign.hpp:51, 57). -/
def signVal (s : Sign) : Outcome T :=
  match s with
  | .pos => .ok one
  | .zero => .ok zero
  | .neg => neg one
/-- `operator *(sign, interval)` (interval.hpp:277–282). -/
def signMulI (dbg : Bool) (s : Sign) (y : Ivl T) : Outcome (Ivl T) := do mulI dbg (.scalar (← signVal s)) (.ivl y)
/-- `operator *(interval, sign)` (interval.hpp:283–288). -/
def mulSignI (dbg : Bool) (x : Ivl T) (s : Sign) : Outcome (Ivl T) := do mulI dbg (.ivl x) (.scalar (← signVal s))
/-- `operator *(set<sign>, interval)` (interval.hpp:289–307). -/
def signSetMulI [CppLimits T] (dbg : Bool) (s : SignSet) (y : Ivl T) : Outcome (Ivl T) := do
  let result := Ivl.unassigned
  let result ← if ← CSet.containsVal s .pos then Ivl.assign result y else pure result
  let result ← if ← CSet.containsVal s .neg then Ivl.assign result (← negI dbg y) else pure result
  let result ← if ← CSet.containsVal s .zero then pure (Ivl.assignVal result zero) else pure result
  return result
/-- `operator *(interval, set<sign>)` (interval.hpp:308–313). -/
def mulSignSetI [CppLimits T] (dbg : Bool) (x : Ivl T) (s : SignSet) : Outcome (Ivl T) := signSetMulI dbg s x
/-- `operator *(T, set<sign>)` (interval.hpp:1436–1454). -/
def valMulSignSet [CppLimits T] (v : T) (s : SignSet) : Outcome (Ivl T) := do
  let result := Ivl.unassigned
  let result ← if ← CSet.containsVal s .pos then pure (Ivl.assignVal result v) else pure result
  let result ← if ← CSet.containsVal s .zero then pure (Ivl.assignVal result zero) else pure result
  let result ← if ← CSet.containsVal s .neg then do pure (Ivl.assignVal result (← neg v)) else pure result
  return result
/-- `operator *(set<sign>, T)` (interval.hpp:1455–1460). -/
def signSetMulVal [CppLimits T] (s : SignSet) (v : T) : Outcome (Ivl T) := valMulSignSet v s
/-- `operator *(T, sign)` (sign.hpp:47–52). -/
def valMulSign (v : T) (s : Sign) : Outcome T := do mul v (← signVal s)
/-- `operator *(sign, T)` (sign.hpp:53–58). -/
def signMulVal (s : Sign) (v : T) : Outcome T := do mul (← signVal s) v

/-- `square(T)` (math.hpp:65–70). -/
def squareV (x : T) : Outcome T := mul x x
/-- `cube(T)` (math.hpp:71–76): `x*x*x` associates to the left. -/
def cubeV (x : T) : Outcome T := do mul (← mul x x) x

/-- `square(interval)` (interval.hpp:956–970). -/
def squareI (dbg : Bool) (x : Ivl T) : Outcome (Ivl T) := do
  expectsDebug dbg x.assigned
  let lo := x.lo
  let hi := x.hi
  let l ← if le lo zero && ge hi zero then pure zero else do pure (cmin (← mul lo lo) (← mul hi hi))
  let u ← do pure (cmax (← mul lo lo) (← mul hi hi))
  Ivl.make l u
/-- `cube(interval)` (interval.hpp:971–980). -/
def cubeI (dbg : Bool) (x : Ivl T) : Outcome (Ivl T) := do
  expectsDebug dbg x.assigned
  let lo := x.lo
  let hi := x.hi
  let l ← mul (← mul lo lo) lo
  let u ← mul (← mul hi hi) hi
  Ivl.make l u
/-- `abs(interval)` (interval.hpp:982–995). -/
def absI (dbg : Bool) (x : Ivl T) : Outcome (Ivl T) := do
  expectsDebug dbg x.assigned
  let lo := x.lo
  let hi := x.hi
  if le lo zero && ge hi zero then do Ivl.make zero (cmax (← neg lo) hi)
  else if lt lo zero then do Ivl.make (← neg hi) (← neg lo)
  else return x
/-- `sgn(interval)` (interval.hpp:997–1019). -/
def sgnI (dbg : Bool) (x : Ivl T) : Outcome SignSet := do
  expectsDebug dbg x.assigned
  let lo := x.lo
  let hi := x.hi
  let result := CSet.empty Sign.vals
  let result ← if gt hi zero then CSet.assignVal result .pos else pure result
  let result ← if lt lo zero then CSet.assignVal result .neg else pure result
  let result ← if le lo zero && ge hi zero then CSet.assignVal result .zero else pure result
  return result

end Intervals
