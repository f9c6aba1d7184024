import Verif.Model.IntArith
import Verif.Model.Narrow
import Verif.Model.Mixed
/-!
# Intervals of integer types narrower than `int` (include/intervals/interval.hpp:239–307, 357–377, 1436–1460, sign.hpp:47–58)

`interval<short>`, `interval<signed char>`.  The built-in operators promote their operands to `int` (C++20 [expr.arith.conv]); where the
result initializes a variable `T v1 = …` or is returned as a `T`, it is converted back by reduction modulo `2^(k+1)` (C++20
[conv.integral]).  `k` is the number of value bits of the narrow type, `m` that of `int`.  Only the operators below compile: the others
list-initialize an interval with bounds of type `int`, a narrowing conversion (see `Model/Overload`).
-/
namespace Intervals
open CppVal

/-- Built-in arithmetic of a type with `k` value bits in a variable of that type: computed in `int`, converted back. -/
@[reducible] def promotedNum (m k : Nat) : CppNum (SInt k) where
  isFloat := false
  zero := CppNum.zero
  one := CppNum.one
  nan := CppNum.nan
  inf := CppNum.inf
  ninf := CppNum.ninf
  neg a := do return narrowCastV k (← SInt.of m (-a.val))
  add a b := do return narrowCastV k (← SInt.of m (a.val + b.val))
  sub a b := do return narrowCastV k (← SInt.of m (a.val - b.val))
  mul a b := do return narrowCastV k (← SInt.of m (a.val * b.val))
  div a b := if b.val = 0 then .error .ub else do return narrowCastV k (← SInt.of m (a.val.tdiv b.val))

/-- `operator *` on operands of a narrow type (interval.hpp:239–275): `T v1 = x*lower(y);`. -/
def mulN (m : Nat) {k : Nat} (dbg : Bool) (x y : Arg (SInt k)) : Outcome (Ivl (SInt k)) :=
  letI := promotedNum m k
  mulI dbg x y
/-- `operator /` on an interval and a value of a narrow type (interval.hpp:315–325, 357–377): `T v1 = lower(x)/y;`.  With an interval as
divisor the operator does not compile. -/
def divN (m : Nat) {k : Nat} (dbg : Bool) (x : Ivl (SInt k)) (y : SInt k) : Outcome (Ivl (SInt k)) :=
  letI := promotedNum m k
  divI dbg (.ivl x) (.scalar y)
/-- `operator *(sign, interval)` (interval.hpp:277–282): `int(x)*y` is an interval of `int` (the common type of `int` and the narrow type),
which the `return` statement converts implicitly to `interval_t<X>` (interval.hpp:810–818). -/
def signMulN (m : Nat) {k : Nat} (h : k ≤ m) (dbg : Bool) (s : Sign) (y : Ivl (SInt k)) : Outcome (Ivl (SInt k)) := do
  let r ← mulM (T := SInt m) id (widenV h) dbg (.scalar (← signVal s)) (.ivl y)
  return convertI (narrowCastV k) r
/-- `operator *(interval, sign)` (interval.hpp:283–288). -/
def mulSignN (m : Nat) {k : Nat} (h : k ≤ m) (dbg : Bool) (x : Ivl (SInt k)) (s : Sign) : Outcome (Ivl (SInt k)) := do
  let r ← mulM (T := SInt m) (widenV h) id dbg (.ivl x) (.scalar (← signVal s))
  return convertI (narrowCastV k) r
/-- `operator *(T, set<sign>)` (interval.hpp:1436–1454): the argument of `result.assign(-lhs)` is converted to `T`. -/
def valMulSignSetN (m : Nat) {k : Nat} (v : SInt k) (s : SignSet) : Outcome (Ivl (SInt k)) :=
  letI := promotedNum m k
  valMulSignSet v s
/-- `operator *(set<sign>, T)` (interval.hpp:1455–1460). -/
def signSetMulValN (m : Nat) {k : Nat} (s : SignSet) (v : SInt k) : Outcome (Ivl (SInt k)) := valMulSignSetN m v s
/-- `operator *(T, sign)` (sign.hpp:47–52): `lhs*int(rhs)`, computed in `int`, returned as `T`. -/
def valMulSignN (m : Nat) {k : Nat} (h : k ≤ m) (v : SInt k) (s : Sign) : Outcome (SInt k) := do
  return narrowCastV k (← CppNum.mul (widenV h v) (← signVal s : SInt m))
/-- `operator *(sign, T)` (sign.hpp:53–58). -/
def signMulValN (m : Nat) {k : Nat} (h : k ≤ m) (s : Sign) (v : SInt k) : Outcome (SInt k) := do
  return narrowCastV k (← CppNum.mul (← signVal s : SInt m) (widenV h v))

end Intervals
