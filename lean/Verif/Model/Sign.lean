import Verif.Model.CSet
import Verif.Model.Val
/-!
# `sign` and `set<sign>` (include/intervals/sign.hpp, detail/sign.hpp, set.hpp:464–520)
-/
namespace Intervals

/-- `enum sign : int` (sign.hpp:20–25). -/
inductive Sign where
  | neg
  | zero
  | pos
  deriving DecidableEq, Repr

namespace Sign
/-- `int(x)` of a `sign` (sign.hpp:20–25). -/
def toInt : Sign → Int
  | neg => -1
  | zero => 0
  | pos => 1
/-- `sign(i)` for an int (sign.hpp:41, 46, 64); it is only applied to −1, 0, 1, other arguments (which the code never produces) are
mapped to `zero`. -/
def ofInt (i : Int) : Sign := if i = -1 then neg else if i = 1 then pos else zero
/-- `reflect(sign)` (sign.hpp:26–30): the order of `set<sign>::values`. -/
def vals : List Sign := [neg, zero, pos]
/-- unary `operator +(sign)` (sign.hpp:32–36). -/
def plus (x : Sign) : Sign := x
/-- unary `operator -(sign)` (sign.hpp:37–41). -/
def minus (x : Sign) : Sign := ofInt (-(toInt x))
/-- `operator *(sign, sign)` (sign.hpp:42–46). -/
def mul (a b : Sign) : Sign := ofInt (toInt a * toInt b)
end Sign

/-- `sgn(T x)` (sign.hpp:60–65) with `_sgn` (detail/sign.hpp:18–40): `x <=> 0` mapped to 1, −1, 0.  For floats the comparison is
`unordered` when `x` is NaN, which violates a debug contract and otherwise yields 0.  `z` is `T{ }`. -/
def sgnScalar {T : Type _} [CppVal T] (dbg : Bool) (z x : T) : Outcome Sign := do
  let unordered := !CppVal.lt x z && !CppVal.lt z x && !CppVal.eq x z
  expectsDebug dbg (!unordered)
  if CppVal.lt z x then return Sign.ofInt 1
  if CppVal.lt x z then return Sign.ofInt (-1)
  return Sign.ofInt 0

/-- `set<sign>`. -/
abbrev SignSet := CSet Sign.vals

namespace SignSet
/-- unary `operator +(set<sign>)` (set.hpp:464–468). -/
def plus (x : SignSet) : SignSet := x
/-- unary `operator -(set<sign>)` (set.hpp:469–486). -/
def minus (x : SignSet) : Outcome SignSet := do
  let result := CSet.empty Sign.vals
  let result ← if ← CSet.containsVal x .pos then CSet.assignVal result .neg else pure result
  let result ← if ← CSet.containsVal x .neg then CSet.assignVal result .pos else pure result
  let result ← if ← CSet.containsVal x .zero then CSet.assignVal result .zero else pure result
  return result
/-- `operator *(set<sign>, set<sign>)` (set.hpp:487–510). -/
def mul (l r : SignSet) : Outcome SignSet := do
  let lp ← CSet.containsVal l .pos
  let lz ← CSet.containsVal l .zero
  let ln ← CSet.containsVal l .neg
  let rp ← CSet.containsVal r .pos
  let rz ← CSet.containsVal r .zero
  let rn ← CSet.containsVal r .neg
  let result := CSet.empty Sign.vals
  let result ← if (lp && rn) || (ln && rp) then CSet.assignVal result .neg else pure result
  let result ← if (lp && rp) || (ln && rn) then CSet.assignVal result .pos else pure result
  let result ← if lz || rz then CSet.assignVal result .zero else pure result
  return result
/-- `operator *(set<sign>, sign)` (set.hpp:511–515). -/
def mulSV (l : SignSet) (r : Sign) : Outcome SignSet := do mul l (← CSet.ofVal Sign.vals r)
/-- `operator *(sign, set<sign>)` (set.hpp:516–520). -/
def mulVS (l : Sign) (r : SignSet) : Outcome SignSet := do mul r (← CSet.ofVal Sign.vals l)
end SignSet

end Intervals
