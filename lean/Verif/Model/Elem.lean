import Verif.Model.FltArith
import Mathlib.Algebra.Order.Floor.Ring
/-!
# Elementary functions of floating-point intervals (math.hpp:19–33, 84–191; interval.hpp:486–526, 1021–1337)

The functions of `<cmath>` are a parameter (`Libm`); the functions that IEEE 754 defines exactly (`floor`, `ceil`, `round`, `fmod`) are
modelled.  Integer literals `0`, `1`, `-1`, `2` in the C++ code convert to floating-point numbers exactly.
-/
namespace Intervals
open CppVal

/-- The functions of `<cmath>` and the constant used by interval.hpp: `std::sqrt`, …, `std::numbers::pi_v<T>`.  Assumption: they are functions
of their arguments (no dependence on the rounding mode or other state). -/
class Libm (K : Type) where
  sqrt : Fl K → Fl K
  cbrt : Fl K → Fl K
  log : Fl K → Fl K
  exp : Fl K → Fl K
  cos : Fl K → Fl K
  tan : Fl K → Fl K
  asin : Fl K → Fl K
  acos : Fl K → Fl K
  atan : Fl K → Fl K
  atan2 : Fl K → Fl K → Fl K
  pi : Fl K

namespace Fl
variable {K : Type} [Field K] [LinearOrder K] [FloorRing K]

/-- an integral result, with the sign bit `s` if it is zero -/
def ofInt (n : ℤ) (s : Bool) : Fl K := if n = 0 then zeroS s else num n
/-- `std::floor` (math.hpp:168–173): exact; keeps the sign of zero. -/
def floor : Fl K → Fl K
  | num k => ofInt ⌊k⌋ false
  | a => a
/-- `std::ceil` (math.hpp:174–179): exact; a negative argument above `-1` gives `-0`. -/
def ceil : Fl K → Fl K
  | num k => ofInt ⌈k⌉ (decide (k < 0))
  | a => a
/-- nearest integer, halfway cases away from zero -/
def roundInt (k : K) : ℤ := if k < 0 then -⌊-k + 1/2⌋ else ⌊k + 1/2⌋
/-- `std::round` (math.hpp:180–185): exact; halfway cases away from zero; keeps the sign. -/
def round : Fl K → Fl K
  | num k => ofInt (roundInt k) (decide (k < 0))
  | a => a
/-- integer part -/
def truncInt (k : K) : ℤ := if k < 0 then -⌊-k⌋ else ⌊k⌋
/-- `std::fmod` (exact in IEEE 754; used in math.hpp:32): `a - b*trunc(a/b)` with the sign of `a`. -/
def fmod (a b : Fl K) : Fl K :=
  if isNan a || isNan b || isInf a || isZero b then nan
  else if isInf b then a
  else if isZero a then a
  else
    let r := val a - val b * truncInt (val a / val b)
    if r = 0 then zeroS (signBit a) else num r

variable [Fmt K]
/-- scalar `frac` (math.hpp:186–191). -/
def frac (a : Fl K) : Fl K := sub a (floor a)

/-- `wraparound` (math.hpp:25–33). -/
def wraparound (x min max : Fl K) : Outcome (Fl K) := do
  expects (lt min max)
  let range := sub max min
  return add min (fmod (add range (fmod (sub x min) range)) range)

end Fl

section
variable {K : Type} [Field K] [LinearOrder K] [Fmt K]

/-! ## Scalar functions with preconditions -/
section scalar
variable [Libm K]
/-- scalar `sqrt` (math.hpp:84–91). -/
def sqrtS (dbg : Bool) (x : Fl K) : Outcome (Fl K) := do
  expectsDebug dbg (ge x (.num 0))
  return Libm.sqrt x
/-- scalar `log` (math.hpp:98–105). -/
def logS (dbg : Bool) (x : Fl K) : Outcome (Fl K) := do
  expectsDebug dbg (ge x (.num 0))
  return Libm.log x
/-- scalar `asin` (math.hpp:137–144). -/
def asinS (dbg : Bool) (x : Fl K) : Outcome (Fl K) := do
  expectsDebug dbg (ge x (.num (-1)) && le x (.num 1))
  return Libm.asin x
/-- scalar `acos` (math.hpp:145–152). -/
def acosS (dbg : Bool) (x : Fl K) : Outcome (Fl K) := do
  expectsDebug dbg (ge x (.num (-1)) && le x (.num 1))
  return Libm.acos x
/-- scalar `atan2` (math.hpp:159–166). -/
def atan2S (dbg : Bool) (y x : Fl K) : Outcome (Fl K) := do
  expectsDebug dbg (ne y (.num 0) || gt x (.num 0))
  return Libm.atan2 y x

/-! ## Interval functions -/
/-- `sqrt(X)` (interval.hpp:1021–1030). -/
def sqrtI (dbg : Bool) (x : Ivl (Fl K)) : Outcome (Ivl (Fl K)) := do
  expectsDebug dbg x.assigned
  Ivl.fromUnorderedBounds (← sqrtS dbg x.lo) (← sqrtS dbg x.hi)
/-- `cbrt(X)` (interval.hpp:1031–1040). -/
def cbrtI (dbg : Bool) (x : Ivl (Fl K)) : Outcome (Ivl (Fl K)) := do
  expectsDebug dbg x.assigned
  Ivl.fromUnorderedBounds (Libm.cbrt x.lo) (Libm.cbrt x.hi)
/-- `log(X)` (interval.hpp:1041–1048). -/
def logI (dbg : Bool) (x : Ivl (Fl K)) : Outcome (Ivl (Fl K)) := do
  expectsDebug dbg x.assigned
  Ivl.make (← logS dbg x.lo) (← logS dbg x.hi)
/-- `exp(X)` (interval.hpp:1049–1056). -/
def expI (dbg : Bool) (x : Ivl (Fl K)) : Outcome (Ivl (Fl K)) := do
  expectsDebug dbg x.assigned
  Ivl.make (Libm.exp x.lo) (Libm.exp x.hi)
/-- `acos(X)` (interval.hpp:1155–1164). -/
def acosI (dbg : Bool) (x : Ivl (Fl K)) : Outcome (Ivl (Fl K)) := do
  expectsDebug dbg x.assigned
  Ivl.fromUnorderedBounds (← acosS dbg x.hi) (← acosS dbg x.lo)
/-- `asin(X)` (interval.hpp:1165–1174). -/
def asinI (dbg : Bool) (x : Ivl (Fl K)) : Outcome (Ivl (Fl K)) := do
  expectsDebug dbg x.assigned
  Ivl.fromUnorderedBounds (← asinS dbg x.lo) (← asinS dbg x.hi)
/-- `atan(X)` (interval.hpp:1175–1184). -/
def atanI (dbg : Bool) (x : Ivl (Fl K)) : Outcome (Ivl (Fl K)) := do
  expectsDebug dbg x.assigned
  Ivl.fromUnorderedBounds (Libm.atan x.lo) (Libm.atan x.hi)

/-- `atan2(Y, X)` (interval.hpp:1185–1216). -/
def atan2I (dbg : Bool) (y x : Arg (Fl K)) : Outcome (Ivl (Fl K)) := do
  expectsDebug dbg (y.assigned && x.assigned)
  if le x.lo (.num 0) && y.contains (.num 0) then
    nanInterval
  else
    match y, x with
    | .scalar s, x => do
      let v1 ← atan2S dbg s x.lo
      let v2 ← atan2S dbg s x.hi
      hull2 v1 v2
    | y, .scalar s => do
      let v1 ← atan2S dbg y.lo s
      let v2 ← atan2S dbg y.hi s
      hull2 v1 v2
    | .ivl y, .ivl x => do
      let v1 ← atan2S dbg y.lo x.lo
      let v2 ← atan2S dbg y.lo x.hi
      let v3 ← atan2S dbg y.hi x.lo
      let v4 ← atan2S dbg y.hi x.hi
      hull4 v1 v2 v3 v4
end scalar

section floor
variable [FloorRing K]
/-- `floor(X)` (interval.hpp:1218–1225). -/
def floorI (dbg : Bool) (x : Ivl (Fl K)) : Outcome (Ivl (Fl K)) := do
  expectsDebug dbg x.assigned
  Ivl.make (Fl.floor x.lo) (Fl.floor x.hi)
/-- `ceil(X)` (interval.hpp:1226–1233). -/
def ceilI (dbg : Bool) (x : Ivl (Fl K)) : Outcome (Ivl (Fl K)) := do
  expectsDebug dbg x.assigned
  Ivl.make (Fl.ceil x.lo) (Fl.ceil x.hi)
/-- `round(X)` (interval.hpp:1234–1241). -/
def roundI (dbg : Bool) (x : Ivl (Fl K)) : Outcome (Ivl (Fl K)) := do
  expectsDebug dbg x.assigned
  Ivl.make (Fl.round x.lo) (Fl.round x.hi)
/-- `frac(X)` (interval.hpp:1242–1256). -/
def fracI (dbg : Bool) (x : Ivl (Fl K)) : Outcome (Ivl (Fl K)) := do
  expectsDebug dbg x.assigned
  let lfloor := Fl.floor x.lo
  let ufloor := Fl.floor x.hi
  if ne lfloor ufloor then
    Ivl.make (.num 0) (.num 1)
  else
    Ivl.make (Fl.sub x.lo lfloor) (Fl.sub x.hi ufloor)
end floor

section trig
variable [FloorRing K] [Libm K]
/-- `cos(X)` (interval.hpp:1092–1129). -/
def cosI (dbg : Bool) (x : Ivl (Fl K)) : Outcome (Ivl (Fl K)) := do
  expectsDebug dbg x.assigned
  let pi : Fl K := Libm.pi
  let lo ← Fl.wraparound x.lo (Fl.neg pi) pi
  let delta := Fl.sub lo x.lo
  let hi := Fl.add x.hi delta
  if le lo (.num 0) then
    if le hi (.num 0) then
      Ivl.fromUnorderedBounds (Libm.cos lo) (Libm.cos hi)
    else if le hi pi then
      Ivl.make (cmin (Libm.cos lo) (Libm.cos hi)) (.num 1)
    else
      Ivl.make (.num (-1)) (.num 1)
  else
    if le hi pi then
      Ivl.fromUnorderedBounds (Libm.cos hi) (Libm.cos lo)
    else if le hi (Fl.mul (.num 2) pi) then
      Ivl.make (.num (-1)) (cmax (Libm.cos lo) (Libm.cos hi))
    else
      Ivl.make (.num (-1)) (.num 1)
/-- `sin(X)` (interval.hpp:1130–1136). -/
def sinI (dbg : Bool) (x : Ivl (Fl K)) : Outcome (Ivl (Fl K)) := do
  cosI dbg (← subI dbg (.ivl x) (.scalar (Fl.div Libm.pi (.num 2))))
/-- `tan(X)` (interval.hpp:1137–1154).  (`-pi/2` is `(-pi)/2`.) -/
def tanI (dbg : Bool) (x : Ivl (Fl K)) : Outcome (Ivl (Fl K)) := do
  expectsDebug dbg x.assigned
  let pi : Fl K := Libm.pi
  let lo ← Fl.wraparound x.lo (Fl.div (Fl.neg pi) (.num 2)) (Fl.div pi (.num 2))
  let delta := Fl.sub lo x.lo
  let hi := Fl.add x.hi delta
  if ge (Fl.sub hi lo) pi then
    infInterval
  else
    Ivl.fromUnorderedBounds (Libm.tan lo) (Libm.tan hi)
end trig

/-! ## Weights and blending -/
/-- scalar `fractional_weights` (math.hpp:225–234). -/
def fractionalWeightsS (dbg : Bool) (a b : Fl K) : Outcome (Fl K × Fl K) := do
  expectsDebug dbg (ge a (.num 0))
  expectsDebug dbg (ge b (.num 0))
  expectsDebug dbg (gt (Fl.add a b) (.num 0))
  return (Fl.div a (Fl.add a b), Fl.div b (Fl.add a b))
/-- scalar `blend_fractions` (math.hpp:236–243). -/
def blendFractionsS (dbg : Bool) (f x y : Fl K) : Outcome (Fl K) := do
  expectsDebug dbg (ge f (.num 0) && le f (.num 1))
  return Fl.add (Fl.mul f x) (Fl.mul (Fl.sub (.num 1) f) y)
/-- scalar `blend_linear` (math.hpp:244–250). -/
def blendLinearS (dbg : Bool) (a b x y : Fl K) : Outcome (Fl K) := do
  let (wa, wb) ← fractionalWeightsS dbg a b
  return Fl.add (Fl.mul wa x) (Fl.mul wb y)

/-- `a >= b` where `a` may be a scalar (built-in comparison with a scalar `b`) or an interval (interval.hpp:174–186).  A `bool` is
represented by its singleton: `always(bool)`, `possibly(bool)` (logic.hpp:16–30) and `&` agree with `set<bool>` on singletons. -/
def geA (dbg : Bool) (a b : Arg (Fl K)) : Outcome BoolSet := match a, b with
  | .scalar a, .scalar b => return BoolSet.single (ge a b)
  | a, b => opGe dbg a b
/-- `a <= b`, as `geA` -/
def leA (dbg : Bool) (a b : Arg (Fl K)) : Outcome BoolSet := match a, b with
  | .scalar a, .scalar b => return BoolSet.single (le a b)
  | a, b => opLe dbg a b
/-- `a < b`, as `geA` -/
def ltA (dbg : Bool) (a b : Arg (Fl K)) : Outcome BoolSet := match a, b with
  | .scalar a, .scalar b => return BoolSet.single (lt a b)
  | a, b => opLt dbg a b
/-- the literal `0` as an operand -/
def zeroA : Arg (Fl K) := .scalar (.num 0)

/-- `fractional_weights(A, B)` (interval.hpp:1258–1276).  The arguments of the debug checks are evaluated in debug builds only. -/
def fractionalWeightsI (dbg : Bool) (a b : Arg (Fl K)) : Outcome (Ivl (Fl K) × Ivl (Fl K)) := do
  expectsDebug dbg (a.assigned && b.assigned)
  if dbg then
    expects (BoolSet.always (← geA dbg a zeroA))
    expects (BoolSet.always (← geA dbg b zeroA))
    expects (BoolSet.always (← opGt dbg (.ivl (← addI dbg a b)) zeroA))
  let alo := a.lo
  let ahi := a.hi
  let blo := b.lo
  let bhi := b.hi
  let wa ← Ivl.make (Fl.div alo (Fl.add alo bhi)) (Fl.div ahi (Fl.add ahi blo))
  let wb ← Ivl.make (Fl.div blo (Fl.add ahi blo)) (Fl.div bhi (Fl.add alo bhi))
  return (wa, wb)

/-- `blend_fractions(F, X, Y)` (interval.hpp:1278–1301). -/
def blendFractionsI (dbg : Bool) (f x y : Arg (Fl K)) : Outcome (Ivl (Fl K)) := do
  expectsDebug dbg (f.assigned && x.assigned && y.assigned)
  if dbg then
    expects (BoolSet.always (BoolSet.and (← geA dbg f zeroA) (← leA dbg f (.scalar (.num 1)))))
  let xlo := x.lo
  let xhi := x.hi
  let ylo := y.lo
  let yhi := y.hi
  let flo := f.lo
  let fhi := f.hi
  let qlo := if ge xlo ylo then flo else fhi
  let qhi := if ge xhi yhi then fhi else flo
  let rlo := Fl.add (Fl.mul qlo xlo) (Fl.mul (Fl.sub (.num 1) qlo) ylo)
  let rhi := Fl.add (Fl.mul qhi xhi) (Fl.mul (Fl.sub (.num 1) qhi) yhi)
  Ivl.fromUnorderedBounds rlo rhi

/-- `blend_linear(A, B, X, Y)` (interval.hpp:1303–1337). -/
def blendLinearI (dbg : Bool) (a b x y : Arg (Fl K)) : Outcome (Ivl (Fl K)) := do
  expectsDebug dbg (a.assigned && b.assigned && x.assigned && y.assigned)
  if dbg then
    expects (BoolSet.always (← geA dbg a zeroA))
    expects (BoolSet.always (← geA dbg b zeroA))
    expects (BoolSet.always (← opGt dbg (.ivl (← addI dbg a b)) zeroA))
  let alo := a.lo
  let ahi := a.hi
  let blo := b.lo
  let bhi := b.hi
  let qlo := Fl.div (.num 1) (Fl.add (.num 1) (Fl.div bhi alo))
  let qhi := Fl.div (.num 1) (Fl.add (.num 1) (Fl.div blo ahi))
  blendFractionsI dbg (.ivl (← Ivl.make qlo qhi)) x y

/-! ## `pow` -/
/-- `_multiply_0` on scalars (interval.hpp:487–497). -/
def multiply0 (x y : Fl K) : Fl K :=
  let result := Fl.mul x y
  if Fl.isNan result && ((Fl.isInf x && eq y (.num 0)) || (Fl.isInf y && eq x (.num 0))) then .num 0 else result
/-- the overloads of `_multiply_0` (interval.hpp:487–526) -/
def multiply0A (x y : Arg (Fl K)) : Outcome (Arg (Fl K)) :=
  match x, y with
  | .scalar x, .scalar y => return .scalar (multiply0 x y)
  | .scalar x, .ivl y => do return .ivl (← hull2 (multiply0 x y.lo) (multiply0 x y.hi))
  | .ivl x, .scalar y => do return .ivl (← hull2 (multiply0 x.lo y) (multiply0 x.hi y))
  | .ivl x, .ivl y => do
    return .ivl (← hull4 (multiply0 x.lo y.lo) (multiply0 x.lo y.hi) (multiply0 x.hi y.lo) (multiply0 x.hi y.hi))

section pow
variable [Libm K] [FloorRing K]
/-- `log` of a scalar or an interval (math.hpp:98–105, interval.hpp:1041–1048). -/
def logA (dbg : Bool) : Arg (Fl K) → Outcome (Arg (Fl K))
  | .scalar x => do return .scalar (← logS dbg x)
  | .ivl x => do return .ivl (← logI dbg x)
/-- `exp` of a scalar or an interval (math.hpp:106–111, interval.hpp:1049–1056). -/
def expA (dbg : Bool) : Arg (Fl K) → Outcome (Arg (Fl K))
  | .scalar x => return .scalar (Libm.exp x)
  | .ivl x => do return .ivl (← expI dbg x)
/-- `intervals::max(XV(0), x)` of a scalar or an interval (math.hpp:58–63, interval.hpp:946–954). -/
def max0A (dbg : Bool) : Arg (Fl K) → Outcome (Arg (Fl K))
  | .scalar x => return .scalar (cmax (.num 0) x)
  | .ivl x => do return .ivl (← maxI dbg (.scalar (.num 0)) (.ivl x))
/-- `-x` of a scalar or an interval -/
def negA (dbg : Bool) : Arg (Fl K) → Outcome (Arg (Fl K))
  | .scalar x => return .scalar (Fl.neg x)
  | .ivl x => do return .ivl (← negI dbg x)
/-- `sign*x` with `int sign` (interval.hpp:1082) -/
def signMulA (dbg : Bool) (s : Fl K) : Arg (Fl K) → Outcome (Arg (Fl K))
  | .scalar x => return .scalar (Fl.mul s x)
  | .ivl x => do return .ivl (← mulI dbg (.scalar s) (.ivl x))
/-- `result.assign(rhs)` of a scalar or an interval -/
def assignA (r : Ivl (Fl K)) : Arg (Fl K) → Outcome (Ivl (Fl K))
  | .scalar v => return Ivl.assignVal r v
  | .ivl x => Ivl.assign r x

/-- `gsl::narrow_cast<long long>(y)`: truncation towards zero; undefined behaviour if the truncated value is not representable
([conv.fpint]); `long long` has 64 bits. -/
def toLongLong : Fl K → Outcome ℤ
  | .nzero => .ok 0
  | .num k => if -2^63 ≤ Fl.truncInt k ∧ Fl.truncInt k < 2^63 then .ok (Fl.truncInt k) else .error .ub
  | _ => .error .ub
/-- `gsl::narrow_cast<YV>(yi)`: conversion of an integer to floating point, rounded -/
def ofLongLong (n : ℤ) : Fl K := Fmt.rnd (n : K)

/-- `pow(X, Y)` (interval.hpp:1057–1090).  (`geA`, `ltA`: built-in comparison for a scalar `x`.) -/
def powI (dbg : Bool) (x y : Arg (Fl K)) : Outcome (Ivl (Fl K)) := do
  expectsDebug dbg (x.assigned && y.assigned)
  let result := Ivl.unassigned
  let result ← if BoolSet.possibly (← geA dbg x zeroA) then
      assignA result (← expA dbg (← multiply0A y (← logA dbg (← max0A dbg x))))
    else pure result
  if BoolSet.possibly (← ltA dbg x zeroA) then
    let ylo := y.lo
    let yhi := y.hi
    let yi ← toLongLong ylo
    if eq ylo yhi && eq (ofLongLong yi) ylo then
      let sign : Fl K := if yi % 2 = 0 then .num 1 else .num (-1)
      assignA result (← signMulA dbg sign (← expA dbg (← multiply0A (.scalar ylo) (← logA dbg (← max0A dbg (← negA dbg x))))))
    else
      nanInterval
  else return result
end pow
end
end Intervals
