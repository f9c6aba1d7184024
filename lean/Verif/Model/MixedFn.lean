import Verif.Model.Elem
import Verif.Model.Narrow
import Verif.Model.Mixed
/-!
# Functions of operands of different value types (include/intervals/interval.hpp:1057–1090, 1258–1337)

`pow`, `fractional_weights`, `blend_fractions` and `blend_linear` require only that the *common* type of their operands is a floating-point type
(`floating_point_operands`, detail/concepts-internal.hpp:42–44): `blend_linear(1, 2, x, y)` with `int` weights and `interval<double>` values
compiles.  The bodies declare their intermediate values `auto` and combine them with built-in operators, so the type of every subexpression
depends on the operands.  `DVal` and `DArg` are values and operands that carry their C++ type: a signed integer type with `n` value bits (at
least `int`), or the floating-point type; `+ - * /` and comparisons apply the usual arithmetic conversions [expr.arith.conv].

Not modelled: several integer types or several floating-point types in one call; unsigned operands.  (`min`, `max` require equal value types,
interval.hpp:937–954; `atan2` of mixed types does not compile, since `intervals::atan2(T, T)`, math.hpp:159–166, deduces one type.)
-/
namespace Intervals
open CppVal CppNum

/-- a value with its type -/
inductive DVal (n : Nat) (K : Type) where
  | int (v : SInt n)
  | flt (v : Fl K)
/-- an operand with its value type -/
inductive DArg (n : Nat) (K : Type) where
  | int (a : Arg (SInt n))
  | flt (a : Arg (Fl K))

section
variable {n : Nat} {K : Type} [Field K] [LinearOrder K] [Fmt K]

/-- conversion to the floating-point type -/
def DVal.toF : DVal n K → Fl K
  | .int v => toFloatV v
  | .flt v => v
/-- a built-in operator: on integers if both operands are, on floating-point numbers otherwise -/
def DVal.op2 (i : SInt n → SInt n → Outcome (SInt n)) (f : Fl K → Fl K → Fl K) (a b : DVal n K) : Outcome (DVal n K) :=
  match a, b with
  | .int a, .int b => do return .int (← i a b)
  | a, b => return .flt (f a.toF b.toF)
/-- `a + b` -/
def DVal.add (a b : DVal n K) : Outcome (DVal n K) := DVal.op2 CppNum.add Fl.add a b
/-- `a - b` -/
def DVal.sub (a b : DVal n K) : Outcome (DVal n K) := DVal.op2 CppNum.sub Fl.sub a b
/-- `a * b` -/
def DVal.mul (a b : DVal n K) : Outcome (DVal n K) := DVal.op2 CppNum.mul Fl.mul a b
/-- `a / b` -/
def DVal.div (a b : DVal n K) : Outcome (DVal n K) := DVal.op2 CppNum.div Fl.div a b
/-- `a >= b` -/
def DVal.ge (a b : DVal n K) : Bool :=
  match a, b with
  | .int a, .int b => CppVal.ge a b
  | a, b => CppVal.ge a.toF b.toF

/-- `detail::lower` (detail/interval.hpp:147–161) -/
def DArg.lo : DArg n K → DVal n K
  | .int a => .int a.lo
  | .flt a => .flt a.lo
/-- `detail::upper` (detail/interval.hpp:162–176) -/
def DArg.hi : DArg n K → DVal n K
  | .int a => .int a.hi
  | .flt a => .flt a.hi
/-- `detail::assigned` (detail/interval.hpp:194–208) -/
def DArg.assigned : DArg n K → Bool
  | .int a => a.assigned
  | .flt a => a.assigned
/-- the literal `1` -/
def DVal.one : DVal n K := .int CppNum.one

/-- `a >= z` for an operand and a literal of the operand's type -/
def geLit {U : Type} [CppVal U] (dbg : Bool) (a : Arg U) (z : U) : Outcome BoolSet := match a with
  | .scalar s => return BoolSet.single (ge s z)
  | .ivl x => opGe dbg (.ivl x) (.scalar z)
/-- `a <= z` for an operand and a literal of the operand's type -/
def leLit {U : Type} [CppVal U] (dbg : Bool) (a : Arg U) (z : U) : Outcome BoolSet := match a with
  | .scalar s => return BoolSet.single (le s z)
  | .ivl x => opLe dbg (.ivl x) (.scalar z)
/-- `a + b > 0` for operands of one type (both may be scalars in `blend_linear`) -/
def sumPos {U : Type} [CppVal U] [CppNum U] (dbg : Bool) (a b : Arg U) : Outcome BoolSet := match a, b with
  | .scalar a, .scalar b => do return BoolSet.single (gt (← add a b) zero)
  | a, b => do opGt dbg (.ivl (← addI dbg a b)) (.scalar zero)
/-- `a + b > 0` for operands of two types (interval.hpp:205–221, 161–173) -/
def sumPosM {U V T : Type} [CppVal U] [CppNum U] [CppVal V] [CppNum V] [CppVal T] [CppNum T] (cu : U → T) (cv : V → T) (dbg : Bool)
    (a : Arg U) (b : Arg V) : Outcome BoolSet := match a, b with
  | .scalar a, .scalar b => do return BoolSet.single (gt (← add (cu a) (cv b)) zero)
  | a, b => do opGt dbg (.ivl (← addM cu cv dbg a b)) (.scalar zero)

/-- `a >= 0` -/
def DArg.geZero (dbg : Bool) : DArg n K → Outcome BoolSet
  | .int a => geLit dbg a zero
  | .flt a => geLit dbg a (.num 0)
/-- `a <= 1` -/
def DArg.leOne (dbg : Bool) : DArg n K → Outcome BoolSet
  | .int a => leLit dbg a one
  | .flt a => leLit dbg a (.num 1)
/-- `a + b > 0` -/
def DArg.sumPos (dbg : Bool) : DArg n K → DArg n K → Outcome BoolSet
  | .int a, .int b => Intervals.sumPos dbg a b
  | .flt a, .flt b => Intervals.sumPos dbg a b
  | .int a, .flt b => sumPosM toFloatV (fun v => v) dbg a b
  | .flt a, .int b => sumPosM (fun v => v) toFloatV dbg a b

/-- `interval{ lo, hi }` with deduced value type -/
def DArg.make (lo hi : DVal n K) : Outcome (DArg n K) :=
  match lo, hi with
  | .int a, .int b => do return .int (.ivl (← Ivl.make a b))
  | a, b => do return .flt (.ivl (← Ivl.make a.toF b.toF))

/-- `fractional_weights(A, B)` (interval.hpp:1258–1276). -/
def fractionalWeightsD (dbg : Bool) (a b : DArg n K) : Outcome (Ivl (Fl K) × Ivl (Fl K)) := do
  expectsDebug dbg (a.assigned && b.assigned)
  if dbg then
    expects (BoolSet.always (← a.geZero dbg))
    expects (BoolSet.always (← b.geZero dbg))
    expects (BoolSet.always (← DArg.sumPos dbg a b))
  let alo := a.lo
  let ahi := a.hi
  let blo := b.lo
  let bhi := b.hi
  let wa ← Ivl.make (← DVal.div alo (← DVal.add alo bhi)).toF (← DVal.div ahi (← DVal.add ahi blo)).toF
  let wb ← Ivl.make (← DVal.div blo (← DVal.add ahi blo)).toF (← DVal.div bhi (← DVal.add alo bhi)).toF
  return (wa, wb)

/-- `blend_fractions(F, X, Y)` (interval.hpp:1278–1301). -/
def blendFractionsD (dbg : Bool) (f x y : DArg n K) : Outcome (Ivl (Fl K)) := do
  expectsDebug dbg (f.assigned && x.assigned && y.assigned)
  if dbg then
    expects (BoolSet.always (BoolSet.and (← f.geZero dbg) (← f.leOne dbg)))
  let xlo := x.lo
  let xhi := x.hi
  let ylo := y.lo
  let yhi := y.hi
  let flo := f.lo
  let fhi := f.hi
  let qlo := if DVal.ge xlo ylo then flo else fhi
  let qhi := if DVal.ge xhi yhi then fhi else flo
  let rlo ← DVal.add (← DVal.mul qlo xlo) (← DVal.mul (← DVal.sub DVal.one qlo) ylo)
  let rhi ← DVal.add (← DVal.mul qhi xhi) (← DVal.mul (← DVal.sub DVal.one qhi) yhi)
  Ivl.fromUnorderedBounds rlo.toF rhi.toF

/-- `blend_linear(A, B, X, Y)` (interval.hpp:1303–1337). -/
def blendLinearD (dbg : Bool) (a b x y : DArg n K) : Outcome (Ivl (Fl K)) := do
  expectsDebug dbg (a.assigned && b.assigned && x.assigned && y.assigned)
  if dbg then
    expects (BoolSet.always (← a.geZero dbg))
    expects (BoolSet.always (← b.geZero dbg))
    expects (BoolSet.always (← DArg.sumPos dbg a b))
  let alo := a.lo
  let ahi := a.hi
  let blo := b.lo
  let bhi := b.hi
  let qlo ← DVal.div DVal.one (← DVal.add DVal.one (← DVal.div bhi alo))
  let qhi ← DVal.div DVal.one (← DVal.add DVal.one (← DVal.div blo ahi))
  blendFractionsD dbg (← DArg.make qlo qhi) x y

/-! ## `pow` with an exponent of integer type -/
/-- `_multiply_0(x, y)` (interval.hpp:487–497) with an integer `x`: the product is computed in the floating-point type; `std::isinf(x)` is false. -/
def multiply0N (x : SInt n) (y : Fl K) : Fl K :=
  let result := Fl.mul (toFloatV x) y
  if Fl.isNan result && (Fl.isInf y && eq x zero) then .num 0 else result
/-- the overloads of `_multiply_0` (interval.hpp:487–526) with an integer first operand -/
def multiply0NA (x : Arg (SInt n)) (y : Arg (Fl K)) : Outcome (Arg (Fl K)) :=
  match x, y with
  | .scalar x, .scalar y => return .scalar (multiply0N x y)
  | .scalar x, .ivl y => do return .ivl (← hull2 (multiply0N x y.lo) (multiply0N x y.hi))
  | .ivl x, .scalar y => do return .ivl (← hull2 (multiply0N x.lo y) (multiply0N x.hi y))
  | .ivl x, .ivl y => do
    return .ivl (← hull4 (multiply0N x.lo y.lo) (multiply0N x.lo y.hi) (multiply0N x.hi y.lo) (multiply0N x.hi y.hi))

/-- `pow(X, Y)` (interval.hpp:1057–1090) with an exponent of a signed integer type of at most 64 bits: the conversions to `long long` and back
do not change the value.  (The base cannot be of an integer type: there is no `intervals::log` for it.) -/
def powN [Libm K] [FloorRing K] (dbg : Bool) (x : Arg (Fl K)) (y : Arg (SInt n)) : Outcome (Ivl (Fl K)) := do
  expectsDebug dbg (x.assigned && y.assigned)
  let result := Ivl.unassigned
  let result ← if BoolSet.possibly (← geA dbg x zeroA) then
      assignA result (← expA dbg (← multiply0NA y (← logA dbg (← max0A dbg x))))
    else pure result
  if BoolSet.possibly (← ltA dbg x zeroA) then
    let ylo := y.lo
    let yhi := y.hi
    let yi := ylo.val
    if eq ylo yhi then
      let sign : Fl K := if yi % 2 = 0 then .num 1 else .num (-1)
      assignA result (← signMulA dbg sign (← expA dbg (← multiply0NA (.scalar ylo) (← logA dbg (← max0A dbg (← negA dbg x))))))
    else
      nanInterval
  else return result
end
end Intervals
