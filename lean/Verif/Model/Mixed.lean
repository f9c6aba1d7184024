import Verif.Model.Arith
/-!
# Operators on operands of different value types (include/intervals/interval.hpp:47–106, 109–186, 205–414)

`interval<double>{ 1., 2. } * 2`, `interval<int> + interval<double>`, `interval<float> < interval<double>`, ….  `U` and `V` are the value types
of the operands, `T` is their common type (`common_interval_value_t<X, Y>`), `cu` and `cv` are the usual arithmetic conversions that the
built-in operators apply to operands of type `U` and `V`.  The classification of single operands (`is_negative_inf(lower(x))`,
`contains(y, 0)`, `lower(y) <= 0`) happens in the operand's own type.  `floating_point_operands<X, Y>` is `isFloat T`
(detail/concepts-internal.hpp:42–44).
-/
namespace Intervals
open CppVal CppNum

variable {U V T : Type _} [CppVal U] [CppNum U] [CppVal V] [CppNum V] [CppVal T] [CppNum T]

/-- `operator +` (interval.hpp:205–221). -/
def addM (cu : U → T) (cv : V → T) (dbg : Bool) (x : Arg U) (y : Arg V) : Outcome (Ivl T) := do
  expectsDebug dbg (x.assigned && y.assigned)
  if isFloat T && ((isNegInf x.lo && isPosInf y.hi) || (isNegInf y.lo && isPosInf x.hi)) then
    nanInterval
  else
    Ivl.make (← add (cu x.lo) (cv y.lo)) (← add (cu x.hi) (cv y.hi))

/-- binary `operator -` (interval.hpp:222–238). -/
def subM (cu : U → T) (cv : V → T) (dbg : Bool) (x : Arg U) (y : Arg V) : Outcome (Ivl T) := do
  expectsDebug dbg (x.assigned && y.assigned)
  if isFloat T && ((isNegInf x.lo && isNegInf y.lo) || (isPosInf y.hi && isPosInf x.hi)) then
    nanInterval
  else
    Ivl.make (← sub (cu x.lo) (cv y.hi)) (← sub (cu x.hi) (cv y.lo))

/-- `operator *` (interval.hpp:239–275). -/
def mulM (cu : U → T) (cv : V → T) (dbg : Bool) (x : Arg U) (y : Arg V) : Outcome (Ivl T) := do
  expectsDebug dbg (x.assigned && y.assigned)
  if isFloat T && (((isNegInf x.lo || isPosInf x.hi) && y.contains zero)
      || (x.contains zero && (isNegInf y.lo || isPosInf y.hi))) then
    nanInterval
  else
    match x, y with
    | .scalar s, y => do
      let v1 ← mul (cu s) (cv y.lo)
      let v2 ← mul (cu s) (cv y.hi)
      hull2 v1 v2
    | x, .scalar s => do
      let v1 ← mul (cu x.lo) (cv s)
      let v2 ← mul (cu x.hi) (cv s)
      hull2 v1 v2
    | .ivl x, .ivl y => do
      let v1 ← mul (cu x.lo) (cv y.lo)
      let v2 ← mul (cu x.lo) (cv y.hi)
      let v3 ← mul (cu x.hi) (cv y.lo)
      let v4 ← mul (cu x.hi) (cv y.hi)
      hull4 v1 v2 v3 v4

/-- `operator /` (interval.hpp:315–414). -/
def divM (cu : U → T) (cv : V → T) (dbg : Bool) (x : Arg U) (y : Arg V) : Outcome (Ivl T) := do
  expectsDebug dbg (x.assigned && y.assigned)
  match x, y with
  | .scalar s, y =>
    if isFloat T && ((isNegInf s || isPosInf s) && (isNegInf y.lo || isPosInf y.hi)) then nanInterval
    else if isFloat T && (eq s zero && le y.lo zero && le zero y.hi) then nanInterval
    else if isFloat T && (ne s zero && lt y.lo zero && lt zero y.hi) then infInterval
    else if !isFloat T && (le y.lo zero && le zero y.hi) then .error .ub
    else do
      let v1 ← div (cu s) (cv y.lo)
      let v2 ← div (cu s) (cv y.hi)
      hull2 v1 v2
  | x, .scalar s =>
    if isFloat T && ((isNegInf x.lo || isPosInf x.hi) && (isNegInf s || isPosInf s)) then nanInterval
    else if isFloat T && (le x.lo zero && le zero x.hi && eq s zero) then nanInterval
    else do
      let v1 ← div (cu x.lo) (cv s)
      let v2 ← div (cu x.hi) (cv s)
      hull2 v1 v2
  | .ivl x, .ivl y =>
    if isFloat T && ((isNegInf x.lo || isPosInf x.hi) && (isNegInf y.lo || isPosInf y.hi)) then nanInterval
    else if isFloat T && (le x.lo zero && le zero x.hi && le y.lo zero && le zero y.hi) then nanInterval
    else if isFloat T && ((lt zero x.lo || lt x.hi zero) && lt y.lo zero && lt zero y.hi) then infInterval
    else if !isFloat T && (le y.lo zero && le zero y.hi) then .error .ub
    else do
      let v1 ← div (cu x.lo) (cv y.lo)
      let v2 ← div (cu x.lo) (cv y.hi)
      let v3 ← div (cu x.hi) (cv y.lo)
      let v4 ← div (cu x.hi) (cv y.hi)
      hull4 v1 v2 v3 v4

/-- `compare_eq` (interval.hpp:47–61). -/
def compareEqM (cu : U → T) (cv : V → T) (l : Arg U) (r : Arg V) : BoolSet :=
  let result := BoolSet.empty
  let result := if ge (cv r.hi) (cu l.lo) && le (cv r.lo) (cu l.hi) then BoolSet.assign result true else result
  let result := if ne (cu l.lo) (cv r.hi) || ne (cu l.hi) (cv r.lo) then BoolSet.assign result false else result
  result
/-- `compare_neq` (interval.hpp:62–76). -/
def compareNeqM (cu : U → T) (cv : V → T) (l : Arg U) (r : Arg V) : BoolSet :=
  let result := BoolSet.empty
  let result := if ge (cv r.hi) (cu l.lo) && le (cv r.lo) (cu l.hi) then BoolSet.assign result false else result
  let result := if ne (cu l.lo) (cv r.hi) || ne (cu l.hi) (cv r.lo) then BoolSet.assign result true else result
  result
/-- `compare_lt` (interval.hpp:77–91). -/
def compareLtM (cu : U → T) (cv : V → T) (l : Arg U) (r : Arg V) : BoolSet :=
  let result := BoolSet.empty
  let result := if lt (cu l.lo) (cv r.hi) then BoolSet.assign result true else result
  let result := if ge (cu l.hi) (cv r.lo) then BoolSet.assign result false else result
  result
/-- `compare_leq` (interval.hpp:92–106). -/
def compareLeqM (cu : U → T) (cv : V → T) (l : Arg U) (r : Arg V) : BoolSet :=
  let result := BoolSet.empty
  let result := if le (cu l.lo) (cv r.hi) then BoolSet.assign result true else result
  let result := if gt (cu l.hi) (cv r.lo) then BoolSet.assign result false else result
  result

/-- `operator ==` (interval.hpp:109–121), value of the condition. -/
def opEqM (cu : U → T) (cv : V → T) (dbg : Bool) (l : Arg U) (r : Arg V) : Outcome BoolSet := do
  expectsDebug dbg (l.assigned && r.assigned)
  return compareEqM cu cv l r
/-- `operator !=` (interval.hpp:122–134). -/
def opNeM (cu : U → T) (cv : V → T) (dbg : Bool) (l : Arg U) (r : Arg V) : Outcome BoolSet := do
  expectsDebug dbg (l.assigned && r.assigned)
  return compareNeqM cu cv l r
/-- `operator <` (interval.hpp:135–147). -/
def opLtM (cu : U → T) (cv : V → T) (dbg : Bool) (l : Arg U) (r : Arg V) : Outcome BoolSet := do
  expectsDebug dbg (l.assigned && r.assigned)
  return compareLtM cu cv l r
/-- `operator <=` (interval.hpp:148–160). -/
def opLeM (cu : U → T) (cv : V → T) (dbg : Bool) (l : Arg U) (r : Arg V) : Outcome BoolSet := do
  expectsDebug dbg (l.assigned && r.assigned)
  return compareLeqM cu cv l r
/-- `operator >` (interval.hpp:161–173). -/
def opGtM (cu : U → T) (cv : V → T) (dbg : Bool) (l : Arg U) (r : Arg V) : Outcome BoolSet := do
  expectsDebug dbg (l.assigned && r.assigned)
  return compareLtM cv cu r l
/-- `operator >=` (interval.hpp:174–186). -/
def opGeM (cu : U → T) (cv : V → T) (dbg : Bool) (l : Arg U) (r : Arg V) : Outcome BoolSet := do
  expectsDebug dbg (l.assigned && r.assigned)
  return compareLeqM cv cu r l
end Intervals
