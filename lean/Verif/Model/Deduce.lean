import Verif.Model.Overload
/-!
# Class template argument deduction for `interval` and `set`

interval.hpp:708–715, set.hpp:224–225, detail/set.hpp:60–65.  The primary template `interval` is declared but not defined, so only the deduction guides and
the copy deduction candidate take part; `set` also has the guides implied by its constructors (C++20 [over.match.class.deduct]).
-/
namespace Intervals.Overload
open Intervals.Traits CppType

/-- the deduction guides of `interval` (interval.hpp:710–715) and the copy deduction candidate.  A parameter of type `interval<T>` is not deduced from an interval
with identity, because `constrained_interval` is derived from the base class of `interval<T>`, not from `interval<T>` (detail/interval.hpp:30–34). -/
def guidesInterval (env : Env) : List CppType → List Cand
  | [x] => [
    ⟨match x with
      | interval v => if isIntervalValue v then some [0] else none
      | _ => none, 1, (intervalValueT x).bind (mkInterval env)⟩,
    ⟨match x with
      | interval _ => some [0]
      | _ => none, 0, (intervalValueT x).bind (mkInterval env)⟩,
    ⟨if isIntervalValue x then some [0] else none, 0, mkInterval env x⟩]
  | [x, y] => [⟨if isIntervalValue x && isIntervalValue y && (env.common [x, y]).isSome then some [0, 0] else none, 0, (env.common [x, y]).bind (mkInterval env)⟩]
  | _ => []
/-- Does the initialization of `interval<V>` by these arguments compile?  Braces do not allow narrowing conversions (the arguments are not constants). -/
def initInterval (env : Env) (braces : Bool) (v : CppType) (ts : List CppType) : Bool :=
  !braces || ts.all fun t => !(isScalar t && env.narrowing t v)
/-- the type of `interval(x...)` or `interval{ x... }` -/
def deduceIntervalClass (env : Env) (braces : Bool) (ts : List CppType) : Res :=
  match resolve (guidesInterval env ts) with
  | .ok (interval v) => if initInterval env braces v ts then .ok (interval v) else .illFormed
  | r => r

/-- `set<T>` as the result of a deduction: `makeshift::metadata::values` exists for `bool` and for enumerations only (set.hpp:40) -/
def mkSet : CppType → Option CppType
  | .bool => some (.set .bool 0)
  | enum n => some (.set (enum n) 0)
  | _ => none
/-- the guides of `set` for arguments that are not a list: set.hpp:224–225, the guide implied by the constructor `set(T)` (set.hpp:79), the copy deduction
candidate.  The condition of `enforce_same` (detail/set.hpp:60–65) is a `static_assert`: if it fails, the program is ill-formed. -/
def guidesSet : List CppType → List Cand
  | [] => []
  | [x] => [
    ⟨some [0], 0, mkSet x⟩,
    ⟨some [0], 1, mkSet x⟩,
    ⟨match x with
      | .set _ _ => some [0]
      | .cond _ _ _ => some [2]
      | _ => none, 2, setBase x⟩]
  | x :: y :: ts => [⟨some (List.replicate (ts.length + 2) 0), 0, if (y :: ts).all (fun t => decide (t = x)) then mkSet x else none⟩]
/-- the type of `set(x...)` or `set{ x... }`.  With braces, the guide implied by the constructor from an initializer list (set.hpp:83) is tried first, unless the
only argument is a set or derived from one (C++20 [over.match.class.deduct]/4); `explicit` does not matter in direct initialization. -/
def deduceSetClass (braces : Bool) (ts : List CppType) : Res :=
  match ts with
  | [] => .noOverload
  | x :: rest =>
    if braces && !(rest.isEmpty && (setBase x).isSome) && rest.all (fun t => decide (t = x)) then (mkSet x).elim .illFormed .ok
    else resolve (guidesSet ts)

end Intervals.Overload
