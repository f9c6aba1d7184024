import Verif.Model.Overload
/-!
# Operators that are deleted or that the library does not have (set.hpp:115, 262–269; interval.hpp:572; detail/interval.hpp:30–43, 319)
-/
namespace Intervals.Overload
open Intervals.Traits CppType

/-- contextual conversion to `bool`, in `if (x)`, `while (x)`, `x ? … : …`: no class of the library has a conversion to `bool` -/
def branchOk (env : Env) (x : CppType) : Bool := (toBoolRank env x).isSome

/-- `x && y`, `x || y`: the built-in operator on `bool`, and the deleted overloads (set.hpp:264–269), found through an argument that is a set.  The overloads
of `&&` and `||` have the same parameters. -/
def shortCircuitCands (env : Env) (x y : CppType) : List Cand :=
  ⟨ranks2 (toBoolRank env x) (toBoolRank env y), 2, some .bool⟩ ::
    if (setBase x).isNone && (setBase y).isNone then [] else [
      ⟨ranks2 (toSetBoolRank env x) (toSetBoolRank env y), 2, none⟩,
      ⟨ranks2 (toBoolRank env x) (toSetBoolRank env y), 2, none⟩,
      ⟨ranks2 (toSetBoolRank env x) (toBoolRank env y), 2, none⟩]
/-- the outcome of compiling `x && y` or `x || y` -/
def callShortCircuit (env : Env) (x y : CppType) : Res := resolve (shortCircuitCands env x y)

/-- `x = y`.  Scalars have the built-in operator.  The copy assignment operator of `set` (set.hpp:115) and of `interval_base` (interval.hpp:572) is deleted; so
are therefore the implicit ones of the derived classes `interval` (interval.hpp:717, 784, 854), `constrained_interval` (detail/interval.hpp:31, which also has a
constant member) and the conditions (detail/interval.hpp:319–379).  None of them has another assignment operator. -/
def assignOpCands (env : Env) (x y : CppType) : List Cand :=
  match x with
  | .set e r => [⟨(toSetRank env (.set e r) y).map ([·]), 2, none⟩]
  | .interval v => [⟨(toIntervalRank env v y).map ([·]), 2, none⟩]
  | .cinterval v => [⟨if y = .cinterval v ∨ y = .interval v then some [0] else none, 2, none⟩]
  | .cond k l r => [⟨if y = .cond k l r then some [0] else none, 2, none⟩]
  | x => [⟨if isScalar x then (toValueRank env x y).map ([·]) else none, 2, some x⟩]
/-- the outcome of compiling `x = y` -/
def callAssignOp (env : Env) (x y : CppType) : Res := resolve (assignOpCands env x y)
end Intervals.Overload
