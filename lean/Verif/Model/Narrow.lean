import Verif.Model.IntArith
import Verif.Model.FltArith
/-!
# Conversions between interval types (include/intervals/interval.hpp:740–748, 810–818, 878–884, 1391–1423)
-/
namespace Intervals
open CppVal

/-- The integer in `[-2^m, 2^m-1]` congruent to `v` modulo `2^(m+1)`. -/
def wrapInt (m : Nat) (v : Int) : Int := (v + 2^m) % 2^(m+1) - 2^m

theorem wrapInt_ge (m : Nat) (v : Int) : -(2:Int)^m ≤ wrapInt m v := by
  have : (0:Int) < 2^(m+1) := Int.pow_pos (by decide)
  have := Int.emod_nonneg (v + 2^m) (by omega : (2:Int)^(m+1) ≠ 0)
  unfold wrapInt; omega
theorem wrapInt_le (m : Nat) (v : Int) : wrapInt m v ≤ (2:Int)^m - 1 := by
  have h0 : (0:Int) < 2^(m+1) := Int.pow_pos (by decide)
  have := Int.emod_lt_of_pos (v + 2^m) h0
  have : (2:Int)^(m+1) = 2 * 2^m := by rw [Int.pow_succ]; omega
  unfold wrapInt; omega

/-- `gsl::narrow_cast<T>(v)` and `static_cast<T>(v)` between signed integer types of `n` and `m` value bits: reduction modulo
`2^(m+1)` (C++20 [conv.integral]).  `gsl::narrow_cast` is defined in gsl-lite, outside the repository, as exactly that cast. -/
def narrowCastV {n : Nat} (m : Nat) (v : SInt n) : SInt m := ⟨wrapInt m v.val, wrapInt_ge m v.val, wrapInt_le m v.val⟩
/-- `gsl::narrow<T>(v)` (gsl-lite, outside the repository): casts, and throws `narrowing_error` if casting back does not give `v`. -/
def narrowV {n : Nat} (m : Nat) (v : SInt n) : Outcome (SInt m) :=
  let t := narrowCastV m v
  if ne (narrowCastV n t) v then .error .narrowing else .ok t
/-- `gsl::narrow_failfast<T>(v)` (gsl-lite, outside the repository): the same check as a contract check. -/
def narrowFailfastV {n : Nat} (m : Nat) (v : SInt n) : Outcome (SInt m) :=
  let t := narrowCastV m v
  if ne (narrowCastV n t) v then .error .contract else .ok t

/-- `narrow_cast<T>(X)` (interval.hpp:1391–1401).  (The function is `noexcept`, so that a throwing contract check in the constructor
terminates; both are `Err.contract` here.) -/
def narrowCastI {n : Nat} (m : Nat) (x : Ivl (SInt n)) : Outcome (Ivl (SInt m)) :=
  if x.assigned then Ivl.make (narrowCastV m x.lo) (narrowCastV m x.hi)
  else .ok Ivl.unassigned
/-- `narrow<T>(X)` (interval.hpp:1402–1412). -/
def narrowI {n : Nat} (m : Nat) (x : Ivl (SInt n)) : Outcome (Ivl (SInt m)) :=
  if x.assigned then do Ivl.make (← narrowV m x.lo) (← narrowV m x.hi)
  else .ok Ivl.unassigned
/-- `narrow_failfast<T>(X)` (interval.hpp:1413–1423). -/
def narrowFailfastI {n : Nat} (m : Nat) (x : Ivl (SInt n)) : Outcome (Ivl (SInt m)) :=
  if x.assigned then do Ivl.make (← narrowFailfastV m x.lo) (← narrowFailfastV m x.hi)
  else .ok Ivl.unassigned

/-- converting constructor `interval(interval_base<U> const&)` of floating-point and integral intervals (interval.hpp:740–748, 810–818);
`conv` is the implicit conversion `U → T` of the bounds in the call of `_reset`. -/
def convertI {U T : Type _} [CppVal U] [CppLimits T] (conv : U → T) (rhs : Ivl U) : Ivl T :=
  if rhs.assigned then ⟨conv rhs.lo, conv rhs.hi⟩ else Ivl.unassigned
/-- converting constructor of iterator intervals (interval.hpp:878–884). -/
def convertIter {U T : Type _} [CppVal U] (conv : U → T) (rhs : Ivl U) : Outcome (Ivl T) := do
  let r := ⟨conv rhs.lo, conv rhs.hi⟩
  expects rhs.assigned
  return r

/-- integral conversion to a type with at least as many value bits (`int` to `long long`) -/
def widenV {n m : Nat} (h : n ≤ m) (v : SInt n) : SInt m :=
  ⟨v.val, by have := v.ge; have := pow_le_pow_right₀ (show (1:Int) ≤ 2 by decide) h; omega,
    by have := v.le; have := pow_le_pow_right₀ (show (1:Int) ≤ 2 by decide) h; omega⟩
/-- integral to floating-point conversion: rounds to the format -/
def toFloatV {K : Type} [Field K] [LinearOrder K] [Fmt K] {n : Nat} (v : SInt n) : Fl K := Fmt.rnd (v.val : K)
/-- floating-point conversion to the format `F` (`double` to `float`): rounds, keeps zeros, infinities and NaN -/
def toFormatV {K : Type} [Field K] [LinearOrder K] (F : Fmt K) : Fl K → Fl K
  | .num k => F.rnd k
  | a => a
end Intervals
