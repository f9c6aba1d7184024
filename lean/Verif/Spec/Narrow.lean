import Verif.Model.FltArith
import Mathlib.Algebra.Order.Floor.Defs
/-!
# Specification vocabulary for floating-point narrowing
-/
namespace Intervals.Spec
open Intervals CppVal
variable {K : Type} [Field K] [LinearOrder K]

/-- `v` is a number of the format `F` (not NaN; infinities and both zeros belong to every format) -/
def InFmt (F : Fmt K) (v : Fl K) : Prop := v ≠ .nan ∧ @Fl.Representable K _ _ F v
/-- the integer `t` is `x` with the fraction discarded -/
def IsTrunc (x : K) (t : ℤ) : Prop := (0 ≤ x → (t : K) ≤ x ∧ x < t + 1) ∧ (x < 0 → x ≤ t ∧ (t : K) - 1 < x)
/-- `v` is finite and, after discarding the fraction, an integer of `m` value bits -/
def Fits (m : Nat) (v : Fl K) : Prop := Fl.isFinite v = true ∧ -(2:K)^m - 1 < Fl.val v ∧ Fl.val v < (2:K)^m
/-- `v` is a finite integer -/
def IsInt (v : Fl K) : Prop := ∃ z : ℤ, Fl.val v = z

/-- rounding to `F` gives numbers of `F`, and every number of `F` is a number of `F₀` (`float` and `double`) -/
def SubFmt (F F₀ : Fmt K) : Prop := ∀ k k', F.rnd k = .num k' → F.rnd k' = .num k' ∧ F₀.rnd k' = .num k'
/-- the integer part of a number of the format is a number of the format -/
def TruncClosed (F : Fmt K) : Prop := ∀ k (t : ℤ), F.rnd k = .num k → IsTrunc k t → F.rnd t = .num (t : K)
/-- integers round to integers -/
def IntToInt (F : Fmt K) : Prop := ∀ (z : ℤ) k, F.rnd z = .num k → ∃ z' : ℤ, k = z'
end Intervals.Spec
