import Verif.Model.Interval
/-!
# Signed integers and iterators as value types
-/
namespace Intervals
open CppVal

/-- A value of a bounded integer type: the integers from `l` to `h`. -/
structure BInt (l h : Int) where
  val : Int
  ge : l ≤ val
  le : val ≤ h
  deriving DecidableEq

/-- A signed integer type with `n` value bits (`int` is `SInt 31`, `long long` is `SInt 63`); interval.hpp:783–786 admits exactly
the signed integral types. -/
abbrev SInt (n : Nat) := BInt (-(2:Int)^n) ((2:Int)^n - 1)

/-- Iterators into one range of `n` elements, identified by position; `n` is the past-the-end iterator
(interval.hpp:853, `std::random_access_iterator`). -/
abbrev Iter (n : Nat) := BInt 0 (n : Int)

theorem BInt.ext {l h : Int} {a b : BInt l h} (e : a.val = b.val) : a = b := by
  cases a; cases b; cases e; rfl

/-- built-in comparison of integers / iterators of one range -/
instance {l h : Int} : CppVal (BInt l h) where
  lt a b := decide (a.val < b.val)
  le a b := decide (a.val ≤ b.val)
  eq a b := decide (a.val = b.val)

instance {l h : Int} : CppOrder (BInt l h) where
  le_trans a b c := by simp only [CppVal.le, decide_eq_true_eq]; omega
  le_total a b := by simp only [CppVal.le, decide_eq_true_eq]; omega
  le_left a b := by simp [CppVal.le]
  le_right a b := by simp [CppVal.le]
  lt_iff a b := by simp [CppVal.le, CppVal.lt]
  eq_iff a b := by simp only [CppVal.le, CppVal.eq, decide_eq_true_eq]; omega

/-- `std::numeric_limits<T>::min()/max()` (interval.hpp:790–791). -/
instance (n : Nat) : CppLimits (SInt n) where
  top := ⟨2^n - 1, by have : (0:Int) < 2^n := Int.pow_pos (by decide); omega, Int.le_refl _⟩
  bot := ⟨-2^n, Int.le_refl _, by have : (0:Int) < 2^n := Int.pow_pos (by decide); omega⟩

instance (n : Nat) : CppLawfulLimits (SInt n) where
  le_top a _ := by simp only [CppVal.le, decide_eq_true_eq]; exact a.le
  bot_le a _ := by simp only [CppVal.le, decide_eq_true_eq]; exact a.ge
  bot_lt_top := by
    simp only [CppVal.lt, CppLimits.top, CppLimits.bot, decide_eq_true_eq]
    have : (0:Int) < 2^n := Int.pow_pos (by decide)
    omega

/-- The value `v` of type `BInt l h`, or undefined behaviour if it is not representable (signed overflow; iterator leaving its
range). -/
def BInt.ofInt (l h v : Int) : Outcome (BInt l h) :=
  if hv : l ≤ v ∧ v ≤ h then .ok ⟨v, hv.1, hv.2⟩ else .error .ub

/-- `++value`, `--value` (detail/interval.hpp:244–269). -/
instance {l h : Int} : CppStep (BInt l h) where
  succ a := match BInt.ofInt l h (a.val + 1) with
    | .ok v => some v
    | .error _ => none
  pred a := match BInt.ofInt l h (a.val - 1) with
    | .ok v => some v
    | .error _ => none

/-- notation helper for examples: an `int` literal -/
def i32 (v : Int) (h : -(2:Int)^31 ≤ v ∧ v ≤ 2^31 - 1 := by decide) : SInt 31 := ⟨v, h.1, h.2⟩

end Intervals
