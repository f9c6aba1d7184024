import Verif.Model.Interval
import Verif.Lemmas.Val
import Mathlib.Algebra.Order.Field.Basic
import Mathlib.Order.WithBot
/-!
# Floating-point values

`Fl K` is the set of values of a floating-point type whose finite non-zero values are (some of) the elements of an ordered field
`K`: NaN, the infinities, negative zero, and numbers (`num 0` is positive zero).
-/
namespace Intervals
open CppVal

/-- A floating-point value (IEEE 754, one NaN); models `std::floating_point T` (interval.hpp:716). -/
inductive Fl (K : Type _) where
  | nan
  | ninf
  | pinf
  | nzero
  | num (k : K)
  deriving DecidableEq

namespace Fl
variable {K : Type _}

/-- Position of a non-NaN value on the extended line; both zeros are at 0. -/
def ext [Zero K] : Fl K → Option (WithBot (WithTop K))
  | nan => none
  | ninf => some ⊥
  | pinf => some ((⊤ : WithTop K) : WithBot (WithTop K))
  | nzero => some (((0 : K) : WithTop K) : WithBot (WithTop K))
  | num k => some ((k : WithTop K) : WithBot (WithTop K))

/-- `std::isnan` (math.hpp:205–210). -/
def isNan : Fl K → Bool
  | nan => true
  | _ => false
/-- `std::isinf` (math.hpp:193–198). -/
def isInf : Fl K → Bool
  | ninf => true
  | pinf => true
  | _ => false
/-- `std::isfinite` (math.hpp:199–204). -/
def isFinite : Fl K → Bool
  | nzero => true
  | num _ => true
  | _ => false

section order
variable [Zero K] [LinearOrder K]

/-- IEEE comparisons `<`, `<=`, `==`: false if an operand is NaN, otherwise by position on the extended line. -/
instance instCppVal : CppVal (Fl K) where
  lt a b := match ext a, ext b with
    | some x, some y => decide (x < y)
    | _, _ => false
  le a b := match ext a, ext b with
    | some x, some y => decide (x ≤ y)
    | _, _ => false
  eq a b := match ext a, ext b with
    | some x, some y => decide (x = y)
    | _, _ => false

theorem le_iff {a b : Fl K} : le a b = true ↔ ∃ x y, ext a = some x ∧ ext b = some y ∧ x ≤ y := by
  simp only [le]; cases ext a <;> cases ext b <;> simp
theorem lt_iff {a b : Fl K} : lt a b = true ↔ ∃ x y, ext a = some x ∧ ext b = some y ∧ x < y := by
  simp only [lt]; cases ext a <;> cases ext b <;> simp
theorem eq_iff {a b : Fl K} : eq a b = true ↔ ∃ x, ext a = some x ∧ ext b = some x := by
  simp only [CppVal.eq]; cases ext a <;> cases ext b <;> simp [eq_comm]

instance instCppOrder : CppOrder (Fl K) where
  le_trans a b c h1 h2 := by
    obtain ⟨x, y, ha, hb, h⟩ := le_iff.mp h1
    obtain ⟨y', z, hb', hc, h'⟩ := le_iff.mp h2
    rw [hb] at hb'; cases hb'
    exact le_iff.mpr ⟨x, z, ha, hc, h.trans h'⟩
  le_total a b h1 h2 := by
    obtain ⟨x, _, ha, _, _⟩ := le_iff.mp h1
    obtain ⟨y, _, hb, _, _⟩ := le_iff.mp h2
    rcases le_total x y with h | h
    · exact Or.inl (le_iff.mpr ⟨x, y, ha, hb, h⟩)
    · exact Or.inr (le_iff.mpr ⟨y, x, hb, ha, h⟩)
  le_left a b h := by
    obtain ⟨x, _, ha, _, _⟩ := le_iff.mp h
    exact le_iff.mpr ⟨x, x, ha, ha, le_refl _⟩
  le_right a b h := by
    obtain ⟨_, y, _, hb, _⟩ := le_iff.mp h
    exact le_iff.mpr ⟨y, y, hb, hb, le_refl _⟩
  lt_iff a b := by
    simp only [lt, le]; cases ext a <;> cases ext b <;> simp
  eq_iff a b := by
    simp only [CppVal.eq, le]
    cases ext a <;> cases ext b <;> simp only [decide_eq_true_eq, Bool.false_eq_true, and_self]
    exact le_antisymm_iff

/-- `inf_`, `-inf_` (interval.hpp:721). -/
instance instCppLimits : CppLimits (Fl K) where
  top := pinf
  bot := ninf

instance instCppLawfulLimits : CppLawfulLimits (Fl K) where
  le_top a h := by
    obtain ⟨x, _, ha, _, _⟩ := le_iff.mp h
    exact le_iff.mpr ⟨x, _, ha, rfl, by
      cases x with
      | bot => exact bot_le
      | coe x => exact WithBot.coe_le_coe.mpr le_top⟩
  bot_le a h := by
    obtain ⟨x, _, ha, _, _⟩ := le_iff.mp h
    exact le_iff.mpr ⟨⊥, x, rfl, ha, bot_le⟩
  bot_lt_top := by simp [lt, CppLimits.top, CppLimits.bot, ext]

/-- `++value`, `--value` on a value of an *integral* type that is compared with floating-point values: the number plus or minus one
(detail/interval.hpp:244–269).  Simplification: the integral type's own overflow is not modelled here (see Model/ConstraintMixed). -/
instance instCppStep [Add K] [Sub K] [One K] : CppStep (Fl K) where
  succ
    | num k => some (num (k + 1))
    | nzero => some (num (0 + 1))
    | _ => none
  pred
    | num k => some (num (k - 1))
    | nzero => some (num (0 - 1))
    | _ => none

/-! Comparison by cases. -/
@[simp] theorem le_num_num (a b : K) : le (num a) (num b) = decide (a ≤ b) := by simp [le, ext]
@[simp] theorem le_num_nzero (a : K) : le (num a) nzero = decide (a ≤ 0) := by simp [le, ext]
@[simp] theorem le_nzero_num (a : K) : le nzero (num a) = decide (0 ≤ a) := by simp [le, ext]
@[simp] theorem le_nzero_nzero : le (nzero : Fl K) nzero = true := by simp [le, ext]
@[simp] theorem le_nan_left (a : Fl K) : le nan a = false := by cases a <;> simp [le, ext]
@[simp] theorem le_nan_right (a : Fl K) : le a nan = false := by cases a <;> simp [le, ext]
@[simp] theorem le_ninf_num (a : K) : le ninf (num a) = true := by simp [le, ext]
@[simp] theorem le_ninf_nzero : le ninf (nzero : Fl K) = true := by simp [le, ext]
@[simp] theorem le_ninf_ninf : le ninf (ninf : Fl K) = true := by simp [le, ext]
@[simp] theorem le_ninf_pinf : le ninf (pinf : Fl K) = true := by simp [le, ext]
@[simp] theorem le_num_ninf (a : K) : le (num a) ninf = false := by simp [le, ext]
@[simp] theorem le_nzero_ninf : le (nzero : Fl K) ninf = false := by simp [le, ext]
@[simp] theorem le_pinf_ninf : le (pinf : Fl K) ninf = false := by simp [le, ext]
@[simp] theorem le_num_pinf (a : K) : le (num a) pinf = true := by
  simp only [le, ext, decide_eq_true_eq]; exact WithBot.coe_le_coe.mpr le_top
@[simp] theorem le_nzero_pinf : le (nzero : Fl K) pinf = true := le_num_pinf 0
@[simp] theorem le_pinf_pinf : le (pinf : Fl K) pinf = true := by simp [le, ext]
@[simp] theorem le_pinf_num (a : K) : le pinf (num a) = false := by
  simp only [le, ext, decide_eq_false_iff_not, not_le]; exact WithBot.coe_lt_coe.mpr (WithTop.coe_lt_top a)
@[simp] theorem le_pinf_nzero : le (pinf : Fl K) nzero = false := le_pinf_num 0

theorem notNan_iff {a : Fl K} : le a a = true ↔ a ≠ nan := by cases a <;> simp
end order
end Fl
end Intervals
