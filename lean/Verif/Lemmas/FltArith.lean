import Verif.Model.FltArith
import Mathlib.Algebra.Order.Field.Basic
import Mathlib.Tactic.Linarith
import Mathlib.Tactic.Positivity
import Mathlib.Tactic.Order
/-! Monotonicity of the floating-point operations. -/
set_option linter.unusedSectionVars false
set_option linter.unusedSimpArgs false
namespace Intervals
open CppVal
namespace Fl
variable {K : Type} [Field K] [LinearOrder K] [IsStrictOrderedRing K] [Fmt K]
variable {a a' b b' : Fl K}

theorem le_nzero_iff (a : Fl K) : le a nzero = le a (num 0) := by cases a <;> simp
theorem nzero_le_iff (a : Fl K) : le nzero a = le (num 0) a := by cases a <;> simp
theorem le_refl_of_ne {a : Fl K} (h : a ≠ nan) : le a a = true := notNan_iff.mpr h
theorem le_pinf {a : Fl K} (h : a ≠ nan) : le a pinf = true := by cases a <;> simp_all
theorem ninf_le {a : Fl K} (h : a ≠ nan) : le ninf a = true := by cases a <;> simp_all

@[simp] theorem rnd_le_pinf (k : K) : le (Fmt.rnd k) pinf = true := le_pinf (Fmt.rnd_ne_nan k)
@[simp] theorem ninf_le_rnd (k : K) : le ninf (Fmt.rnd k) = true := ninf_le (Fmt.rnd_ne_nan k)
theorem zero_le_rnd {k : K} (h : 0 ≤ k) : le (num 0) (Fmt.rnd k) = true := by
  rw [← Fmt.rnd_zero]; exact Fmt.rnd_mono _ _ h
theorem rnd_le_zero {k : K} (h : k ≤ 0) : le (Fmt.rnd k) (num 0) = true := by
  rw [← Fmt.rnd_zero]; exact Fmt.rnd_mono _ _ h
theorem nzero_le_rnd {k : K} (h : 0 ≤ k) : le nzero (Fmt.rnd k) = true := by rw [nzero_le_iff]; exact zero_le_rnd h
theorem rnd_le_nzero {k : K} (h : k ≤ 0) : le (Fmt.rnd k) nzero = true := by rw [le_nzero_iff]; exact rnd_le_zero h
@[simp] theorem rnd_ne (k : K) : (Fmt.rnd k = nan) ↔ False := iff_false_intro (Fmt.rnd_ne_nan k)

theorem neg_anti (h : le a b = true) : le (neg b) (neg a) = true := by
  cases a <;> cases b <;> simp_all [neg] <;> (repeat' split) <;> simp_all

theorem mul_comm' (a b : Fl K) : mul a b = mul b a := by
  unfold mul
  rw [Bool.or_comm (isNan a), Bool.or_comm (isInf a), Bool.or_comm (isZero a), mul_comm (val a), bne_comm]


/-- finishing tactic for the constructor case splits -/
local macro "fin" : tactic => `(tactic| (
  (repeat' split) <;> simp_all
  all_goals first
    | exact ninf_le (by assumption)
    | exact le_pinf (by assumption)
    | exact Fmt.rnd_mono _ _ (by nlinarith)
    | exact zero_le_rnd (by nlinarith)
    | exact rnd_le_zero (by nlinarith)
    | exact nzero_le_rnd (by nlinarith)
    | exact rnd_le_nzero (by nlinarith)
    | (exfalso; order)
    | (exfalso; linarith)))

theorem mul_mono (hb : le (num 0) b = true) (h : le a a' = true) (h1 : mul a b ≠ nan) (h2 : mul a' b ≠ nan) :
    le (mul a b) (mul a' b) = true := by
  cases a <;> cases a' <;> cases b <;> simp_all [mul, isNan, isInf, isZero, signBit, val, infS, zeroS]
  all_goals fin

theorem mul_anti (hb : le b (num 0) = true) (h : le a a' = true) (h1 : mul a b ≠ nan) (h2 : mul a' b ≠ nan) :
    le (mul a' b) (mul a b) = true := by
  cases a <;> cases a' <;> cases b <;> simp_all [mul, isNan, isInf, isZero, signBit, val, infS, zeroS]
  all_goals fin

theorem add_comm' (a b : Fl K) : add a b = add b a := by
  cases a <;> cases b <;> simp [add, isNan, isInf, isZero, signBit, val, add_comm, and_comm]

theorem add_mono_left (h : le a a' = true) (h1 : add a b ≠ nan) (h2 : add a' b ≠ nan) :
    le (add a b) (add a' b) = true := by
  cases a <;> cases a' <;> cases b <;> simp_all [add, isNan, isInf, isZero, signBit, val]
  all_goals fin


omit [Fmt K] in
theorem K_inv_anti {b b' : K} (hs : b < 0 ↔ b' < 0) (hb : ¬b = 0) (h : b ≤ b') : b'⁻¹ ≤ b⁻¹ := by
  by_cases h0 : b < 0
  · exact (inv_le_inv_of_neg (hs.mp h0) h0).mpr h
  · have : 0 < b := lt_of_le_of_ne (not_lt.mp h0) (Ne.symm hb)
    exact (inv_le_inv₀ (lt_of_lt_of_le this h) this).mpr h
omit [Fmt K] in
theorem K_div_anti {a b b' : K} (ha : 0 ≤ a) (hs : b < 0 ↔ b' < 0) (hb : ¬b = 0) (_ : ¬b' = 0) (h : b ≤ b') : a / b' ≤ a / b := by
  rw [div_eq_mul_inv, div_eq_mul_inv]; exact mul_le_mul_of_nonneg_left (K_inv_anti hs hb h) ha
omit [Fmt K] in
theorem K_div_mono {a b b' : K} (ha : a ≤ 0) (hs : b < 0 ↔ b' < 0) (hb : ¬b = 0) (_ : ¬b' = 0) (h : b ≤ b') : a / b ≤ a / b' := by
  rw [div_eq_mul_inv, div_eq_mul_inv]; exact mul_le_mul_of_nonpos_left (K_inv_anti hs hb h) ha

/-- finishing tactic for quotients -/
local macro "find" : tactic => `(tactic| (
  (repeat' split) <;> simp_all
  all_goals first
    | exact ninf_le (by assumption)
    | exact le_pinf (by assumption)
    | exact Fmt.rnd_mono _ _ (div_le_div_of_nonneg_right (by assumption) (by assumption))
    | exact Fmt.rnd_mono _ _ (div_le_div_of_nonpos_of_le (le_of_lt (by assumption)) (by assumption))
    | exact Fmt.rnd_mono _ _ (K_div_anti (by assumption) (by assumption) (by assumption) (by assumption) (by assumption))
    | exact Fmt.rnd_mono _ _ (K_div_mono (by assumption) (by assumption) (by assumption) (by assumption) (by assumption))
    | exact zero_le_rnd (div_nonneg (by linarith) (by linarith))
    | exact zero_le_rnd (div_nonneg_of_nonpos (by linarith) (by linarith))
    | exact rnd_le_zero (div_nonpos_of_nonneg_of_nonpos (by linarith) (by linarith))
    | exact rnd_le_zero (div_nonpos_of_nonpos_of_nonneg (by linarith) (by linarith))
    | exact nzero_le_rnd (div_nonneg (by linarith) (by linarith))
    | exact nzero_le_rnd (div_nonneg_of_nonpos (by linarith) (by linarith))
    | exact rnd_le_nzero (div_nonpos_of_nonneg_of_nonpos (by linarith) (by linarith))
    | exact rnd_le_nzero (div_nonpos_of_nonpos_of_nonneg (by linarith) (by linarith))
    | (exfalso; order)
    | (exfalso; grind)))

theorem div_mono_pos (hb : signBit b = false) (h : le a a' = true) (h1 : div a b ≠ nan) (h2 : div a' b ≠ nan) :
    le (div a b) (div a' b) = true := by
  cases a <;> cases a' <;> cases b <;> simp_all [div, isNan, isInf, isZero, signBit, val, infS, zeroS]
  all_goals find
theorem div_anti_neg (hb : signBit b = true) (h : le a a' = true) (h1 : div a b ≠ nan) (h2 : div a' b ≠ nan) :
    le (div a' b) (div a b) = true := by
  cases a <;> cases a' <;> cases b <;> simp_all [div, isNan, isInf, isZero, signBit, val, infS, zeroS]
  all_goals find
set_option maxHeartbeats 1000000 in
theorem div_right_anti (hs : signBit b = signBit b') (ha : le (num 0) a = true) (h : le b b' = true) (h1 : div a b ≠ nan) (h2 : div a b' ≠ nan) :
    le (div a b') (div a b) = true := by
  cases a <;> cases b' <;> cases b <;> simp_all [div, isNan, isInf, isZero, signBit, val, infS, zeroS]
  all_goals find
set_option maxHeartbeats 1000000 in
theorem div_right_mono (hs : signBit b = signBit b') (ha : le a (num 0) = true) (h : le b b' = true) (h1 : div a b ≠ nan) (h2 : div a b' ≠ nan) :
    le (div a b) (div a b') = true := by
  cases a <;> cases b' <;> cases b <;> simp_all [div, isNan, isInf, isZero, signBit, val, infS, zeroS]
  all_goals find

theorem add_eq_nan (ha : a ≠ nan) (hb : b ≠ nan) : add a b = nan ↔ (a = ninf ∧ b = pinf) ∨ (a = pinf ∧ b = ninf) := by
  cases a <;> cases b <;> simp_all [add, isNan, isInf, isZero, signBit, val]
  all_goals (repeat' split) <;> simp_all
theorem mul_eq_nan (ha : a ≠ nan) (hb : b ≠ nan) :
    mul a b = nan ↔ (isInf a = true ∧ isZero b = true) ∨ (isZero a = true ∧ isInf b = true) := by
  cases a <;> cases b <;> simp_all [mul, isNan, isInf, isZero, signBit, val, infS, zeroS]
  all_goals (repeat' split) <;> simp_all
theorem div_eq_nan (ha : a ≠ nan) (hb : b ≠ nan) :
    div a b = nan ↔ (isInf a = true ∧ isInf b = true) ∨ (isZero a = true ∧ isZero b = true) := by
  cases a <;> cases b <;> simp_all [div, isNan, isInf, isZero, signBit, val, infS, zeroS]
  all_goals (repeat' split) <;> simp_all
theorem neg_ne_nan : neg a = nan ↔ a = nan := by
  cases a <;> simp [neg]
  split <;> simp
theorem le_ninf_iff : le a ninf = true ↔ a = ninf := by cases a <;> simp
theorem pinf_le_iff : le pinf a = true ↔ a = pinf := by cases a <;> simp
theorem ne_nan_of_le_left (h : le a b = true) : a ≠ nan := by rintro rfl; simp at h
theorem ne_nan_of_le_right (h : le a b = true) : b ≠ nan := by rintro rfl; simp at h
theorem isZero_iff : isZero a = true ↔ le a (num 0) = true ∧ le (num 0) a = true := by
  cases a <;> simp [isZero]
  exact le_antisymm_iff
theorem isInf_iff : isInf a = true ↔ a = ninf ∨ a = pinf := by cases a <;> simp [isInf]
theorem isNegInf_iff : isNegInf a = true ↔ a = ninf := by
  cases a <;> simp [isNegInf, CppNum.isFloat, CppNum.ninf, CppVal.eq, ext]
theorem isPosInf_iff : isPosInf a = true ↔ a = pinf := by
  have : ∀ k : K, ¬((k : WithTop K) : WithBot (WithTop K)) = ((⊤ : WithTop K) : WithBot (WithTop K)) := by
    intro k h; exact WithTop.coe_ne_top (WithBot.coe_injective h)
  cases a <;> simp [isPosInf, CppNum.isFloat, CppNum.inf, CppVal.eq, ext]
  exact this 0
theorem nanInterval_eq : (nanInterval : Outcome (Ivl (Fl K))) = .ok ⟨nan, nan⟩ := by
  simp [nanInterval, Ivl.make, CppNum.nan, CppVal.gt, lt, ext, expects_true]
theorem infInterval_eq : (infInterval : Outcome (Ivl (Fl K))) = .ok ⟨ninf, pinf⟩ := by
  simp [infInterval, Ivl.make, CppNum.inf, CppNum.ninf, CppVal.gt, lt, ext, expects_true]
end Fl
end Intervals
