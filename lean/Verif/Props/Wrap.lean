import Verif.Lemmas.Exact
import Verif.Lemmas.BinFmt
/-!
# C42: wraparound
-/
namespace Intervals.Props
open Intervals CppVal Spec

variable {K : Type} [Field K] [LinearOrder K] [IsStrictOrderedRing K] [FloorRing K]

/-- C42: in exact arithmetic `wraparound(x, min, max)` is a number in `[min, max)` that differs from `x` by a multiple of `max - min`. -/
theorem C42_wraparound (x mn mx : K) (h : mn < mx) :
    ∃ r k, @Fl.wraparound K _ _ _ (exactFmt K) (.num x) (.num mn) (.num mx) = .ok r ∧ eq r (.num k) = true ∧
      mn ≤ k ∧ k < mx ∧ ∃ n : ℤ, k = x + n * (mx - mn) := by
  obtain ⟨r, k, e, hr, h1, h2, h3⟩ := Fl.Is.wraparound (Fl.Is.num x) (Fl.Is.num mn) (Fl.Is.num mx) h
  exact ⟨r, k, e, (hr.eq_iff (Fl.Is.num k)).mpr rfl, h1, h2, h3⟩

/-- C42: the residue in the range is unique, so the result is determined by this. -/
theorem C42_unique (x mn mx k k' : K) (h : mn < mx) (hk : mn ≤ k ∧ k < mx ∧ ∃ n : ℤ, k = x + n * (mx - mn))
    (hk' : mn ≤ k' ∧ k' < mx ∧ ∃ n : ℤ, k' = x + n * (mx - mn)) : k = k' := by
  obtain ⟨a1, a2, n, rfl⟩ := hk
  obtain ⟨b1, b2, m, rfl⟩ := hk'
  have hr : (0:K) < mx - mn := by linarith
  have h1 : ((n - m : ℤ) : K) * (mx - mn) < 1 * (mx - mn) := by push_cast; linarith
  have h2 : ((m - n : ℤ) : K) * (mx - mn) < 1 * (mx - mn) := by push_cast; linarith
  have h3 : n - m < 1 := by exact_mod_cast lt_of_mul_lt_mul_right h1 hr.le
  have h4 : m - n < 1 := by exact_mod_cast lt_of_mul_lt_mul_right h2 hr.le
  have : n = m := by omega
  rw [this]

omit [IsStrictOrderedRing K] in
/-- C42: in every format the call fails fast unless `min < max` (in particular if one of them is NaN). -/
theorem C42_fail [Fmt K] (x mn mx : Fl K) : Fl.wraparound x mn mx = .error .contract ↔ lt mn mx = false := by
  unfold Fl.wraparound
  cases h : lt mn mx <;> simp [pure, Except.pure]

-- 7 wrapped into [-1, 2) is 1 = 7 + (-2)*3; a negative argument
example : @Fl.wraparound ℚ _ _ _ (exactFmt ℚ) (.num 7) (.num (-1)) (.num 2) = .ok (.num 1) := by decide +kernel
example : @Fl.wraparound ℚ _ _ _ (exactFmt ℚ) (.num (-17/2)) (.num (-1)) (.num 2) = .ok (.num (1/2)) := by decide +kernel

/-- C42 is false with rounding: in `double`, `wraparound(1 - 2^-53, 1, 2)` is `2`, which is not in `[1, 2)` (math.hpp:20 documents the
half-open range). -/
theorem C42_violated_double :
    @Fl.wraparound ℚ _ _ _ binary64Fmt (.num (1 - 1/2^53)) (.num 1) (.num 2) = .ok (.num 2) ∧
      @Fl.Representable ℚ _ _ binary64Fmt (.num (1 - 1/2^53)) := by
  constructor
  · decide +kernel
  · change rndBin 53 (-1074) ((2^53 - 1) * 2^971) (1 - 1/2^53) = .num (1 - 1/2^53)
    decide +kernel
end Intervals.Props
