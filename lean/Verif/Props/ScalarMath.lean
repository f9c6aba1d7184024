import Verif.Model.ScalarMath
import Verif.Model.RealLibm
import Verif.Lemmas.Exact
import Verif.Lemmas.BinFmt
import Mathlib.Tactic.FieldSimp
import Mathlib.Tactic.Ring
import Mathlib.Tactic.Linarith
/-!
# C70: weights and blending of plain numbers
-/
set_option linter.unusedSectionVars false
namespace Intervals.Props
open Intervals CppVal Fl

section
variable {K : Type} [Field K] [LinearOrder K] [IsStrictOrderedRing K]

private theorem pre {α : Type} (dbg : Bool) {a b : Fl K} {p q : K} (ha : Is a p) (hb : Is b q) (f : Fl K × Fl K → Outcome α) :
    let := exactFmt K
    (fractionalWeightsS dbg a b >>= f) =
      if dbg = true ∧ ¬ (0 ≤ p ∧ 0 ≤ q ∧ 0 < p + q) then .error .contract else f (Fl.div a (Fl.add a b), Fl.div b (Fl.add a b)) := by
  intro _
  have h1 : ge a (.num 0) = decide (0 ≤ p) := (Is.num 0).le_eq ha
  have h2 : ge b (.num 0) = decide (0 ≤ q) := (Is.num 0).le_eq hb
  have h3 : gt (Fl.add a b) (.num 0) = decide (0 < p + q) := (Is.num 0).lt_eq (ha.add hb)
  simp only [fractionalWeightsS, h1, h2, h3]
  cases dbg
  · simp [expectsDebug, pure, Except.pure]
  · by_cases c1 : 0 ≤ p <;> by_cases c2 : 0 ≤ q <;> by_cases c3 : 0 < p + q <;> simp [c1, c2, c3, expectsDebug, pure, Except.pure]

/-- C70 `fractional_weights` in exact arithmetic: `(a/(a+b), b/(a+b))`, two numbers of [0, 1] whose sum is 1. -/
theorem C70_weights (dbg : Bool) {a b : Fl K} {p q : K} (ha : Is a p) (hb : Is b q) (hp : 0 ≤ p) (hq : 0 ≤ q) (h : 0 < p + q) :
    let := exactFmt K
    ∃ wa wb u v, fractionalWeightsS dbg a b = .ok (wa, wb) ∧ Is wa u ∧ Is wb v ∧ u * (p + q) = p ∧ v * (p + q) = q ∧
      u + v = 1 ∧ 0 ≤ u ∧ 0 ≤ v := by
  intro _
  have e := (pre dbg ha hb pure).trans (if_neg (by tauto))
  refine ⟨_, _, p / (p + q), q / (p + q), (bind_pure _).symm.trans e, ha.div (ha.add hb) h.ne', hb.div (ha.add hb) h.ne', ?_, ?_, ?_, ?_, ?_⟩
  · field_simp
  · field_simp
  · field_simp
  · positivity
  · positivity

/-- C70 `blend_fractions` in exact arithmetic: `f·x + (1-f)·y`, a number between `x` and `y`. -/
theorem C70_blend_fractions (dbg : Bool) {f x y : Fl K} {t k l : K} (hf : Is f t) (hx : Is x k) (hy : Is y l) (h0 : 0 ≤ t) (h1 : t ≤ 1) :
    let := exactFmt K
    ∃ r z, blendFractionsS dbg f x y = .ok r ∧ Is r z ∧ z = t * k + (1 - t) * l ∧ min k l ≤ z ∧ z ≤ max k l := by
  intro _
  have e1 : ge f (.num 0) = true := by rw [show ge f (.num 0) = decide (0 ≤ t) from (Is.num 0).le_eq hf]; simpa using h0
  have e2 : le f (.num 1) = true := by rw [hf.le_eq (Is.num 1)]; simpa using h1
  refine ⟨_, _, by simp [blendFractionsS, e1, e2, pure, Except.pure], (hf.mul hx).add (((Is.num 1).sub hf).mul hy), rfl, ?_, ?_⟩
  · have := min_le_left k l; have := min_le_right k l; nlinarith
  · have := le_max_left k l; have := le_max_right k l; nlinarith

/-- C70 `blend_linear` in exact arithmetic: `(a·x + b·y)/(a + b)`, a number between `x` and `y`. -/
theorem C70_blend_linear (dbg : Bool) {a b x y : Fl K} {p q k l : K} (ha : Is a p) (hb : Is b q) (hx : Is x k) (hy : Is y l) (hp : 0 ≤ p)
    (hq : 0 ≤ q) (h : 0 < p + q) :
    let := exactFmt K
    ∃ r z, blendLinearS dbg a b x y = .ok r ∧ Is r z ∧ z * (p + q) = p * k + q * l ∧ min k l ≤ z ∧ z ≤ max k l := by
  intro _
  have e := (pre dbg ha hb fun w => pure (Fl.add (Fl.mul w.1 x) (Fl.mul w.2 y))).trans (if_neg (by tauto))
  have key : (p / (p + q) * k + q / (p + q) * l) * (p + q) = p * k + q * l := by field_simp
  refine ⟨_, _, e, ((ha.div (ha.add hb) h.ne').mul hx).add ((hb.div (ha.add hb) h.ne').mul hy), key, ?_, ?_⟩
  · refine le_of_mul_le_mul_right ?_ h
    rw [key]
    have := min_le_left k l; have := min_le_right k l; nlinarith
  · refine le_of_mul_le_mul_right ?_ h
    rw [key]
    have := le_max_left k l; have := le_max_right k l; nlinarith

/-- C70: debug builds check the domain. -/
theorem C70_domain [Libm K] {a b : Fl K} (x y : Fl K) {p q : K} (ha : Is a p) (hb : Is b q) (bad : ¬ (0 ≤ p ∧ 0 ≤ q ∧ 0 < p + q)) :
    let := exactFmt K
    fractionalWeightsS true a b = .error .contract ∧ blendLinearS true a b x y = .error .contract ∧
    blendQuadraticS true a b x y = .error .contract := by
  intro _
  have e : ∀ {α : Type} (f : Fl K × Fl K → Outcome α), (fractionalWeightsS true a b >>= f) = .error .contract :=
    fun f => (pre true ha hb f).trans (if_pos ⟨rfl, bad⟩)
  exact ⟨by simpa using e pure, e _, e _⟩
theorem C70_fractions_domain {f x y : Fl K} {t : K} (hf : Is f t) (bad : ¬ (0 ≤ t ∧ t ≤ 1)) :
    let := exactFmt K
    blendFractionsS true f x y = .error .contract := by
  intro _
  have e1 : ge f (.num 0) = decide (0 ≤ t) := (Is.num 0).le_eq hf
  have e2 : le f (.num 1) = decide (t ≤ 1) := hf.le_eq (Is.num 1)
  by_cases c1 : 0 ≤ t <;> by_cases c2 : t ≤ 1 <;> simp_all [blendFractionsS, expectsDebug]
end

/-- C70 `blend_quadratic` in exact real arithmetic: the non-negative number whose square is `((a·x)² + (b·y)²)/(a + b)²`; at most the
larger of `|x|` and `|y|`. -/
theorem C70_blend_quadratic (dbg : Bool) {a b x y : Fl ℝ} {p q k l : ℝ} (ha : Is a p) (hb : Is b q) (hx : Is x k) (hy : Is y l) (hp : 0 ≤ p)
    (hq : 0 ≤ q) (h : 0 < p + q) :
    let := exactFmt ℝ
    ∃ r z, blendQuadraticS dbg a b x y = .ok r ∧ Is r z ∧ 0 ≤ z ∧ (z * (p + q))^2 = (p * k)^2 + (q * l)^2 ∧ z ≤ max |k| |l| := by
  intro _
  have e := (pre dbg ha hb fun w => pure (Libm.sqrt (Fl.add (Fl.mul (Fl.mul w.1 x) (Fl.mul w.1 x)) (Fl.mul (Fl.mul w.2 y) (Fl.mul w.2 y))))).trans
    (if_neg (by tauto))
  have i1 := (ha.div (ha.add hb) h.ne').mul hx
  have i2 := (hb.div (ha.add hb) h.ne').mul hy
  have i := (i1.mul i1).add (i2.mul i2)
  set s := p / (p + q) * k * (p / (p + q) * k) + q / (p + q) * l * (q / (p + q) * l) with hs
  have s0 : 0 ≤ s := add_nonneg (mul_self_nonneg _) (mul_self_nonneg _)
  have key : s * (p + q)^2 = (p * k)^2 + (q * l)^2 := by rw [hs]; field_simp
  refine ⟨_, √s, e, ?_, Real.sqrt_nonneg _, by rw [mul_pow, Real.sq_sqrt s0, key], ?_⟩
  · revert i
    generalize (((a.div (a.add b)).mul x).mul ((a.div (a.add b)).mul x)).add (((b.div (a.add b)).mul y).mul ((b.div (a.add b)).mul y)) = v
    intro i
    cases v <;> simp [Is, isFinite, val] at i
    · rw [← i, Real.sqrt_zero]; exact Is.nzero
    · rw [i]
      simp only [Libm.sqrt, if_neg (not_lt.mpr s0)]
      exact Is.num _
  · have m0 : 0 ≤ max |k| |l| := (abs_nonneg k).trans (le_max_left _ _)
    refine Real.sqrt_le_iff.mpr ⟨m0, ?_⟩
    refine le_of_mul_le_mul_right ?_ (by positivity : 0 < (p + q)^2)
    rw [key]
    have h1 : k^2 ≤ (max |k| |l|)^2 := by rw [← sq_abs k]; exact pow_le_pow_left₀ (abs_nonneg k) (le_max_left _ _) 2
    have h2 : l^2 ≤ (max |k| |l|)^2 := by rw [← sq_abs l]; exact pow_le_pow_left₀ (abs_nonneg l) (le_max_right _ _) 2
    have h3 := mul_le_mul_of_nonneg_left h1 (sq_nonneg p)
    have h4 := mul_le_mul_of_nonneg_left h2 (sq_nonneg q)
    have h5 : 0 ≤ 2 * p * q * (max |k| |l|)^2 := by positivity
    nlinarith

section
variable {K : Type} [Field K] [LinearOrder K] [IsStrictOrderedRing K] [Fmt K]
private theorem weight_mem (one : (Fmt.rnd (1 : K) : Fl K) = .num 1) {p : K} {S : Fl K} (hp : 0 ≤ p) (h1 : le (.num p) S = true)
    (h0 : lt (.num 0) S = true) : le (.num 0) (Fl.div (.num p) S) = true ∧ le (Fl.div (.num p) S) (.num 1) = true := by
  have hb : (if p < 0 then true else false) = false := by rw [if_neg (not_lt.mpr hp)]
  cases S with
  | nan => simp [CppOrder.lt_iff] at h0
  | ninf => simp [CppOrder.lt_iff] at h0
  | nzero => simp [CppOrder.lt_iff] at h0
  | pinf => simp [Fl.div, isNan, isInf, signBit, zeroS, not_lt.mpr hp]
  | num s =>
    rw [(Is.num _).lt_iff (Is.num _)] at h0
    rw [(Is.num _).le_iff (Is.num _)] at h1
    by_cases hz : p = 0
    · subst hz; simp [Fl.div, isNan, isInf, isZero, signBit, zeroS, h0.ne', not_lt.mpr h0.le]
    · have e : Fl.div (.num p) (.num s) = (Fmt.rnd (p / s) : Fl K) := by simp [Fl.div, isNan, isInf, isZero, val, hz, h0.ne']
      rw [e]
      refine ⟨?_, ?_⟩
      · have := Fmt.rnd_mono 0 (p / s) (by positivity)
        rwa [Fmt.rnd_zero] at this
      · have := Fmt.rnd_mono (p / s) 1 ((div_le_one h0).mpr h1)
        rwa [one] at this

/-- C70 in every format in which 1 is a number, also where `a + b` rounds or overflows: weights never leave [0, 1], and the preconditions
hold for non-negative numbers that are not both zero. -/
theorem C70_weights_format (one : (Fmt.rnd (1 : K) : Fl K) = .num 1) (dbg : Bool) {p q : K} (hp : 0 ≤ p) (hq : 0 ≤ q)
    (rp : (Fmt.rnd p : Fl K) = .num p) (rq : (Fmt.rnd q : Fl K) = .num q) (h : 0 < p + q) :
    ∃ wa wb : Fl K, fractionalWeightsS dbg (.num p) (.num q) = .ok (wa, wb) ∧
      le (.num 0) wa = true ∧ le wa (.num 1) = true ∧ le (.num 0) wb = true ∧ le wb (.num 1) = true := by
  have s : Fl.add (.num p) (.num q) = (Fmt.rnd (p + q) : Fl K) := by
    have : ¬ (p = 0 ∧ q = 0) := by rintro ⟨rfl, rfl⟩; simp at h
    simp only [Fl.add, isNan, isInf, isZero, val, Bool.or_self, Bool.false_eq_true, if_false, Bool.and_eq_true, decide_eq_true_eq, this]
  have l1 : le (.num p) (Fmt.rnd (p + q) : Fl K) = true := by rw [← rp]; exact Fmt.rnd_mono _ _ (by linarith)
  have l2 : le (.num q) (Fmt.rnd (p + q) : Fl K) = true := by rw [← rq]; exact Fmt.rnd_mono _ _ (by linarith)
  have l0 : lt (.num 0) (Fmt.rnd (p + q) : Fl K) = true := by
    rcases hp.lt_or_eq with c | c
    · have : lt (.num 0) (.num p : Fl K) = true := ((Is.num _).lt_iff (Is.num _)).mpr c
      grind
    · have : lt (.num 0) (.num q : Fl K) = true := ((Is.num _).lt_iff (Is.num _)).mpr (by linarith)
      grind
  obtain ⟨a1, a2⟩ := weight_mem one hp l1 l0
  obtain ⟨b1, b2⟩ := weight_mem one hq l2 l0
  refine ⟨_, _, ?_, a1, a2, b1, b2⟩
  have e1 : ge (.num p : Fl K) (.num 0) = true := by simpa [ge] using hp
  have e2 : ge (.num q : Fl K) (.num 0) = true := by simpa [ge] using hq
  simp only [fractionalWeightsS, s, e1, e2, show gt (Fmt.rnd (p + q) : Fl K) (.num 0) = true from l0, expectsDebug_true, ok_bind, pure, Except.pure]
end

/-- C70 fails in floating-point arithmetic when the sum of the weights overflows: in binary64 both weights become 0 although the
preconditions hold, and blending 1 with 1 gives 0. -/
theorem C70_overflow :
    let := binary64Fmt
    Representable (.num (2^1023) : Fl ℚ) ∧
    (∀ dbg, fractionalWeightsS dbg (.num (2^1023 : ℚ)) (.num (2^1023)) = .ok (.num 0, .num 0)) ∧
    (∀ dbg, blendLinearS dbg (.num (2^1023 : ℚ)) (.num (2^1023)) (.num 1) (.num 1) = .ok (.num 0)) := by
  refine ⟨by decide +kernel, fun dbg => ?_, fun dbg => ?_⟩ <;> cases dbg <;> decide +kernel

/-- C70 is also not exact without overflow: blending a value with itself can give another value (rounding of the two weights). -/
theorem C70_rounding :
    let := binary64Fmt
    ∃ a b x r : Fl ℚ, Representable a ∧ Representable b ∧ Representable x ∧ blendLinearS true a b x x = .ok r ∧ lt r x = true := by
  refine ⟨.num 1, .num 2, .num 7, .num (7881299347898367/1125899906842624), by decide +kernel, by decide +kernel, by decide +kernel, by decide +kernel, by decide +kernel⟩

/-! Examples: the weights 1 and 3. -/
example : let := exactFmt ℚ
    fractionalWeightsS true (.num (1 : ℚ)) (.num 3) = .ok (.num (1/4), .num (3/4)) ∧
    blendLinearS true (.num (1 : ℚ)) (.num 3) (.num 8) (.num 4) = .ok (.num 5) ∧
    blendFractionsS true (.num (1/4 : ℚ)) (.num 8) (.num 4) = .ok (.num 5) ∧
    blendLinearS true (.num (-1 : ℚ)) (.num 3) (.num 8) (.num 4) = .error .contract ∧
    blendFractionsS true (.num (5/4 : ℚ)) (.num 8) (.num 4) = .error .contract := by
  decide +kernel
example : (let := binary64Fmt; (Fmt.rnd (1 : ℚ) : Fl ℚ) = .num 1 ∧ (Fmt.rnd (1/2 : ℚ) : Fl ℚ) = .num (1/2)) ∧
    (let := binary32Fmt; (Fmt.rnd (1 : ℚ) : Fl ℚ) = .num 1) := by decide +kernel
example : Is (Fl.num (3:ℝ)) 3 ∧ Is (Fl.num (4:ℝ)) 4 := ⟨Is.num 3, Is.num 4⟩
end Intervals.Props
