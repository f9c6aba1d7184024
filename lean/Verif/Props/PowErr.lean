import Verif.Props.TrigFlt
import Verif.Props.PowFlt
import Mathlib.Analysis.SpecialFunctions.Pow.Real
import Mathlib.Analysis.SpecialFunctions.Log.Deriv
import Mathlib.Analysis.Complex.ExponentialBounds
/-!
# C94: pow with rounding
-/
set_option linter.unusedSectionVars false
namespace Intervals.Props
open Intervals CppVal Spec Fl

/-! ## Real analysis -/
section real
open Real
/-- a product lies between the products of the bounds -/
theorem mul_corners {c d p q y l : ℝ} (y1 : c ≤ y) (y2 : y ≤ d) (l1 : p ≤ l) (l2 : l ≤ q) :
    (∃ y' l', (y' = c ∨ y' = d) ∧ (l' = p ∨ l' = q) ∧ y' * l' ≤ y * l) ∧ (∃ y' l', (y' = c ∨ y' = d) ∧ (l' = p ∨ l' = q) ∧ y * l ≤ y' * l') := by
  have lower : ∀ l', ∃ y', (y' = c ∨ y' = d) ∧ y' * l' ≤ y * l' := fun l' => by
    rcases le_total 0 l' with h | h
    · exact ⟨c, .inl rfl, mul_le_mul_of_nonneg_right y1 h⟩
    · exact ⟨d, .inr rfl, mul_le_mul_of_nonpos_right y2 h⟩
  have upper : ∀ l', ∃ y', (y' = c ∨ y' = d) ∧ y * l' ≤ y' * l' := fun l' => by
    rcases le_total 0 l' with h | h
    · exact ⟨d, .inr rfl, mul_le_mul_of_nonneg_right y2 h⟩
    · exact ⟨c, .inl rfl, mul_le_mul_of_nonpos_right y1 h⟩
  constructor
  · rcases le_total 0 y with h | h
    · obtain ⟨y', hy, e⟩ := lower p
      exact ⟨y', p, hy, .inl rfl, e.trans (mul_le_mul_of_nonneg_left l1 h)⟩
    · obtain ⟨y', hy, e⟩ := lower q
      exact ⟨y', q, hy, .inr rfl, e.trans (mul_le_mul_of_nonpos_left l2 h)⟩
  · rcases le_total 0 y with h | h
    · obtain ⟨y', hy, e⟩ := upper q
      exact ⟨y', q, hy, .inr rfl, (mul_le_mul_of_nonneg_left l2 h).trans e⟩
    · obtain ⟨y', hy, e⟩ := upper p
      exact ⟨y', p, hy, .inl rfl, (mul_le_mul_of_nonpos_left l1 h).trans e⟩

/-- a power of points of a box lies between the powers at two corners -/
theorem rpow_between {a b c d x y : ℝ} (a0 : 0 < a) (x1 : a ≤ x) (x2 : x ≤ b) (y1 : c ≤ y) (y2 : y ≤ d) :
    (∃ x' y', (x' = a ∨ x' = b) ∧ (y' = c ∨ y' = d) ∧ x' ^ y' ≤ x ^ y) ∧ (∃ x' y', (x' = a ∨ x' = b) ∧ (y' = c ∨ y' = d) ∧ x ^ y ≤ x' ^ y') := by
  have x0 : 0 < x := by linarith
  have b0 : 0 < b := by linarith
  obtain ⟨⟨y', l', hy, hl, h⟩, ⟨y'', l'', hy', hl', h'⟩⟩ := mul_corners y1 y2 (log_le_log a0 x1) (log_le_log x0 x2)
  have ex : ∀ l, (l = log a ∨ l = log b) → ∃ x, (x = a ∨ x = b) ∧ 0 < x ∧ l = log x := by
    rintro l (rfl | rfl)
    · exact ⟨a, .inl rfl, a0, rfl⟩
    · exact ⟨b, .inr rfl, b0, rfl⟩
  obtain ⟨u, hu, u0, rfl⟩ := ex l' hl
  obtain ⟨v, hv, v0, rfl⟩ := ex l'' hl'
  refine ⟨⟨u, y', hu, hy, ?_⟩, ⟨v, y'', hv, hy', ?_⟩⟩
  · rw [rpow_def_of_pos u0, rpow_def_of_pos x0]; exact exp_le_exp.mpr (by linarith)
  · rw [rpow_def_of_pos v0, rpow_def_of_pos x0]; exact exp_le_exp.mpr (by linarith)

/-- an approximate exponential of an approximate argument -/
theorem exp_near {c z v d δ : ℝ} (d0 : 0 ≤ d) (hδ : δ ≤ 1/2) (hz : |z - v| ≤ δ) (hc : |c - exp z| ≤ d * exp z) :
    |c - exp v| ≤ (2 * d + 2 * δ) * exp v := by
  have h := abs_exp_sub_one_le (x := z - v) (by linarith)
  rw [exp_sub] at h
  have ev := exp_pos v
  have h' : |exp z - exp v| ≤ 2 * δ * exp v := by
    have : exp z - exp v = (exp z / exp v - 1) * exp v := by field_simp
    rw [this, abs_mul, abs_of_pos ev]
    exact mul_le_mul_of_nonneg_right (h.trans (by linarith)) ev.le
  rw [abs_le] at *
  have k : exp z ≤ 2 * exp v := by nlinarith [h'.2]
  have := mul_le_mul_of_nonneg_left k d0
  constructor <;> nlinarith [h'.1, h'.2, hc.1, hc.2]
end real

/-! ## The function -/
/-- the library's logarithm is accurate up to `d (1 + |log k|)` -/
def LogWithin [Libm ℚ] (d : ℚ) : Prop :=
  ∀ (a : Fl ℚ) (k : ℚ), Is a k → 0 < k → ∃ c : ℚ, Is (Libm.log a) c ∧ |(c : ℝ) - Real.log k| ≤ d * (1 + |Real.log k|)
/-- the library's exponential has a relative error of at most `d` for arguments up to `Z` -/
def ExpWithin [Libm ℚ] (Z d : ℚ) : Prop :=
  ∀ (a : Fl ℚ) (k : ℚ), Is a k → |k| ≤ Z → ∃ c : ℚ, Is (Libm.exp a) c ∧ |(c : ℝ) - Real.exp k| ≤ d * Real.exp k

/-- the library's logarithm and exponential are monotone, and accurate up to `d` -/
structure PowLib [Libm ℚ] (Z d : ℚ) : Prop where
  logMono : PowF.LogMono ℚ
  expMono : PowF.ExpMono ℚ
  log : LogWithin d
  exp : ExpWithin Z d

/-- up to the relative error `τ`, the interval `[m, N]` is the range of `x ^ y` for `x` in `[a, b]` and `y` in `[c, d]`: it contains the
powers, and both bounds are powers -/
def PowRange (a b c d m N τ : ℝ) : Prop :=
  (∀ x y, a ≤ x → x ≤ b → c ≤ y → y ≤ d → m ≤ (1 + τ) * x ^ y ∧ (1 - τ) * x ^ y ≤ N) ∧
  (∃ x y, a ≤ x ∧ x ≤ b ∧ c ≤ y ∧ y ≤ d ∧ |m - x ^ y| ≤ τ * x ^ y) ∧
  (∃ x y, a ≤ x ∧ x ≤ b ∧ c ≤ y ∧ y ≤ d ∧ |N - x ^ y| ≤ τ * x ^ y)

theorem PowRange.mono {a b c d m N τ τ' : ℝ} (h : PowRange a b c d m N τ) (a0 : 0 < a) (le : τ ≤ τ') : PowRange a b c d m N τ' := by
  obtain ⟨h1, ⟨x, y, x1, x2, y1, y2, hx⟩, ⟨u, v, u1, u2, v1, v2, hu⟩⟩ := h
  have pos : ∀ x y : ℝ, a ≤ x → 0 ≤ x ^ y := fun x y h => Real.rpow_nonneg (by linarith) y
  have mul : ∀ x y : ℝ, a ≤ x → τ * x ^ y ≤ τ' * x ^ y := fun x y h => mul_le_mul_of_nonneg_right le (pos x y h)
  refine ⟨fun z w z1 z2 w1 w2 => ?_, ⟨x, y, x1, x2, y1, y2, hx.trans (mul x y x1)⟩, ⟨u, v, u1, u2, v1, v2, hu.trans (mul u v u1)⟩⟩
  have := h1 z w z1 z2 w1 w2
  have := mul z w z1
  constructor <;> linarith

section main
variable [Fmt ℚ] [Libm ℚ]

theorem isZero_iff {a : Fl ℚ} {k : ℚ} (h : Is a k) : a.isZero = true ↔ k = 0 := by
  rcases h with ⟨h1, h2⟩
  cases a <;> simp [isFinite, isZero, val] at * <;> simp [← h2]

theorem isA_mem {X : Arg (Fl ℚ)} {k l : ℚ} (h : IsA X k l) {a : Fl ℚ} (ha : a ∈ₐ X) : ∃ x, Is a x ∧ k ≤ x ∧ x ≤ l := by
  obtain ⟨h1, h2⟩ := mem_bounds.mp ha
  exact (show IsI ⟨X.lo, X.hi⟩ k l from h).mem.mp ⟨h1, h2⟩

theorem Is.of_eq {u v : Fl ℚ} {c : ℚ} (h : eq u v = true) (hv : Is v c) : Is u c := by
  rcases hv with ⟨h1, rfl⟩
  cases u <;> cases v <;> simp [CppVal.eq, ext, Is, isFinite, val] at * <;> first | (exact h.elim) | (exact absurd h (by decide)) | simp_all

/-- the power of two numbers, as computed -/
theorem powPt_err {M e d Z : ℚ} (E : AbsErr M e) (L : PowLib Z d) {x y : Fl ℚ} {k l : ℚ} (hx : Is x k) (hy : Is y l) (k0 : 0 < k) {B : ℚ}
    (hB : |(l : ℝ)| * (1 + |Real.log k|) ≤ B) (hM : B * (1 + d) ≤ M) (hZ : B * (1 + d) + e ≤ Z) (hδ : B * d + e ≤ 1/2) :
    ∃ c : ℚ, Is (powPt x y) c ∧ |(c : ℝ) - (k : ℝ) ^ (l : ℝ)| ≤ (2 * d + 2 * (B * d + e)) * (k : ℝ) ^ (l : ℝ) := by
  obtain ⟨g, hg, eg⟩ := L.log x k hx k0
  have k0' : (0:ℝ) < k := by exact_mod_cast k0
  have lg := abs_nonneg (Real.log k)
  have ll := abs_nonneg (l : ℝ)
  have d0 : (0:ℝ) ≤ d := by
    by_contra h
    have := mul_neg_of_neg_of_pos (not_le.mp h) (show 0 < 1 + |Real.log k| by linarith)
    linarith [abs_nonneg ((g:ℝ) - Real.log k)]
  have near : |(l * g : ℝ) - l * Real.log k| ≤ B * d := by
    rw [← mul_sub, abs_mul]
    calc |(l:ℝ)| * |(g:ℝ) - Real.log k| ≤ |(l:ℝ)| * (d * (1 + |Real.log k|)) := mul_le_mul_of_nonneg_left eg ll
      _ = |(l:ℝ)| * (1 + |Real.log k|) * d := by ring
      _ ≤ B * d := mul_le_mul_of_nonneg_right hB d0
  have small : |(l * Real.log k : ℝ)| ≤ B := by
    rw [abs_mul]; nlinarith
  have cast : ∀ {x y : ℚ}, x ≤ y → (x:ℝ) ≤ y := fun h => by exact_mod_cast h
  have hM' := cast hM; have hZ' := cast hZ; have hδ' := cast hδ
  push_cast at hM' hZ' hδ'
  have lgM : |l * g| ≤ M := by
    have : ((|l * g| : ℚ) : ℝ) ≤ M := by
      push_cast
      rw [abs_le] at *
      constructor <;> linarith [near.1, near.2, small.1, small.2]
    exact_mod_cast this
  have e0 : 0 ≤ e := by
    obtain ⟨v, -, hv⟩ := E (l * g) lgM
    exact (abs_nonneg _).trans hv
  obtain ⟨z, hz, ez⟩ : ∃ z, Is (if y.isZero || (Libm.log x).isZero then .num 0 else Fl.mul y (Libm.log x)) z ∧ |z - l * g| ≤ e := by
    by_cases h : l = 0 ∨ g = 0
    · have : (y.isZero || (Libm.log x).isZero) = true := by simpa [isZero_iff hy, isZero_iff hg] using h
      rw [if_pos this]
      refine ⟨0, Is.num 0, ?_⟩
      rw [show l * g = 0 by simpa using h]; simpa using e0
    · have : ¬ (y.isZero || (Libm.log x).isZero) = true := by simpa [isZero_iff hy, isZero_iff hg] using h
      rw [if_neg this]
      exact E.mul hy hg lgM
  have ez' : |(z:ℝ) - l * g| ≤ e := by
    have : ((|z - l * g| : ℚ) : ℝ) ≤ e := cast ez
    push_cast at this; exact this
  have zv : |(z:ℝ) - l * Real.log k| ≤ B * d + e := by
    rw [abs_le] at *
    constructor <;> linarith [near.1, near.2, ez'.1, ez'.2]
  have zZ : |z| ≤ Z := by
    have : ((|z| : ℚ) : ℝ) ≤ Z := by
      push_cast
      rw [abs_le] at *
      constructor <;> linarith [zv.1, zv.2, small.1, small.2]
    exact_mod_cast this
  obtain ⟨c, hc, ec⟩ := L.exp _ z hz zZ
  refine ⟨c, hc, ?_⟩
  rw [Real.rpow_def_of_pos k0', mul_comm (Real.log k)]
  exact exp_near d0 (by linarith) zv ec
end main

/-- C94 as stated: in a format whose rounding error is at most `e` for numbers up to `M`, with a library accurate up to `d`, `pow(X, Y)` of a
positive bounded base and a bounded exponent succeeds and contains every power `x ^ y` that is a number of the format.  The rounding errors
are assumed to be small, `M` and `Z` to exceed the exponents of `e`. -/
def C94_full : Prop :=
  ∀ (_ : Fmt ℚ) (_ : Libm ℚ) (M e d Z : ℚ), AbsErr M e → PowLib Z d →
    ∀ (dbg : Bool) (X Y : Arg (Fl ℚ)), FiniteA X → FiniteA Y → lt (.num 0) X.lo = true →
    ∀ B : ℚ, (∀ x y : ℚ, .num x ∈ₐ X → .num y ∈ₐ Y → |(y : ℝ)| * (1 + |Real.log x|) ≤ B) →
      B * (1 + d) ≤ M → B * (1 + d) + e ≤ Z → 2 * d + 2 * (B * d + e) ≤ 1 →
      ∃ R, powI dbg X Y = .ok R ∧
        ∀ x y z : ℚ, .num x ∈ₐ X → .num y ∈ₐ Y → (z : ℝ) = (x : ℝ) ^ (y : ℝ) → Representable (.num z) → .num z ∈ᵢ R

section main
variable [Fmt ℚ] [Libm ℚ]
/-- C94: in a format whose rounding error is at most `e` for numbers up to `M`, with a monotone logarithm accurate up to `d` and a monotone
exponential accurate up to `d` for arguments up to `Z`, if `|y| (1 + |log x|) ≤ B` for the points: `pow(X, Y)` is the range of `x ^ y`, up to
the relative error `2d + 2(Bd + e)`.  (Missing: containment without this tolerance, which is false, see `C94_violated`.) -/
theorem C94_pow_partial {M e d Z : ℚ} (E : AbsErr M e) (L : PowLib Z d) (dbg : Bool) (X Y : Arg (Fl ℚ)) (hX : FiniteA X) (hY : FiniteA Y)
    (pos : lt (.num 0) X.lo = true) (B : ℚ) (hB : ∀ x y : ℚ, .num x ∈ₐ X → .num y ∈ₐ Y → |(y : ℝ)| * (1 + |Real.log x|) ≤ B)
    (hM : B * (1 + d) ≤ M) (hZ : B * (1 + d) + e ≤ Z) (hδ : 2 * d + 2 * (B * d + e) ≤ 1) :
    ∃ R m N, powI dbg X Y = .ok R ∧ IsI R m N ∧
      PowRange X.lo.val X.hi.val Y.lo.val Y.hi.val m N (2 * d + 2 * (B * d + e)) := by
  have iX := isA_of_finite hX
  have iY := isA_of_finite hY
  have a0 : 0 < X.lo.val := ((Is.num (0:ℚ)).lt_iff (Is.of_finite hX.1)).mp pos
  have pos' : le (.num 0) X.lo = true := ((Is.num (0:ℚ)).le_iff (Is.of_finite hX.1)).mpr a0.le
  have cast : ∀ {x y : ℚ}, x ≤ y → (x:ℝ) ≤ y := fun h => by exact_mod_cast h
  have ab := iX.le hX.2.2
  have cd := iY.le hY.2.2
  have d0 : 0 ≤ d := by
    obtain ⟨c, -, hc⟩ := L.log (.num 1) 1 (Is.num 1) one_pos
    simp only [Rat.cast_one, Real.log_one, abs_zero, add_zero, mul_one] at hc
    exact_mod_cast (abs_nonneg _).trans hc
  have a0' : (0:ℝ) < X.lo.val := by exact_mod_cast a0
  obtain ⟨R, hR, all, ⟨x, y, hx, hy, lo⟩, ⟨x', y', hx', hy', hi⟩⟩ := C41_float_nonneg L.logMono L.expMono dbg X Y hX.2.2 hY.2.2 pos'
  have pt : ∀ {x y}, x ∈ₐ X → y ∈ₐ Y → ∃ k l c : ℚ, X.lo.val ≤ k ∧ k ≤ X.hi.val ∧ Y.lo.val ≤ l ∧ l ≤ Y.hi.val ∧ Is x k ∧ Is y l ∧ Is (powPt x y) c ∧
      |(c : ℝ) - (k : ℝ) ^ (l : ℝ)| ≤ (2 * d + 2 * (B * d + e)) * (k : ℝ) ^ (l : ℝ) := fun {x y} hx hy => by
    obtain ⟨k, ik, k1, k2⟩ := isA_mem iX hx
    obtain ⟨l, il, l1, l2⟩ := isA_mem iY hy
    obtain ⟨c, ic, hc⟩ := powPt_err E L ik il (by linarith) (hB k l (iX.mem_num.mpr ⟨k1, k2⟩) (iY.mem_num.mpr ⟨l1, l2⟩)) hM hZ (by linarith)
    exact ⟨k, l, c, k1, k2, l1, l2, ik, il, ic, hc⟩
  obtain ⟨k, l, m, k1, k2, l1, l2, -, -, im, hm⟩ := pt hx hy
  obtain ⟨k', l', N, k1', k2', l1', l2', -, -, iN, hN⟩ := pt hx' hy'
  have iR : IsI R m N := ⟨Is.of_eq lo im, Is.of_eq hi iN⟩
  refine ⟨R, m, N, hR, iR, ?_, ⟨k, l, cast k1, cast k2, cast l1, cast l2, hm⟩, ⟨k', l', cast k1', cast k2', cast l1', cast l2', hN⟩⟩
  intro u v u1 u2 v1 v2
  have corner : ∀ u v : ℝ, (u = X.lo.val ∨ u = X.hi.val) → (v = Y.lo.val ∨ v = Y.hi.val) →
      ∃ c : ℚ, (m ≤ c ∧ c ≤ N) ∧ |(c : ℝ) - u ^ v| ≤ (2 * d + 2 * (B * d + e)) * u ^ v := by
    intro u v hu hv
    obtain ⟨u', hu', rfl⟩ : ∃ u' : ℚ, .num u' ∈ₐ X ∧ (u' : ℝ) = u := by
      rcases hu with rfl | rfl
      · exact ⟨_, iX.mem_num.mpr ⟨le_refl _, ab⟩, rfl⟩
      · exact ⟨_, iX.mem_num.mpr ⟨ab, le_refl _⟩, rfl⟩
    obtain ⟨v', hv', rfl⟩ : ∃ v' : ℚ, .num v' ∈ₐ Y ∧ (v' : ℝ) = v := by
      rcases hv with rfl | rfl
      · exact ⟨_, iY.mem_num.mpr ⟨le_refl _, cd⟩, rfl⟩
      · exact ⟨_, iY.mem_num.mpr ⟨cd, le_refl _⟩, rfl⟩
    obtain ⟨k, l, c, -, -, -, -, ik, il, ic, hc⟩ := pt hu' hv'
    obtain rfl := ik.unique (Is.num u')
    obtain rfl := il.unique (Is.num v')
    obtain ⟨c', ic', h⟩ := iR.mem.mp (all _ _ hu' hv')
    obtain rfl := ic'.unique ic
    exact ⟨c', h, hc⟩
  obtain ⟨⟨x1, y1, hx1, hy1, h1⟩, ⟨x2, y2, hx2, hy2, h2⟩⟩ := rpow_between a0' u1 u2 v1 v2
  obtain ⟨c1, ⟨m1, -⟩, e1⟩ := corner x1 y1 hx1 hy1
  obtain ⟨c2, ⟨-, n2⟩, e2⟩ := corner x2 y2 hx2 hy2
  have b0 : (0:ℝ) < X.hi.val := a0'.trans_le (cast ab)
  have p1 : 0 < x1 ^ y1 := Real.rpow_pos_of_pos (by rcases hx1 with rfl | rfl <;> assumption) _
  have hδ' : 2 * (d:ℝ) + 2 * (B * d + e) ≤ 1 := by exact_mod_cast hδ
  generalize 2 * (d:ℝ) + 2 * (B * d + e) = τ at *
  have τ0 : 0 ≤ τ := by
    by_contra h
    linarith [abs_nonneg ((c1:ℝ) - x1 ^ y1), mul_neg_of_neg_of_pos (not_le.mp h) p1]
  rw [abs_le] at e1 e2
  have := mul_le_mul_of_nonneg_left h1 (show 0 ≤ 1 + τ by linarith)
  have := mul_le_mul_of_nonneg_left h2 (show 0 ≤ 1 - τ by linarith)
  constructor
  · linarith [cast m1]
  · linarith [cast n2]
end main

/-! ## double and float -/
theorem pow_tol {n q : ℤ} (n0 : 0 ≤ n) :
    2 * (2:ℝ)^(2 - q) + 2 * (2^n * 2^(2 - q) + 2^(n + 1 - q) / 2) ≤ 2^(n + 5 - q) := by
  have a : (2:ℝ)^(n + 1 - q) = 2 * 2^(n - q) := by rw [show n + 1 - q = 1 + (n - q) by ring, zpow_add₀ (by norm_num)]; norm_num
  have b : (2:ℝ)^(n + 5 - q) = 32 * 2^(n - q) := by rw [show n + 5 - q = 5 + (n - q) by ring, zpow_add₀ (by norm_num)]; norm_num
  have c : (2:ℝ)^n * 2^(2 - q) = 4 * 2^(n - q) := by
    rw [← zpow_add₀ (by norm_num), show n + (2 - q) = 2 + (n - q) by ring, zpow_add₀ (by norm_num)]; norm_num
  have d : (2:ℝ)^(2 - q) ≤ 4 * 2^(n - q) := by
    rw [← c]; exact le_mul_of_one_le_left (zpow_pos (by norm_num) _).le (one_le_zpow₀ (by norm_num) n0)
  have pos : (0:ℝ) < 2^(n - q) := zpow_pos (by norm_num) _
  rw [a, b, c]; linarith

/-- C94 for `double`: if `|y| (1 + |log x|) ≤ 2^n` for the points, with `n ≤ 9`, then `pow(X, Y)` is the range of `x ^ y` up to the relative
error `2^(n-48)`. -/
theorem C94_double_partial (_ : Libm ℚ) (L : PowLib 600 (2^(-51 : ℤ))) (n : ℤ) (n1 : 0 ≤ n) (n2 : n ≤ 9)
    (dbg : Bool) (X Y : Arg (Fl ℚ)) (hX : FiniteA X) (hY : FiniteA Y) (pos : lt (.num 0) X.lo = true)
    (hB : ∀ x y : ℚ, .num x ∈ₐ X → .num y ∈ₐ Y → |(y : ℝ)| * (1 + |Real.log x|) ≤ 2^n) :
    let := binary64Fmt
    ∃ R m N, powI dbg X Y = .ok R ∧ IsI R m N ∧ PowRange X.lo.val X.hi.val Y.lo.val Y.hi.val m N (2^(n - 48)) := by
  intro _
  have E := absErr_bin (p := 53) (emin := -1074) (Ω := (2^53 - 1) * 2^971) (by norm_num) (by norm_num) (n + 1) (two_zpow_le_max (by omega)) (by omega)
  have a0' : (0:ℝ) < X.lo.val := by exact_mod_cast ((Is.num (0:ℚ)).lt_iff (Is.of_finite hX.1)).mp pos
  have tol := pow_tol (q := 53) n1
  have top : (2:ℚ)^n ≤ 512 := (zpow_le_zpow_right₀ (by norm_num) n2).trans (by norm_num)
  have p0 : (0:ℚ) < 2^n := zpow_pos (by norm_num) _
  have e1 : (2:ℚ)^(n + 1 - 53) = 2^n * 2^(-52 : ℤ) := by rw [← zpow_add₀ (by norm_num)]; congr 1; ring
  have e2 : (2:ℚ)^(n + 1) = 2^n * 2 := by rw [zpow_add₀ (by norm_num)]; norm_num
  obtain ⟨R, m, N, eR, iR, h⟩ := C94_pow_partial E L dbg X Y hX hY pos (2^n) (by push_cast; exact hB)
    (by rw [e2]; norm_num; linarith) (by rw [e1]; norm_num; linarith) (by rw [e1]; norm_num; linarith)
  refine ⟨R, m, N, eR, iR, h.mono a0' ?_⟩
  push_cast
  rw [show n - 48 = n + 5 - 53 by ring]; exact tol

/-- C94 for `float`: likewise with `n ≤ 6` and `2^(n-19)`. -/
theorem C94_float_partial (_ : Libm ℚ) (L : PowLib 65 (2^(-22 : ℤ))) (n : ℤ) (n1 : 0 ≤ n) (n2 : n ≤ 6)
    (dbg : Bool) (X Y : Arg (Fl ℚ)) (hX : FiniteA X) (hY : FiniteA Y) (pos : lt (.num 0) X.lo = true)
    (hB : ∀ x y : ℚ, .num x ∈ₐ X → .num y ∈ₐ Y → |(y : ℝ)| * (1 + |Real.log x|) ≤ 2^n) :
    let := binary32Fmt
    ∃ R m N, powI dbg X Y = .ok R ∧ IsI R m N ∧ PowRange X.lo.val X.hi.val Y.lo.val Y.hi.val m N (2^(n - 19)) := by
  intro _
  have le_max : ∀ n : ℤ, n ≤ 127 → (2:ℚ)^n ≤ (2^24 - 1) * 2^104 := fun n hn =>
    (zpow_le_zpow_right₀ (by norm_num) hn).trans (by norm_num)
  have E := absErr_bin (p := 24) (emin := -149) (Ω := (2^24 - 1) * 2^104) (by norm_num) (by norm_num) (n + 1) (le_max _ (by omega)) (by omega)
  have a0' : (0:ℝ) < X.lo.val := by exact_mod_cast ((Is.num (0:ℚ)).lt_iff (Is.of_finite hX.1)).mp pos
  have tol := pow_tol (q := 24) n1
  have top : (2:ℚ)^n ≤ 64 := (zpow_le_zpow_right₀ (by norm_num) n2).trans (by norm_num)
  have p0 : (0:ℚ) < 2^n := zpow_pos (by norm_num) _
  have e1 : (2:ℚ)^(n + 1 - 24) = 2^n * 2^(-23 : ℤ) := by rw [← zpow_add₀ (by norm_num)]; congr 1; ring
  have e2 : (2:ℚ)^(n + 1) = 2^n * 2 := by rw [zpow_add₀ (by norm_num)]; norm_num
  obtain ⟨R, m, N, eR, iR, h⟩ := C94_pow_partial E L dbg X Y hX hY pos (2^n) (by push_cast; exact hB)
    (by rw [e2]; norm_num; linarith) (by rw [e1]; norm_num; linarith) (by rw [e1]; norm_num; linarith)
  refine ⟨R, m, N, eR, iR, h.mono a0' ?_⟩
  push_cast
  rw [show n - 19 = n + 5 - 24 by ring]; exact tol

/-! ## Libraries that meet the hypotheses -/
/-- a logarithm that is `lg` for positive numbers -/
def logOf (lg : ℚ → ℚ) : Fl ℚ → Fl ℚ
  | .num k => if 0 < k then .num (lg k) else if k = 0 then .ninf else .nan
  | .nzero => .ninf
  | .pinf => .pinf
  | _ => .nan
/-- an exponential that is `ex` for numbers -/
def expOf (ex : ℚ → ℚ) : Fl ℚ → Fl ℚ
  | .num k => .num (ex k)
  | .nzero => .num (ex 0)
  | .pinf => .pinf
  | .ninf => .num 0
  | .nan => .nan

theorem logOf_mono {lg : ℚ → ℚ} (h : ∀ {k l : ℚ}, 0 < k → k ≤ l → lg k ≤ lg l) (a b : Fl ℚ) (ha : le (.num 0) a = true) (hb : le (.num 0) b = true)
    (hab : le a b = true) : le (logOf lg a) (logOf lg b) = true := by
  cases a <;> cases b <;> simp [logOf] at * <;> (try split_ifs) <;> (try simp) <;> first | exact h ‹_› ‹_› | (exfalso; grind)
theorem expOf_mono {ex : ℚ → ℚ} (h : ∀ {k l : ℚ}, k ≤ l → ex k ≤ ex l) (h0 : ∀ k, 0 ≤ ex k) (a b : Fl ℚ)
    (hab : le a b = true) : le (expOf ex a) (expOf ex b) = true := by
  cases a <;> cases b <;> simp [expOf] at * <;> first | exact h ‹_› | exact h0 _

/-- There is a library with a monotone logarithm accurate up to `2^-N`, and a monotone exponential as accurate as we like. -/
theorem exists_powLib (N : ℕ) (Z d : ℚ) (hd : 0 < d) :
    ∃ _ : Libm ℚ, PowF.LogMono ℚ ∧ PowF.ExpMono ℚ ∧ LogWithin (2^(-N : ℤ)) ∧ ExpWithin Z d := by
  have hd' : (0:ℝ) < d := by exact_mod_cast hd
  obtain ⟨M, hM⟩ := exists_nat_gt (1 / (d * Real.exp (-Z)))
  have M0 : (0:ℝ) < M := lt_trans (by have := Real.exp_pos (-(Z:ℝ)); positivity) hM
  let lg : ℚ → ℚ := fun k => ⌊2^N * Real.log k⌋ / 2^N
  let ex : ℚ → ℚ := fun k => ⌊M * Real.exp k⌋ / M
  have M0' : (0:ℚ) < M := by exact_mod_cast M0
  let inst : Libm ℚ := ⟨id, id, logOf lg, expOf ex, id, id, id, id, id, fun a _ => a, .num 3⟩
  have lgm : ∀ {k l : ℚ}, 0 < k → k ≤ l → lg k ≤ lg l := fun {k l} hk h => by
    have h1 : (0:ℝ) < k := by exact_mod_cast hk
    have h2 : (k:ℝ) ≤ l := by exact_mod_cast h
    have : ⌊2^N * Real.log k⌋ ≤ ⌊2^N * Real.log l⌋ :=
      Int.floor_le_floor (mul_le_mul_of_nonneg_left (Real.log_le_log h1 h2) (by positivity))
    exact div_le_div_of_nonneg_right (by exact_mod_cast this) (by positivity)
  have exm : ∀ {k l : ℚ}, k ≤ l → ex k ≤ ex l := fun {k l} h => by
    have h2 : (k:ℝ) ≤ l := by exact_mod_cast h
    have : ⌊M * Real.exp k⌋ ≤ ⌊M * Real.exp l⌋ :=
      Int.floor_le_floor (mul_le_mul_of_nonneg_left (Real.exp_le_exp.mpr h2) M0.le)
    exact div_le_div_of_nonneg_right (by exact_mod_cast this) M0'.le
  have ex0 : ∀ k, 0 ≤ ex k := fun k => by
    have : 0 ≤ ⌊M * Real.exp k⌋ := Int.floor_nonneg.mpr (by positivity)
    exact div_nonneg (by exact_mod_cast this) M0'.le
  refine ⟨inst, logOf_mono lgm, expOf_mono exm ex0, ?_, ?_⟩
  · intro a k ha hk
    refine ⟨lg k, ?_, ?_⟩
    · obtain ⟨h1, rfl⟩ := ha
      cases a <;> simp [val, isFinite] at h1 hk ⊢
      show Is (if _ then _ else _) _
      rw [if_pos hk]; exact Is.num _
    · have h1 := Int.floor_le (2^N * Real.log k)
      have h2 := Int.lt_floor_add_one (2^N * Real.log k)
      have p : (0:ℝ) < 2^N := by positivity
      have : ((lg k : ℚ) : ℝ) = ⌊2^N * Real.log k⌋ / 2^N := by simp [lg]
      rw [this]
      push_cast
      rw [zpow_neg, zpow_natCast]
      have e : ((⌊2^N * Real.log k⌋ : ℝ) / 2^N - Real.log k) = (⌊2^N * Real.log k⌋ - 2^N * Real.log k) * (2^N)⁻¹ := by field_simp
      have q : (0:ℝ) < (2^N)⁻¹ := by positivity
      rw [e, abs_mul, abs_of_pos q, mul_comm]
      refine mul_le_mul_of_nonneg_left ?_ q.le
      have := abs_nonneg (Real.log k)
      rw [abs_le]; constructor <;> linarith
  · intro a k ha hk
    refine ⟨ex k, ?_, ?_⟩
    · obtain ⟨h1, rfl⟩ := ha
      cases a <;> simp [val, isFinite] at h1 ⊢ <;> exact Is.num _
    · have h1 := Int.floor_le (M * Real.exp k)
      have h2 := Int.lt_floor_add_one (M * Real.exp k)
      have : ((ex k : ℚ) : ℝ) = ⌊M * Real.exp k⌋ / M := by simp [ex]
      rw [this]
      have hk' : -(Z:ℝ) ≤ k := by
        have := (abs_le.mp hk).1
        exact_mod_cast this
      have l := Real.exp_le_exp.mpr hk'
      have ep := Real.exp_pos (-(Z:ℝ))
      rw [div_lt_iff₀ (by positivity)] at hM
      have e : ((⌊M * Real.exp k⌋ : ℝ) / M - Real.exp k) = (⌊M * Real.exp k⌋ - M * Real.exp k) / M := by field_simp
      rw [e, abs_div, abs_of_pos M0, div_le_iff₀ M0]
      have : 1 ≤ d * Real.exp k * M := by nlinarith [mul_le_mul_of_nonneg_left l (mul_pos M0 hd').le]
      rw [abs_le]; constructor <;> linarith

/-! ## Violations -/
theorem rndU_mult {p emin j : ℤ} {t : ℚ} (h1 : 2^j ≤ t) (h2 : t < 2^(j+1)) (he : emin ≤ j - (p - 1)) :
    ∃ i : ℤ, rndU p emin t = i * 2^(j - (p - 1)) := by
  have t0 : 0 < t := lt_of_lt_of_le (zpow_pos (by norm_num) _) h1
  have hl : Int.log 2 |t| = j := by
    rw [abs_of_pos t0]
    have a : j ≤ Int.log 2 t := (Int.zpow_le_iff_le_log (b := 2) (by norm_num) t0).mp (by exact_mod_cast h1)
    have b : Int.log 2 t < j + 1 := (Int.lt_zpow_iff_log_lt (b := 2) (by norm_num) t0).mp (by exact_mod_cast h2)
    omega
  have : ulpExp p emin t = j - (p - 1) := by unfold ulpExp; rw [hl]; omega
  exact ⟨roundNE (t / 2^(j - (p - 1))), by unfold rndU; rw [this]⟩

theorem is_rndBin {p emin : ℤ} {Ω k v : ℚ} (h : Is (rndBin p emin Ω k) v) : v = rndU p emin k := by
  unfold rndBin at h
  split_ifs at h with a b c d
  · exact absurd h.1 (by simp [isFinite])
  · exact absurd h.1 (by simp [isFinite])
  · rw [c]; exact h.unique Is.nzero
  · rw [c]; exact h.unique (Is.num 0)
  · exact h.unique (Is.num _)

theorem log_two_near : |Real.log 2 - 0.693147180559945309417| ≤ 1 / 10^18 := by
  have t : |(2⁻¹ : ℝ)| = 2⁻¹ := by rw [abs_of_pos]; norm_num
  have z := Real.abs_log_sub_add_sum_range_le (show |(2⁻¹ : ℝ)| < 1 by rw [t]; norm_num) 62
  rw [t, show (1:ℝ) - 2⁻¹ = 2⁻¹ by norm_num, Real.log_inv] at z
  norm_num [Finset.sum_range_succ, abs_le] at z ⊢
  constructor <;> linarith [z.1, z.2]

theorem log_ten_near : |Real.log 10 - 2.302585092994045684018| ≤ 1 / 10^17 := by
  have t : |(5⁻¹ : ℝ)| = 5⁻¹ := by rw [abs_of_pos]; norm_num
  have z := Real.abs_log_sub_add_sum_range_le (show |(5⁻¹ : ℝ)| < 1 by rw [t]; norm_num) 27
  have e : Real.log (1 - 5⁻¹) = 3 * Real.log 2 - Real.log 10 := by
    rw [show (3:ℝ) * Real.log 2 = Real.log (2^3) by rw [Real.log_pow]; norm_num, ← Real.log_div (by norm_num) (by norm_num)]
    norm_num
  have l2 := log_two_near
  rw [t, e] at z
  norm_num [Finset.sum_range_succ, abs_le] at z l2 ⊢
  constructor <;> linarith [z.1, z.2]

/-- an exponential with relative error `d` of an argument that is off by at least `s` is off by almost `s - d` -/
theorem exp_off {c z v d s : ℝ} (s0 : 0 ≤ s) (d0 : 0 ≤ d) (d1 : d ≤ 1) (s1 : s ≤ 1) (hz : s ≤ |z - v|) (hc : |c - Real.exp z| ≤ d * Real.exp z) :
    (s - d - s * d - s^2) * Real.exp v ≤ |c - Real.exp v| := by
  have ev := Real.exp_pos v
  have ez := Real.exp_pos z
  have e : Real.exp z = Real.exp (z - v) * Real.exp v := by rw [← Real.exp_add]; congr 1; ring
  rw [abs_le] at hc
  rcases le_abs.mp hz with h | h
  · have := Real.add_one_le_exp (z - v)
    have k : (1 + s) * Real.exp v ≤ Real.exp z := by rw [e]; exact mul_le_mul_of_nonneg_right (by linarith) ev.le
    refine le_trans ?_ (le_abs_self _)
    nlinarith [mul_le_mul_of_nonneg_left k (show 0 ≤ 1 - d by linarith), mul_nonneg (sq_nonneg s) ev.le]
  · have h1 := Real.add_one_le_exp (v - z)
    have k : (1 + s) * Real.exp z ≤ Real.exp v := by
      have e' : Real.exp v = Real.exp (v - z) * Real.exp z := by rw [← Real.exp_add]; congr 1; ring
      rw [e']; exact mul_le_mul_of_nonneg_right (by linarith) ez.le
    have k2 : Real.exp z ≤ (1 - s + s^2) * Real.exp v := by
      nlinarith [mul_le_mul_of_nonneg_left k (show 0 ≤ 1 - s + s^2 by nlinarith [sq_nonneg (s - 1)]), mul_nonneg (pow_nonneg s0 3) ez.le]
    refine le_trans ?_ (neg_le_abs _)
    have m := mul_le_mul_of_nonneg_left k2 (show 0 ≤ 1 + d by linarith)
    nlinarith [mul_nonneg (mul_nonneg d0 s0) (mul_nonneg (show 0 ≤ 2 - s by linarith) ev.le)]

section viol
variable [Libm ℚ]
/-- `pow` of two single numbers is a single number: the power as computed -/
theorem pow_single [Fmt ℚ] (hl : PowF.LogMono ℚ) (he : PowF.ExpMono ℚ) (dbg : Bool) (x y : ℚ) (x0 : 0 < x) (y0 : y ≠ 0) {c : ℚ}
    (hc : Is (powPt (.num x) (.num y)) c) : ∃ R, powI dbg (.ivl ⟨.num x, .num x⟩) (.ivl ⟨.num y, .num y⟩) = .ok R ∧ IsI R c c := by
  have one : ∀ {z : ℚ} {a : Fl ℚ}, z ≠ 0 → a ∈ₐ Arg.ivl ⟨.num z, .num z⟩ → a = .num z := fun {z a} h ha => by
    obtain ⟨h1, h2⟩ := mem_bounds.mp ha
    cases a <;> simp [Arg.lo, Arg.hi] at h1 h2
    · exact absurd (le_antisymm h1 h2) h
    · rw [le_antisymm h2 h1]
  obtain ⟨R, hR, -, ⟨x1, y1, hx1, hy1, lo⟩, ⟨x2, y2, hx2, hy2, hi⟩⟩ := C41_float_nonneg hl he dbg (.ivl ⟨.num x, .num x⟩) (.ivl ⟨.num y, .num y⟩)
    (show le _ _ = true from ((Is.num x).le_iff (Is.num x)).mpr le_rfl) (show le _ _ = true from ((Is.num y).le_iff (Is.num y)).mpr le_rfl)
    (((Is.num 0).le_iff (Is.num x)).mpr x0.le)
  rw [one x0.ne' hx1, one y0 hy1] at lo
  rw [one x0.ne' hx2, one y0 hy2] at hi
  exact ⟨R, hR, Is.of_eq lo hc, Is.of_eq hi hc⟩
end viol

/-- If the product `n log b` lies in the middle between two adjacent numbers of `double` (at least `f` units in the last place from both), then
the computed power differs from `b ^ n` by almost `f` units. -/
theorem pow_off [Libm ℚ] (hl : PowF.LogMono ℚ) (he : PowF.ExpMono ℚ) {d : ℚ} (log : LogWithin (1/1000)) (exp : ExpWithin 600 d) (dbg : Bool) (d1 : d ≤ 1)
    {b n l1 l2 f : ℚ} (j i0 : ℤ) (b0 : 0 < b) (n0 : 0 < n) (j0 : 0 ≤ j) (j9 : j ≤ 8) (f0 : 0 ≤ f) (f1 : f ≤ 1)
    (hl1 : (l1:ℝ) ≤ Real.log b) (hl2 : Real.log b ≤ l2) (l0 : 0 ≤ l1) (h1 : 2^j ≤ n * (l1 - 1/1000 * (1 + l2))) (h2 : n * (l2 + 1/1000 * (1 + l2)) < 2^(j+1))
    (i1 : (i0 + f) * 2^(j - 52) ≤ n * l1) (i2 : n * l2 ≤ (i0 + 1 - f) * 2^(j - 52)) :
    let := binary64Fmt
    ∃ R c, powI dbg (.ivl ⟨.num b, .num b⟩) (.ivl ⟨.num n, .num n⟩) = .ok R ∧ IsI R c c ∧
      (f * 2^(j - 52) - d - f * 2^(j - 52) * d - (f * 2^(j - 52))^2) * (b:ℝ)^(n:ℝ) ≤ |(c:ℝ) - (b:ℝ)^(n:ℝ)| := by
  intro _
  obtain ⟨g, hg, eg⟩ := log (.num b) b (Is.num b) b0
  have cast : ∀ {x y : ℚ}, (x:ℝ) ≤ y → x ≤ y := fun h => by exact_mod_cast h
  have cast' : ∀ {x y : ℚ}, x ≤ y → (x:ℝ) ≤ y := fun h => by exact_mod_cast h
  have l0' := cast' l0
  push_cast at l0'
  rw [abs_of_nonneg (a := Real.log b) (by linarith), abs_le] at eg
  push_cast at eg
  have g1 : l1 - 1/1000 * (1 + l2) ≤ g := cast (by push_cast; linarith)
  have g2 : g ≤ l2 + 1/1000 * (1 + l2) := cast (by push_cast; linarith)
  have t1 : 2^j ≤ n * g := h1.trans (mul_le_mul_of_nonneg_left g1 n0.le)
  have t2 : n * g < 2^(j+1) := lt_of_le_of_lt (mul_le_mul_of_nonneg_left g2 n0.le) h2
  have t0 : 0 < n * g := lt_of_lt_of_le (zpow_pos (by norm_num) _) t1
  have top : (2:ℚ)^(j+1) ≤ 512 := (zpow_le_zpow_right₀ (by norm_num) (show j + 1 ≤ 9 by omega)).trans (by norm_num)
  have E := absErr_bin (p := 53) (emin := -1074) (Ω := (2^53 - 1) * 2^971) (by norm_num) (by norm_num) 9 (two_zpow_le_max (by omega)) (by norm_num)
  obtain ⟨z, hz', ez⟩ := E (n * g) (by rw [abs_of_pos t0]; norm_num; linarith)
  have hz : Is (Fl.mul (.num n) (Libm.log (.num b))) z := is_of_ext (by rw [Fl.ext_mul rfl hg.1, hg.2]; rfl) hz'
  obtain ⟨i, hi⟩ : ∃ i : ℤ, z = i * 2^(j - 52) := by
    rw [is_rndBin hz']
    exact rndU_mult t1 t2 (by omega)
  have ulp : (0:ℝ) < 2^(j - 52) := zpow_pos (by norm_num) _
  have n0' : (0:ℝ) < n := by exact_mod_cast n0
  have k1 := cast' i1; have k2 := cast' i2
  push_cast at k1 k2
  have m1 := mul_le_mul_of_nonneg_left hl1 n0'.le
  have m2 := mul_le_mul_of_nonneg_left hl2 n0'.le
  have off : (f:ℝ) * 2^(j - 52) ≤ |(z:ℝ) - n * Real.log b| := by
    rw [hi]; push_cast
    rcases le_or_gt i i0 with h | h
    · have : (i:ℝ) ≤ i0 := by exact_mod_cast h
      refine le_trans ?_ (neg_le_abs _)
      nlinarith [mul_le_mul_of_nonneg_right this ulp.le]
    · have : (i0:ℝ) + 1 ≤ i := by exact_mod_cast h
      refine le_trans ?_ (le_abs_self _)
      nlinarith [mul_le_mul_of_nonneg_right this ulp.le]
  have zero : ¬ ((.num n : Fl ℚ).isZero || (Libm.log (.num b : Fl ℚ)).isZero) = true := by
    rw [Bool.or_eq_true, isZero_iff (Is.num n), isZero_iff hg]
    rintro (h | h) <;> simp [h] at t0
  rw [abs_le] at ez
  norm_num at ez
  obtain ⟨c, hc, ec⟩ := exp _ z hz (abs_le.mpr ⟨by linarith [ez.1, ez.2], by linarith [ez.1, ez.2]⟩)
  have d0 : (0:ℝ) ≤ d := by
    by_contra h
    linarith [abs_nonneg ((c:ℝ) - Real.exp z), mul_neg_of_neg_of_pos (not_le.mp h) (Real.exp_pos z)]
  have hc' : Is (powPt (.num b) (.num n)) c := by unfold powPt; rw [if_neg zero]; exact hc
  obtain ⟨R, hR, iR⟩ := pow_single hl he dbg b n b0 n0.ne' hc'
  refine ⟨R, c, hR, iR, ?_⟩
  rw [Real.rpow_def_of_pos (by exact_mod_cast b0), mul_comm (Real.log b)]
  have f0' := cast' f0; have f1' := cast' f1
  push_cast at f0' f1'
  have u1 : (2:ℝ)^(j - 52) ≤ 1 := zpow_le_one_of_nonpos₀ (by norm_num) (by omega)
  exact exp_off (by positivity) d0 (by exact_mod_cast d1) (by nlinarith) off ec

/-- C94 is false without a tolerance: in `double`, with every library whose logarithm is accurate up to `(1 + |log|)/1000` and whose
exponential has a relative error of at most `2^-50`, `pow([2,2],[221,221])` is a single number that differs from `2^221`, a number of the
format, by more than `2^-47 * 2^221`: the product `221 log 2` cannot be represented accurately enough. -/
theorem C94_violated (_ : Libm ℚ) (hl : PowF.LogMono ℚ) (he : PowF.ExpMono ℚ) (log : LogWithin (1/1000)) (exp : ExpWithin 600 (2^(-50 : ℤ))) (dbg : Bool) :
    let := binary64Fmt
    ∃ (R : Ivl (Fl ℚ)) (c : ℚ), powI dbg (.ivl ⟨.num 2, .num 2⟩) (.ivl ⟨.num 221, .num 221⟩) = .ok R ∧ IsI R c c ∧ (2:ℝ)^(-47 : ℤ) * 2^221 < |(c:ℝ) - 2^221| ∧
      Representable (.num (2^221 : ℚ)) ∧ ¬ .num ((2:ℚ)^221) ∈ᵢ R := by
  intro _
  have l := abs_le.mp log_two_near
  obtain ⟨R, c, hR, iR, h⟩ := pow_off hl he log exp dbg (by norm_num) (b := 2) (n := 221) (l1 := 0.693147180559945309417 - 1/10^18) (l2 := 0.693147180559945309417 + 1/10^18)
    (f := 48/100) 7 5389736577205251 (by norm_num) (by norm_num) (by norm_num) (by norm_num) (by norm_num) (by norm_num)
    (by push_cast; linarith [l.1]) (by push_cast; linarith [l.2]) (by norm_num) (by norm_num) (by norm_num) (by norm_num) (by norm_num)
  have pw : ((2:ℚ):ℝ)^((221:ℚ):ℝ) = 2^221 := by push_cast; norm_num
  rw [pw] at h
  have far : (2:ℝ)^(-47 : ℤ) * 2^221 < |(c:ℝ) - 2^221| := lt_of_lt_of_le (by norm_num) h
  refine ⟨R, c, hR, iR, far, by decide +kernel, fun h => ?_⟩
  obtain ⟨h1, h2⟩ := iR.mem_num.mp h
  rw [le_antisymm h1 h2] at far
  norm_num at far

/-- Nor is a square of a small number contained: in `double`, with every such library whose exponential has a relative error of at most `2^-52`,
`pow([10,10],[2,2])` does not contain 100. -/
theorem C94_violated_square (_ : Libm ℚ) (hl : PowF.LogMono ℚ) (he : PowF.ExpMono ℚ) (log : LogWithin (1/1000)) (exp : ExpWithin 600 (2^(-52 : ℤ))) (dbg : Bool) :
    let := binary64Fmt
    ∃ R : Ivl (Fl ℚ), powI dbg (.ivl ⟨.num 10, .num 10⟩) (.ivl ⟨.num 2, .num 2⟩) = .ok R ∧ ¬ .num 100 ∈ᵢ R := by
  intro _
  have l := abs_le.mp log_ten_near
  obtain ⟨R, c, hR, iR, h⟩ := pow_off hl he log exp dbg (by norm_num) (b := 10) (n := 2) (l1 := 2.302585092994045684018 - 1/10^17) (l2 := 2.302585092994045684018 + 1/10^17)
    (f := 45/100) 2 5184960683398421 (by norm_num) (by norm_num) (by norm_num) (by norm_num) (by norm_num) (by norm_num)
    (by push_cast; linarith [l.1]) (by push_cast; linarith [l.2]) (by norm_num) (by norm_num) (by norm_num) (by norm_num) (by norm_num)
  have pw : ((10:ℚ):ℝ)^((2:ℚ):ℝ) = 100 := by push_cast; norm_num
  rw [pw] at h
  have far : (0:ℝ) < |(c:ℝ) - 100| := lt_of_lt_of_le (by norm_num) h
  refine ⟨R, hR, fun h => ?_⟩
  obtain ⟨h1, h2⟩ := iR.mem_num.mp h
  rw [le_antisymm h1 h2] at far
  norm_num at far

/-- C94 as stated is false. -/
theorem C94_not_full : ¬ C94_full := by
  intro F
  obtain ⟨L, hl, he, log, exp⟩ := exists_powLib 51 600 (2^(-51 : ℤ)) (by norm_num)
  have log' : LogWithin (1/1000) := fun a k h h0 => by
    obtain ⟨c, i, f⟩ := log a k h h0
    refine ⟨c, i, f.trans (mul_le_mul_of_nonneg_right ?_ (by positivity))⟩
    push_cast; norm_num
  have exp' : ExpWithin 600 (2^(-50 : ℤ)) := fun a k h h0 => by
    obtain ⟨c, i, f⟩ := exp a k h h0
    refine ⟨c, i, f.trans (mul_le_mul_of_nonneg_right ?_ (by positivity))⟩
    push_cast; norm_num
  obtain ⟨R, c, eR, -, -, rep, not⟩ := C94_violated L hl he log' exp' true
  let _ := binary64Fmt
  have E := absErr_bin (p := 53) (emin := -1074) (Ω := (2^53 - 1) * 2^971) (by norm_num) (by norm_num) 10 (two_zpow_le_max (by omega)) (by norm_num)
  have i2 : IsA (.ivl (⟨.num 2, .num 2⟩ : Ivl (Fl ℚ))) 2 2 := ⟨Is.num _, Is.num _⟩
  have i221 : IsA (.ivl (⟨.num 221, .num 221⟩ : Ivl (Fl ℚ))) 221 221 := ⟨Is.num _, Is.num _⟩
  have l := abs_le.mp log_two_near
  norm_num at l
  obtain ⟨R', eR', h⟩ := F _ L _ _ _ _ E ⟨hl, he, log, exp⟩ true (.ivl ⟨.num 2, .num 2⟩) (.ivl ⟨.num 221, .num 221⟩)
    ⟨rfl, rfl, (i2.1.le_iff i2.2).mpr le_rfl⟩ ⟨rfl, rfl, (i221.1.le_iff i221.2).mpr le_rfl⟩ (((Is.num 0).lt_iff i2.1).mpr (by norm_num)) 400
    (fun x y hx hy => by
      obtain ⟨a, b⟩ := i2.mem_num.mp hx
      obtain ⟨c, d⟩ := i221.mem_num.mp hy
      rw [le_antisymm b a, le_antisymm d c]
      push_cast
      rw [abs_of_nonneg (by norm_num), abs_of_nonneg (a := Real.log 2) (by linarith)]
      linarith) (by norm_num) (by norm_num) (by norm_num)
  rw [eR] at eR'; cases eR'
  exact not (h 2 221 (2^221) (i2.mem_num.mpr ⟨le_rfl, le_rfl⟩) (i221.mem_num.mpr ⟨le_rfl, le_rfl⟩) (by push_cast; norm_num) rep)

/-! Examples: `[1, 2] ^ [-3, 5/2]` meets the hypotheses with `n = 3`, and so do accurate libraries. -/
example : ∃ _ : Libm ℚ, PowLib 600 (2^(-51 : ℤ)) := by
  obtain ⟨L, hl, he, log, exp⟩ := exists_powLib 51 600 (2^(-51 : ℤ)) (by norm_num)
  exact ⟨L, hl, he, log, exp⟩
example : ∃ _ : Libm ℚ, PowLib 65 (2^(-22 : ℤ)) := by
  obtain ⟨L, hl, he, log, exp⟩ := exists_powLib 22 65 (2^(-22 : ℤ)) (by norm_num)
  exact ⟨L, hl, he, log, exp⟩
example : FiniteA (.ivl (⟨.num 1, .num 2⟩ : Ivl (Fl ℚ))) ∧ FiniteA (.ivl (⟨.num (-3), .num (5/2)⟩ : Ivl (Fl ℚ))) ∧ lt (Fl.num (0:ℚ)) (Fl.num 1) = true ∧
    ∀ x y : ℚ, Fl.num x ∈ₐ .ivl ⟨.num (1:ℚ), .num 2⟩ → Fl.num y ∈ₐ .ivl ⟨.num (-3:ℚ), .num (5/2)⟩ → |(y : ℝ)| * (1 + |Real.log x|) ≤ 2^(3:ℤ) := by
  have i1 : IsA (.ivl (⟨.num 1, .num 2⟩ : Ivl (Fl ℚ))) 1 2 := ⟨Is.num _, Is.num _⟩
  have i2 : IsA (.ivl (⟨.num (-3), .num (5/2)⟩ : Ivl (Fl ℚ))) (-3) (5/2) := ⟨Is.num _, Is.num _⟩
  refine ⟨⟨rfl, rfl, (i1.1.le_iff i1.2).mpr (by norm_num)⟩, ⟨rfl, rfl, (i2.1.le_iff i2.2).mpr (by norm_num)⟩, ((Is.num 0).lt_iff i1.1).mpr (by norm_num), ?_⟩
  intro x y hx hy
  obtain ⟨a, b⟩ := i1.mem_num.mp hx
  obtain ⟨c, d⟩ := i2.mem_num.mp hy
  have cast : ∀ {x y : ℚ}, x ≤ y → (x:ℝ) ≤ y := fun h => by exact_mod_cast h
  have a := cast a; have b := cast b; have c := cast c; have d := cast d
  push_cast at a b c d
  have l := abs_le.mp log_two_near
  norm_num at l
  have u := Real.log_le_log (by linarith) b
  have v := Real.log_nonneg a
  have y3 : |(y:ℝ)| ≤ 3 := abs_le.mpr ⟨by linarith, by linarith⟩
  rw [abs_of_nonneg v]
  calc |(y:ℝ)| * (1 + Real.log x) ≤ 3 * 2 := mul_le_mul y3 (by linarith) (by linarith) (by norm_num)
    _ ≤ _ := by norm_num
end Intervals.Props
