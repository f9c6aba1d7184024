import Verif.Props.TrigFlt
import Verif.Props.Trig
import Verif.Props.NanElem
import Mathlib.Analysis.SpecialFunctions.Trigonometric.ArctanDeriv
/-!
# C93: tan with rounding
-/
set_option linter.unusedSectionVars false
namespace Intervals.Props
open Intervals CppVal Spec Fl

/-! ## Real analysis -/
section real
open Real
/-- an interval of width `π` contains a pole of the tangent -/
theorem exists_pole (s : ℝ) : ∃ z, s ≤ z ∧ z ≤ s + π ∧ cos z = 0 := by
  have hp := pi_pos
  have h1 := Int.le_ceil ((s - π/2) / π)
  have h2 := (Int.ceil_lt_add_one ((s - π/2) / π)).le
  have e : (s - π/2) / π * π = s - π/2 := div_mul_cancel₀ _ hp.ne'
  refine ⟨π/2 + ⌈(s - π/2) / π⌉ * π, ?_, ?_, (cos_add_int_pi).mpr cos_pi_div_two⟩
  · nlinarith [mul_le_mul_of_nonneg_right h1 hp.le]
  · nlinarith [mul_le_mul_of_nonneg_right h2 hp.le]

/-- on an interval without poles on which the tangent is at most `T`, the tangent increases, with slope at most `1 + T²` -/
theorem tan_slope {s t T u v : ℝ} (h : ∀ x, s ≤ x → x ≤ t → cos x ≠ 0 ∧ |tan x| ≤ T) (h1 : s ≤ u) (h2 : u ≤ v) (h3 : v ≤ t) :
    tan u ≤ tan v ∧ tan v - tan u ≤ (1 + T^2) * (v - u) := by
  rcases h2.eq_or_lt with rfl | h2
  · simp
  obtain ⟨c, ⟨c1, c2⟩, hc⟩ := exists_hasDerivAt_eq_slope tan (fun x => 1 / cos x ^ 2) h2
    (fun x hx => (hasDerivAt_tan (h x (by linarith [hx.1]) (by linarith [hx.2])).1).continuousAt.continuousWithinAt)
    (fun x hx => hasDerivAt_tan (h x (by linarith [hx.1]) (by linarith [hx.2])).1)
  obtain ⟨k1, k2⟩ := h c (by linarith) (by linarith)
  have e : 1 / cos c ^ 2 = 1 + tan c ^ 2 := by
    rw [tan_eq_sin_div_cos]; field_simp; rw [add_comm, sin_sq_add_cos_sq]
  rw [e, eq_div_iff (by linarith)] at hc
  have sq : tan c ^ 2 ≤ T ^ 2 := by rw [← sq_abs]; exact pow_le_pow_left₀ (abs_nonneg _) k2 2
  have vu : 0 ≤ v - u := by linarith
  constructor
  · nlinarith [sq_nonneg (tan c), mul_nonneg (sq_nonneg (tan c)) vu]
  · rw [← hc]; exact mul_le_mul_of_nonneg_right (by linarith) vu

theorem tan_near {s t T u v E : ℝ} (h : ∀ x, s ≤ x → x ≤ t → cos x ≠ 0 ∧ |tan x| ≤ T) (u1 : s ≤ u) (u2 : u ≤ t) (v1 : s ≤ v) (v2 : v ≤ t)
    (huv : |u - v| ≤ E) : |tan u - tan v| ≤ (1 + T^2) * E := by
  have q : 0 ≤ 1 + T^2 := by positivity
  rw [abs_le] at huv
  rcases le_total u v with c | c
  · have := tan_slope h u1 c v2
    have := mul_le_mul_of_nonneg_left (show v - u ≤ E by linarith) q
    exact abs_le.mpr ⟨by linarith, by linarith⟩
  · have := tan_slope h v1 c u2
    have := mul_le_mul_of_nonneg_left (show u - v ≤ E by linarith) q
    exact abs_le.mpr ⟨by linarith, by linarith⟩
end real

/-! ## The function -/
/-- the library's tangent is accurate up to `d (1 + |tan k|)`.  (No number of the format is a pole, since `π` is irrational.) -/
def TanWithin [Libm ℚ] (d : ℚ) : Prop :=
  ∀ (a : Fl ℚ) (k : ℚ), Is a k → ∃ c : ℚ, Is (Libm.tan a) c ∧ |(c : ℝ) - Real.tan k| ≤ d * (1 + |Real.tan k|)

/-- the library's `pi` and `tan` are accurate up to `d` -/
structure TanLib [Libm ℚ] (p d : ℚ) : Prop where
  pi : (Libm.pi : Fl ℚ) = .num p
  near : |(p : ℝ) - Real.pi| ≤ d
  tan : TanWithin d

/-- the tangent has no pole on `[s, t]`, and is at most `T` there -/
def TanBound (s t T : ℝ) : Prop := ∀ x, s ≤ x → x ≤ t → Real.cos x ≠ 0 ∧ |Real.tan x| ≤ T

section main
variable [Fmt ℚ] [Libm ℚ]

/-- the bounds after reduction: `lo` and `hi` differ from the bounds of `X` by the same multiple of `π`, up to rounding errors -/
theorem tan_reduce {M e p d : ℚ} (E : AbsErr M e) (E8 : AbsErr (8:ℚ) d) (L : TanLib p d) (hd : d ≤ 1/8) (hde : d ≤ e) (dbg : Bool)
    (X : Ivl (Fl ℚ)) (hX : Proper X) {a b B : ℚ} (ha : Is X.lo a) (hb : Is X.hi b) (a1 : -B ≤ a) (a2 : a ≤ b) (a3 : b ≤ B)
    (hM : 2 * B + 20 + 6 * e ≤ M) :
    ∃ (lo hi : Fl ℚ) (l h g : ℚ) (n : ℤ), Is lo l ∧ Is hi h ∧ |g - (b - a)| ≤ 3 * e ∧
      (e ≤ 1/8 → |(l:ℝ) - (a + n * Real.pi)| ≤ 16 * e + 2 * B * d ∧ |(h:ℝ) - (b + n * Real.pi)| ≤ 16 * e + 2 * B * d) ∧
      tanI dbg X = if p ≤ g then .ok ⟨.ninf, .pinf⟩ else Ivl.fromUnorderedBounds (Libm.tan lo) (Libm.tan hi) := by
  have hp : Is (Libm.pi : Fl ℚ) p := by rw [L.pi]; exact Is.num p
  have near := abs_le.mp L.near
  have d0 : (0:ℝ) ≤ d := (abs_nonneg _).trans L.near
  have d0' : 0 ≤ d := by exact_mod_cast d0
  have hd' : (d:ℝ) ≤ 1/8 := by
    have : ((d:ℚ):ℝ) ≤ ((1/8:ℚ):ℝ) := by exact_mod_cast hd
    simpa using this
  have pg := Real.pi_gt_d2; have pl := Real.pi_lt_d2
  have p3 : (3:ℚ) < p := by
    have : ((3:ℚ):ℝ) < p := by push_cast; linarith [near.1]
    exact_mod_cast this
  have p4 : p < 33/10 := by
    have : (p:ℝ) < ((33/10:ℚ):ℝ) := by push_cast; linarith [near.2]
    exact_mod_cast this
  have e0 : 0 ≤ e := d0'.trans hde
  have B0 : 0 ≤ B := by linarith
  obtain ⟨q, hq, eq⟩ := E8.div hp (Is.num 2) (by norm_num) (abs_le.mpr ⟨by linarith, by linarith⟩)
  obtain ⟨r, hr, er⟩ := E8.div hp.neg (Is.num 2) (by norm_num) (abs_le.mpr ⟨by linarith, by linarith⟩)
  rw [abs_le] at eq er
  obtain ⟨w, hw, ew⟩ := E8.sub hq hr (abs_le.mpr ⟨by linarith, by linarith⟩)
  have ew' := abs_le.mp ew
  have w0 : 5/2 < w := by linarith [ew'.1]
  have w1 : w < 4 := by linarith [ew'.2]
  obtain ⟨lo, l, ewrap, hl, -, l1, l2, n, hn⟩ := wrap_err E ha hr hq (by linarith) hw (by linarith)
    (abs_le.mpr ⟨by linarith, by linarith⟩) (by linarith) (by rw [abs_of_neg (by linarith)]; linarith)
  obtain ⟨v, hv, ev⟩ := E.sub hl ha (abs_le.mpr ⟨by linarith, by linarith⟩)
  rw [abs_le] at ev
  obtain ⟨h, hh, eh⟩ := E.add hb hv (abs_le.mpr ⟨by linarith, by linarith⟩)
  rw [abs_le] at eh hn
  obtain ⟨g, hg, eg⟩ := E.sub hh hl (abs_le.mpr ⟨by linarith, by linarith⟩)
  rw [abs_le] at eg
  refine ⟨lo, _, l, h, g, n, hl, hh, abs_le.mpr ⟨by linarith, by linarith⟩, fun small => ?_, ?_⟩
  · have cast : ∀ {x y : ℚ}, x ≤ y → (x:ℝ) ≤ y := fun h => by exact_mod_cast h
    have n1 : (|n| : ℚ) ≤ 2 * B / 5 + 11/10 := by
      rcases le_total (0:ℚ) n with n0 | n0
      · rw [abs_of_nonneg n0]; nlinarith [hn.1]
      · rw [abs_of_nonpos n0]; nlinarith [hn.2]
    have n2 := cast n1
    have n3 : |(n:ℝ) * (w - Real.pi)| ≤ (2 * B / 5 + 11/10) * (5 * d) := by
      rw [abs_mul]
      refine mul_le_mul (by push_cast at n2; exact n2) ?_ (abs_nonneg _) (by have := cast B0; push_cast at this; positivity)
      have u1 := cast ew'.1; have u2 := cast ew'.2; have u3 := cast eq.1; have u4 := cast eq.2; have u5 := cast er.1; have u6 := cast er.2
      push_cast at u1 u2 u3 u4 u5 u6
      exact abs_le.mpr ⟨by linarith [near.1, near.2], by linarith [near.1, near.2]⟩
    rw [abs_le] at n3
    have k1 := cast hn.1; have k2 := cast hn.2; have k4 := cast ev.1; have k5 := cast ev.2
    have k6 := cast eh.1; have k7 := cast eh.2; have k8 := cast hde
    have k0 := cast e0
    push_cast at k1 k2 k4 k5 k6 k7 k8 k0
    constructor <;> rw [abs_le] <;> constructor <;> nlinarith [n3.1, n3.2]
  · unfold tanI
    rw [show X.assigned = true from Intervals.assigned_of_proper (X := .ivl X) hX, expectsDebug_true, ok_bind]
    simp only [ewrap, ok_bind, CppVal.ge, hp.le_eq hg, decide_eq_true_eq, Fl.infInterval_eq]
end main

/-- C93 as stated: in a format whose rounding error is at most `e` for numbers up to `M`, with an accurate library, `tan(X)` of a bounded
interval succeeds and contains the tangent of all points as the library computes it.  The rounding errors are assumed to be small, `M` to
exceed the bounds. -/
def C93_full : Prop :=
  ∀ (_ : Fmt ℚ) (_ : Libm ℚ) (p d M e : ℚ), AbsErr M e → AbsErr (8:ℚ) d → TanLib p d → d ≤ 1/8 → d ≤ e →
    ∀ (dbg : Bool) (X : Ivl (Fl ℚ)), FiniteI X → ∀ B : ℚ, (∀ x, .num x ∈ᵢ X → |x| ≤ B) → 2 * B + 20 + 6 * e ≤ M →
      ∃ R, tanI dbg X = .ok R ∧ ∀ x, .num x ∈ᵢ X → Libm.tan (.num x) ∈ᵢ R

section main
variable [Fmt ℚ] [Libm ℚ]
/-- C93: in a format whose rounding error is at most `e` for numbers up to `M` and `d` for numbers up to 8, with a library accurate up to
`d`, on bounds of magnitude at most `B`, with `τ = 16e + 2Bd`:
* if the tangent has no pole on the interval widened by `τ`, and is at most `T` there, then `tan(X)` is a bounded interval that contains the
  tangent of every real number between the bounds up to `(1 + T²)τ + d(1 + T)`, and exceeds their range by no more;
* if the interval is at least `π + 4e` wide, the result is `[-inf, inf]`.
(Missing: containment without this tolerance and for intervals with a pole, which is false, see `C93_violated`, `C93_violated_pole`.) -/
theorem C93_tan_partial {M e p d : ℚ} (E : AbsErr M e) (E8 : AbsErr (8:ℚ) d) (L : TanLib p d) (hd : d ≤ 1/8) (hde : d ≤ e) (dbg : Bool)
    (X : Ivl (Fl ℚ)) (hX : FiniteI X) (B : ℚ) (hB : ∀ x, .num x ∈ᵢ X → |x| ≤ B) (hM : 2 * B + 20 + 6 * e ≤ M) :
    (∀ T : ℝ, TanBound (X.lo.val - (16 * e + 2 * B * d)) (X.hi.val + (16 * e + 2 * B * d)) T →
      ∃ R m N, tanI dbg X = .ok R ∧ IsI R m N ∧
        RangeUpTo Real.tan X.lo.val X.hi.val m N ((1 + T^2) * (16 * e + 2 * B * d) + d * (1 + T))) ∧
    (Real.pi + 4 * e ≤ X.hi.val - X.lo.val → tanI dbg X = .ok ⟨.ninf, .pinf⟩) := by
  have i := isI_of_finite hX.1 hX.2.1
  have hab := i.proper.mp hX.2.2
  have b1 := abs_le.mp (hB X.lo.val (i.mem_num.mpr ⟨le_rfl, hab⟩))
  have b2 := abs_le.mp (hB X.hi.val (i.mem_num.mpr ⟨hab, le_rfl⟩))
  obtain ⟨lo, hi, l, h, g, n, hl, hh, hg, hlh, eq⟩ := tan_reduce E E8 L hd hde dbg X hX.2.2 i.1 i.2 b1.1 hab b2.2 hM
  have near := abs_le.mp L.near
  have d0 : (0:ℝ) ≤ d := (abs_nonneg _).trans L.near
  have cast : ∀ {x y : ℚ}, x ≤ y → (x:ℝ) ≤ y := fun h => by exact_mod_cast h
  rw [abs_le] at hg
  have g1 := cast hg.1; have g2 := cast hg.2; have de := cast hde; have kab := cast hab
  have B0 := cast (show 0 ≤ B by linarith)
  push_cast at g1 g2 de B0
  have Bd := mul_nonneg B0 d0
  constructor
  · intro T hT
    set τ : ℝ := 16 * e + 2 * B * d with hτ
    generalize X.lo.val = a at *
    generalize X.hi.val = b at *
    have τ0 : 0 ≤ τ := by rw [hτ]; nlinarith
    have width : (b:ℝ) - a + 2 * τ < Real.pi := by
      by_contra c
      obtain ⟨z, z1, z2, z3⟩ := exists_pole (a - τ)
      exact (hT z z1 (by linarith)).1 z3
    have pl := Real.pi_lt_d2
    have small : e ≤ 1/8 := by
      have : (e:ℝ) ≤ ((1/8:ℚ):ℝ) := by push_cast; nlinarith
      exact_mod_cast this
    obtain ⟨hl', hh'⟩ := hlh small
    have nw : ¬ p ≤ g := by
      intro c
      have := cast c
      nlinarith [near.1]
    rw [if_neg nw] at eq
    have T0 : 0 ≤ T := (abs_nonneg _).trans (hT a (by linarith) (by linarith)).2
    -- the hypothesis, shifted
    have hT' : ∀ x, a + n * Real.pi - τ ≤ x → x ≤ b + n * Real.pi + τ → Real.cos x ≠ 0 ∧ |Real.tan x| ≤ T := by
      intro x x1 x2
      have := hT (x - n * Real.pi) (by linarith) (by linarith)
      rw [Ne, ← cos_add_int_pi (n := n), ← tan_add_int_pi _ n, sub_add_cancel] at this
      exact this
    have hl2 := abs_le.mp hl'; have hh2 := abs_le.mp hh'
    have n1 := tan_near hT' (u := l) (v := a + n * Real.pi) (by linarith) (by linarith) (by linarith) (by linarith) hl'
    have n2 := tan_near hT' (u := h) (v := b + n * Real.pi) (by linarith) (by linarith) (by linarith) (by linarith) hh'
    rw [tan_add_int_pi, abs_le] at n1 n2
    obtain ⟨c1, i1, f1⟩ := L.tan lo l hl
    obtain ⟨c2, i2, f2⟩ := L.tan hi h hh
    have f1' := f1.trans (mul_le_mul_of_nonneg_left (add_le_add_right (hT' l (by linarith) (by linarith)).2 1) d0)
    have f2' := f2.trans (mul_le_mul_of_nonneg_left (add_le_add_right (hT' h (by linarith) (by linarith)).2 1) d0)
    rw [abs_le] at f1' f2'
    obtain ⟨R, eR, iR⟩ := i1.unordered i2
    have up : ∀ x : ℝ, a ≤ x → x ≤ b → Real.tan a ≤ Real.tan x ∧ Real.tan x ≤ Real.tan b := fun x x1 x2 =>
      ⟨(tan_slope hT (by linarith) x1 (by linarith)).1, (tan_slope hT (by linarith) x2 (by linarith)).1⟩
    have top := (up a le_rfl kab).2
    refine ⟨R, _, _, eq.trans eR, iR, fun x x1 x2 => ?_, ?_, ?_⟩
    · have := up x x1 x2
      push_cast
      have u1 := min_le_left (c1:ℝ) c2; have u2 := le_max_right (c1:ℝ) c2
      constructor <;> linarith [this.1, this.2]
    · rcases min_cases c1 c2 with ⟨e, -⟩ | ⟨e, -⟩ <;> rw [e]
      · exact ⟨a, le_rfl, kab, by linarith⟩
      · exact ⟨b, kab, le_rfl, by linarith⟩
    · rcases max_cases c1 c2 with ⟨e, -⟩ | ⟨e, -⟩ <;> rw [e]
      · exact ⟨a, le_rfl, kab, by linarith⟩
      · exact ⟨b, kab, le_rfl, by linarith⟩
  · intro hw
    rw [eq, if_pos]
    have : (p:ℝ) ≤ g := by linarith [near.2]
    exact_mod_cast this

/-- C93: an interval with a finite lower and an infinite upper bound has the result `[-inf, inf]`; if the lower bound is infinite, the
argument reduction gives NaN, and so does `tan` (with a library whose tangent of NaN is NaN): the two cases are not symmetric. -/
theorem C93_infinite {M e p d : ℚ} (E : AbsErr M e) (E8 : AbsErr (8:ℚ) d) (L : TanLib p d) (hd : d ≤ 1/8) (hde : d ≤ e) (dbg : Bool)
    (X : Ivl (Fl ℚ)) (hX : Proper X) :
    (X.lo.isFinite = true → X.hi = .pinf → 2 * |X.lo.val| + 20 + 6 * e ≤ M → tanI dbg X = .ok ⟨.ninf, .pinf⟩) ∧
    (X.lo.isFinite = false → (Libm.tan (.nan : Fl ℚ)) = .nan → tanI dbg X = .ok nanIvl) := by
  have hp : Is (Libm.pi : Fl ℚ) p := by rw [L.pi]; exact Is.num p
  have near := abs_le.mp L.near
  have d0 : (0:ℝ) ≤ d := (abs_nonneg _).trans L.near
  have d0' : 0 ≤ d := by exact_mod_cast d0
  have hd' : (d:ℝ) ≤ 1/8 := by
    have : ((d:ℚ):ℝ) ≤ ((1/8:ℚ):ℝ) := by exact_mod_cast hd
    simpa using this
  have pg := Real.pi_gt_d2; have pl := Real.pi_lt_d2
  have p3 : (3:ℚ) < p := by
    have : ((3:ℚ):ℝ) < p := by push_cast; linarith [near.1]
    exact_mod_cast this
  have p4 : p < 33/10 := by
    have : (p:ℝ) < ((33/10:ℚ):ℝ) := by push_cast; linarith [near.2]
    exact_mod_cast this
  have e0 : 0 ≤ e := d0'.trans hde
  obtain ⟨q, hq, eq⟩ := E8.div hp (Is.num 2) (by norm_num) (abs_le.mpr ⟨by linarith, by linarith⟩)
  obtain ⟨r, hr, er⟩ := E8.div hp.neg (Is.num 2) (by norm_num) (abs_le.mpr ⟨by linarith, by linarith⟩)
  rw [abs_le] at eq er
  have as : X.assigned = true := Intervals.assigned_of_proper (X := .ivl X) hX
  constructor
  · intro fl hh hM
    have ha := Is.of_finite fl
    set B := |X.lo.val| with hB
    have a1 := neg_abs_le X.lo.val; have a2 := le_abs_self X.lo.val
    have B0 : 0 ≤ B := abs_nonneg _
    rw [← hB] at a1 a2
    obtain ⟨w, hw, ew⟩ := E8.sub hq hr (abs_le.mpr ⟨by linarith, by linarith⟩)
    have ew' := abs_le.mp ew
    obtain ⟨lo, l, ewrap, hl, -, l1, l2, n, hn⟩ := wrap_err E ha hr hq (by linarith) hw (by linarith)
      (abs_le.mpr ⟨by linarith, by linarith⟩) (by linarith) (by rw [abs_of_neg (by linarith)]; linarith)
    obtain ⟨v, hv, ev⟩ := E.sub hl ha (abs_le.mpr ⟨by linarith, by linarith⟩)
    have hadd : Fl.add X.hi (Fl.sub lo X.lo) = .pinf := by
      have := hv.1
      rw [hh]; generalize Fl.sub lo X.lo = d at this
      cases d <;> simp [isFinite, Fl.add, isNan, isInf] at this ⊢
    have hsub : Fl.sub .pinf lo = .pinf := sub_inf (.inr rfl) hl.1
    unfold tanI
    rw [as, expectsDebug_true, ok_bind]
    simp only []
    rw [ewrap, ok_bind, hadd, hsub, if_pos (show CppVal.ge Fl.pinf (Libm.pi : Fl ℚ) = true from le_pinf hp.ne_nan)]
    exact Fl.infInterval_eq
  · intro fl ht
    have hx : X.lo = .ninf ∨ X.lo = .pinf := by
      unfold Proper at hX
      cases e1 : X.lo <;> simp [e1, isFinite] at *
    unfold tanI
    rw [as, expectsDebug_true, ok_bind]
    simp only []
    rw [wrap_inf' hx ((hr.lt_iff hq).mpr (by linarith)) hr.1, ok_bind]
    simp [sub_nan, add_nan, CppVal.ge, ht, fub_nan]
end main

/-! ## double and float -/
theorem tan_tol {n q : ℤ} (n1 : 4 ≤ n) {T : ℝ} :
    16 * ((2:ℝ)^(n + 2 - q) / 2) + 2 * 2^n * (2^(3 - q) / 2) ≤ 2^(n + 6 - q) ∧
    (1 + T^2) * (16 * ((2:ℝ)^(n + 2 - q) / 2) + 2 * 2^n * (2^(3 - q) / 2)) + (2^(3 - q) / 2) * (1 + T) ≤ (1 + T^2) * 2^(n + 6 - q) ∧
    4 * ((2:ℝ)^(n + 2 - q) / 2) ≤ 2^(n + 6 - q) := by
  have a : (2:ℝ)^(n + 2 - q) = 4 * 2^(n - q) := by rw [show n + 2 - q = 2 + (n - q) by ring, zpow_add₀ (by norm_num)]; norm_num
  have b : (2:ℝ)^(n + 6 - q) = 64 * 2^(n - q) := by rw [show n + 6 - q = 6 + (n - q) by ring, zpow_add₀ (by norm_num)]; norm_num
  have c : 2 * (2:ℝ)^n * (2^(3 - q) / 2) = 8 * 2^(n - q) := by
    rw [mul_div_assoc', mul_assoc, ← zpow_add₀ (by norm_num), show n + (3 - q) = 3 + (n - q) by ring, zpow_add₀ (by norm_num)]; norm_num
  have d : (2:ℝ)^(3 - q) / 2 ≤ 2^(n - q) := by
    have : (2:ℝ)^(3 - q) ≤ 2^(n - q) := zpow_le_zpow_right₀ (by norm_num) (by omega)
    have : (0:ℝ) < 2^(3 - q) := zpow_pos (by norm_num) _
    linarith
  have pos : (0:ℝ) < 2^(n - q) := zpow_pos (by norm_num) _
  have pos' : (0:ℝ) < 2^(3 - q) := zpow_pos (by norm_num) _
  rw [a, b, c]
  have sq := sq_nonneg T
  have t1 : 1 + T ≤ 2 * (1 + T^2) := by nlinarith [sq_nonneg (T - 1)]
  have t2 : 0 ≤ 1 + T^2 := by linarith
  refine ⟨by linarith, ?_, by linarith⟩
  have := mul_le_mul_of_nonneg_left t1 (by positivity : (0:ℝ) ≤ 2^(3 - q) / 2)
  have := mul_le_mul_of_nonneg_right d t2
  nlinarith [mul_nonneg t2 pos.le]

/-- C93 for `double`, with bounds of magnitude at most `2^n` (at least 16): if the tangent has no pole on the interval widened by `2^(n-47)`
and is at most `T` there, then `tan(X)` contains the tangent of every real number between the bounds up to `(1 + T²)2^(n-47)`, and exceeds
their range by no more; if the interval is at least `π + 2^(n-47)` wide, the result is `[-inf, inf]`. -/
theorem C93_double_partial (_ : Libm ℚ) (hpi : (Libm.pi : Fl ℚ) = .num piDouble) (htan : TanWithin (2^(-51 : ℤ))) (n : ℤ) (n1 : 4 ≤ n) (n2 : n ≤ 1021)
    (dbg : Bool) (X : Ivl (Fl ℚ)) (hX : FiniteI X) (hB : ∀ x, .num x ∈ᵢ X → |x| ≤ 2^n) :
    let := binary64Fmt
    (∀ T : ℝ, TanBound (X.lo.val - 2^(n - 47)) (X.hi.val + 2^(n - 47)) T →
      ∃ R m N, tanI dbg X = .ok R ∧ IsI R m N ∧ RangeUpTo Real.tan X.lo.val X.hi.val m N ((1 + T^2) * 2^(n - 47))) ∧
    (Real.pi + 2^(n - 47) ≤ X.hi.val - X.lo.val → tanI dbg X = .ok ⟨.ninf, .pinf⟩) := by
  intro _
  have E := absErr_bin (p := 53) (emin := -1074) (Ω := (2^53 - 1) * 2^971) (by norm_num) (by norm_num) (n + 2) (two_zpow_le_max (by omega)) (by omega)
  have E8 := absErr_bin (p := 53) (emin := -1074) (Ω := (2^53 - 1) * 2^971) (by norm_num) (by norm_num) 3 (two_zpow_le_max (by omega)) (by norm_num)
  rw [show (2:ℚ)^(3:ℤ) = 8 by norm_num] at E8
  have de : (2:ℚ)^(3 - 53 : ℤ) / 2 ≤ 2^(n + 2 - 53) / 2 := div_le_div_of_nonneg_right (zpow_le_zpow_right₀ (by norm_num) (by omega)) (by norm_num)
  have L : TanLib piDouble (2^(3 - 53 : ℤ) / 2) :=
    ⟨hpi, piDouble_near.trans (by norm_num), by rw [show (2:ℚ)^(3 - 53 : ℤ) / 2 = 2^(-51 : ℤ) by norm_num]; exact htan⟩
  have big : 2 * 2^n + 20 + 6 * ((2:ℚ)^(n + 2 - 53) / 2) ≤ 2^(n + 2) := by
    have a : (2:ℚ)^(n + 2) = 4 * 2^n := by rw [zpow_add₀ (by norm_num)]; norm_num; ring
    have b : (16:ℚ) ≤ 2^n := by
      calc (16:ℚ) = 2^(4:ℤ) := by norm_num
        _ ≤ 2^n := zpow_le_zpow_right₀ (by norm_num) n1
    have c : (2:ℚ)^(n + 2 - 53) ≤ 2^n / 8 := by
      rw [show n + 2 - 53 = -51 + n by ring, zpow_add₀ (by norm_num)]
      have := (zpow_pos (by norm_num : (0:ℚ) < 2) n)
      norm_num
      linarith
    rw [a]; linarith
  have main := C93_tan_partial E E8 L (by norm_num) de dbg X hX (2^n) hB big
  push_cast at main
  constructor
  · intro T hT
    have tol := tan_tol (q := 53) n1 (T := T)
    rw [show n + 6 - 53 = n - 47 by ring] at tol
    obtain ⟨R, m, N, eR, iR, h⟩ := main.1 T (fun x x1 x2 => hT x (by linarith [tol.1]) (by linarith [tol.1]))
    exact ⟨R, m, N, eR, iR, h.mono tol.2.1⟩
  · intro hw
    have tol := tan_tol (q := 53) n1 (T := 0)
    rw [show n + 6 - 53 = n - 47 by ring] at tol
    exact main.2 (by linarith [tol.2.2])

/-- C93 for `float`: likewise with `2^(n-18)`. -/
theorem C93_float_partial (_ : Libm ℚ) (hpi : (Libm.pi : Fl ℚ) = .num piFloat) (htan : TanWithin (2^(-22 : ℤ))) (n : ℤ) (n1 : 4 ≤ n) (n2 : n ≤ 125)
    (dbg : Bool) (X : Ivl (Fl ℚ)) (hX : FiniteI X) (hB : ∀ x, .num x ∈ᵢ X → |x| ≤ 2^n) :
    let := binary32Fmt
    (∀ T : ℝ, TanBound (X.lo.val - 2^(n - 18)) (X.hi.val + 2^(n - 18)) T →
      ∃ R m N, tanI dbg X = .ok R ∧ IsI R m N ∧ RangeUpTo Real.tan X.lo.val X.hi.val m N ((1 + T^2) * 2^(n - 18))) ∧
    (Real.pi + 2^(n - 18) ≤ X.hi.val - X.lo.val → tanI dbg X = .ok ⟨.ninf, .pinf⟩) := by
  intro _
  have le_max : ∀ n : ℤ, n ≤ 127 → (2:ℚ)^n ≤ (2^24 - 1) * 2^104 := fun n hn =>
    (zpow_le_zpow_right₀ (by norm_num) hn).trans (by norm_num)
  have E := absErr_bin (p := 24) (emin := -149) (Ω := (2^24 - 1) * 2^104) (by norm_num) (by norm_num) (n + 2) (le_max _ (by omega)) (by omega)
  have E8 := absErr_bin (p := 24) (emin := -149) (Ω := (2^24 - 1) * 2^104) (by norm_num) (by norm_num) 3 (le_max _ (by omega)) (by norm_num)
  rw [show (2:ℚ)^(3:ℤ) = 8 by norm_num] at E8
  have de : (2:ℚ)^(3 - 24 : ℤ) / 2 ≤ 2^(n + 2 - 24) / 2 := div_le_div_of_nonneg_right (zpow_le_zpow_right₀ (by norm_num) (by omega)) (by norm_num)
  have L : TanLib piFloat (2^(3 - 24 : ℤ) / 2) :=
    ⟨hpi, piFloat_near.trans (by norm_num), by rw [show (2:ℚ)^(3 - 24 : ℤ) / 2 = 2^(-22 : ℤ) by norm_num]; exact htan⟩
  have big : 2 * 2^n + 20 + 6 * ((2:ℚ)^(n + 2 - 24) / 2) ≤ 2^(n + 2) := by
    have a : (2:ℚ)^(n + 2) = 4 * 2^n := by rw [zpow_add₀ (by norm_num)]; norm_num; ring
    have b : (16:ℚ) ≤ 2^n := by
      calc (16:ℚ) = 2^(4:ℤ) := by norm_num
        _ ≤ 2^n := zpow_le_zpow_right₀ (by norm_num) n1
    have c : (2:ℚ)^(n + 2 - 24) ≤ 2^n / 8 := by
      rw [show n + 2 - 24 = -22 + n by ring, zpow_add₀ (by norm_num)]
      have := (zpow_pos (by norm_num : (0:ℚ) < 2) n)
      norm_num
      linarith
    rw [a]; linarith
  have main := C93_tan_partial E E8 L (by norm_num) de dbg X hX (2^n) hB big
  push_cast at main
  constructor
  · intro T hT
    have tol := tan_tol (q := 24) n1 (T := T)
    rw [show n + 6 - 24 = n - 18 by ring] at tol
    obtain ⟨R, m, N, eR, iR, h⟩ := main.1 T (fun x x1 x2 => hT x (by linarith [tol.1]) (by linarith [tol.1]))
    exact ⟨R, m, N, eR, iR, h.mono tol.2.1⟩
  · intro hw
    have tol := tan_tol (q := 24) n1 (T := 0)
    rw [show n + 6 - 24 = n - 18 by ring] at tol
    exact main.2 (by linarith [tol.2.2])

/-! Examples: [-1, 1] widened by `2^(4-47)` has no pole, and the tangent is at most 2 there; [-2, 7] is wide. -/
theorem tan_le_two {x : ℝ} (h0 : 0 ≤ x) (h : x ≤ 1.04) : Real.tan x ≤ 2 := by
  have hp := Real.pi_gt_d2
  have m : Real.tan x ≤ Real.tan (Real.pi / 3) :=
    Real.strictMonoOn_tan.monotoneOn ⟨by linarith, by linarith⟩ ⟨by linarith, by linarith⟩ (by linarith)
  rw [Real.tan_pi_div_three] at m
  refine m.trans ?_
  rw [Real.sqrt_le_left (by norm_num)]; norm_num
example : TanBound ((-1 : ℚ) - 2^(4 - 47 : ℤ)) ((1 : ℚ) + 2^(4 - 47 : ℤ)) 2 := by
  intro x x1 x2
  have hp := Real.pi_gt_d2
  norm_num at x1 x2 hp
  refine ⟨(Real.cos_pos_of_mem_Ioo ⟨by linarith, by linarith⟩).ne', abs_le.mpr ⟨?_, ?_⟩⟩
  · rcases le_total 0 x with h | h
    · linarith [Real.tan_nonneg_of_nonneg_of_le_pi_div_two h (by linarith)]
    · have := tan_le_two (x := -x) (by linarith) (by linarith)
      rw [Real.tan_neg] at this; linarith
  · rcases le_total 0 x with h | h
    · exact tan_le_two h (by linarith)
    · linarith [Real.tan_nonpos_of_nonpos_of_neg_pi_div_two_le h (by linarith)]
example : Real.pi + 2^(4 - 47 : ℤ) ≤ ((7:ℚ):ℝ) - ((-2:ℚ):ℝ) := by
  have := Real.pi_lt_d2
  norm_num at *; linarith
example : Proper (⟨.num 1, .pinf⟩ : Ivl (Fl ℚ)) ∧ Proper (⟨.ninf, .num 1⟩ : Ivl (Fl ℚ)) := ⟨rfl, rfl⟩

/-! ## The violations -/
theorem far_tan : (1.4:ℝ) < Real.tan (18014398509481952 : ℚ) := by
  have h1 := Real.pi_gt_d20; have h2 := Real.pi_lt_d20
  have e := tan_add_int_pi ((18014398509481952 : ℚ) : ℝ) (-5734161139222648)
  rw [← e]
  have := Real.lt_tan (x := ((18014398509481952 : ℚ) : ℝ) + ((-5734161139222648 : ℤ) : ℝ) * Real.pi)
    (by push_cast; norm_num at *; linarith) (by push_cast; norm_num at *; linarith)
  refine lt_trans ?_ this
  push_cast; norm_num at *; linarith

/-- `tan(X)` when the reduced bounds and their difference are known -/
theorem tanI_eq [Fmt ℚ] [Libm ℚ] (dbg : Bool) {X : Ivl (Fl ℚ)} (hX : Proper X) {lo hi : Fl ℚ}
    (hw : Fl.wraparound X.lo (Fl.div (Fl.neg Libm.pi) (.num 2)) (Fl.div Libm.pi (.num 2)) = .ok lo)
    (hh : Fl.add X.hi (Fl.sub lo X.lo) = hi) (hn : CppVal.ge (Fl.sub hi lo) (Libm.pi : Fl ℚ) = false) :
    tanI dbg X = Ivl.fromUnorderedBounds (Libm.tan lo) (Libm.tan hi) := by
  unfold tanI
  rw [show X.assigned = true from Intervals.assigned_of_proper (X := .ivl X) hX, expectsDebug_true, ok_bind]
  simp only [hw, ok_bind, hh, hn]
  rfl

/-- C93 is false without a tolerance even for single points: in `double`, with any library whose tangent is accurate up to `(1 + |tan|)/10`,
`tan` of the interval with the single point 18014398509481952 lies below 1/2, whereas the tangent of that number, and also the library's,
exceeds 1. -/
theorem C93_violated (_ : Libm ℚ) (hpi : (Libm.pi : Fl ℚ) = .num piDouble) (htan : TanWithin (1/10)) (dbg : Bool) :
    let := binary64Fmt
    Representable (.num 18014398509481952 : Fl ℚ) ∧
    ∃ R, tanI dbg (⟨.num 18014398509481952, .num 18014398509481952⟩ : Ivl (Fl ℚ)) = .ok R ∧ lt R.hi (.num (1/2)) = true ∧
      1 < Real.tan (18014398509481952 : ℚ) ∧ lt (.num 1) (Libm.tan (.num 18014398509481952 : Fl ℚ)) = true := by
  intro _
  have hw : Fl.wraparound (.num 18014398509481952) (Fl.div (Fl.neg Libm.pi) (.num 2)) (Fl.div Libm.pi (.num 2)) =
      .ok (.num (-318815831034297/562949953421312) : Fl ℚ) := by
    rw [hpi]; decide +kernel
  have hh : Fl.add (.num 18014398509481952) (Fl.sub (.num (-318815831034297/562949953421312)) (.num 18014398509481952)) = (.num 0 : Fl ℚ) := by
    decide +kernel
  refine ⟨by decide +kernel, ?_⟩
  rw [tanI_eq dbg (X := ⟨.num 18014398509481952, .num 18014398509481952⟩) (by simp [Proper]) hw hh (by rw [hpi]; decide +kernel)]
  obtain ⟨c, ic, fc⟩ := htan _ _ (Is.num (-318815831034297/562949953421312))
  obtain ⟨c0, ic0, fc0⟩ := htan _ _ (Is.num 0)
  obtain ⟨cx, icx, fcx⟩ := htan _ _ (Is.num 18014398509481952)
  have far := far_tan
  have neg : Real.tan ((-318815831034297/562949953421312 : ℚ) : ℝ) < 0 :=
    Real.tan_neg_of_neg_of_pi_div_two_lt (by push_cast; norm_num) (by have := Real.pi_gt_three; push_cast; linarith)
  rw [abs_of_neg neg] at fc
  generalize Real.tan ((18014398509481952 : ℚ) : ℝ) = t at *
  rw [abs_of_pos (show 0 < t by linarith)] at fcx
  rw [abs_le] at fc fc0 fcx
  obtain ⟨R, eR, iR⟩ := ic.unordered ic0
  refine ⟨R, eR, (iR.2.lt_iff (Is.num _)).mpr (max_lt ?_ ?_), by linarith, ((Is.num _).lt_iff icx).mpr ?_⟩
  · have : (c : ℝ) < ((1/2 : ℚ) : ℝ) := by push_cast at *; linarith [fc.2]
    exact_mod_cast this
  · have : (c0 : ℝ) < ((1/2 : ℚ) : ℝ) := by push_cast at *; rw [Real.tan_zero] at fc0; norm_num at *; linarith [fc0.2]
    exact_mod_cast this
  · have : ((1 : ℚ) : ℝ) < cx := by push_cast at *; linarith [fcx.1]
    exact_mod_cast this

/-- C93 is false for intervals with a pole: in `double`, with any such library, `tan([1,2])` lies below 3, whereas the tangent of 3/2, and
also the library's, exceeds 4. -/
theorem C93_violated_pole (_ : Libm ℚ) (hpi : (Libm.pi : Fl ℚ) = .num piDouble) (htan : TanWithin (1/10)) (dbg : Bool) :
    let := binary64Fmt
    ∃ R, tanI dbg (⟨.num 1, .num 2⟩ : Ivl (Fl ℚ)) = .ok R ∧ lt R.hi (.num 3) = true ∧
      4 < Real.tan (3/2 : ℚ) ∧ lt (.num 4) (Libm.tan (.num (3/2) : Fl ℚ)) = true := by
  intro _
  have hw : Fl.wraparound (.num 1) (Fl.div (Fl.neg Libm.pi) (.num 2)) (Fl.div Libm.pi (.num 2)) = .ok (.num 1 : Fl ℚ) := by
    rw [hpi]; decide +kernel
  have hh : Fl.add (.num 2) (Fl.sub (.num 1) (.num 1)) = (.num 2 : Fl ℚ) := by
    decide +kernel
  rw [tanI_eq dbg (X := ⟨.num 1, .num 2⟩) (by simp [Proper]) hw hh (by rw [hpi]; decide +kernel)]
  obtain ⟨c, ic, fc⟩ := htan _ _ (Is.num 1)
  obtain ⟨c0, ic0, fc0⟩ := htan _ _ (Is.num 2)
  obtain ⟨cx, icx, fcx⟩ := htan _ _ (Is.num (3/2))
  have p1 := Real.pi_gt_d2; have p2 := Real.pi_lt_d2
  have far : (5:ℝ) < Real.tan (3/2 : ℚ) := by
    push_cast
    have c1 : Real.cos (3/2) = Real.sin (Real.pi/2 - 3/2) := (Real.sin_pi_div_two_sub _).symm
    have c2 : Real.sin (3/2) = Real.cos (Real.pi/2 - 3/2) := (Real.cos_pi_div_two_sub _).symm
    have s1 : Real.sin (Real.pi/2 - 3/2) < Real.pi/2 - 3/2 := Real.sin_lt (by linarith)
    have s2 := Real.one_sub_sq_div_two_le_cos (x := Real.pi/2 - 3/2)
    have s3 : 0 < Real.sin (Real.pi/2 - 3/2) := Real.sin_pos_of_pos_of_lt_pi (by linarith) (by linarith)
    rw [Real.tan_eq_sin_div_cos, c1, c2, lt_div_iff₀ s3]
    nlinarith
  have one : Real.tan ((1 : ℚ) : ℝ) ≤ 2 := by push_cast; exact tan_le_two (by norm_num) (by norm_num)
  have one0 : 0 ≤ Real.tan ((1 : ℚ) : ℝ) := by
    push_cast; exact Real.tan_nonneg_of_nonneg_of_le_pi_div_two (by norm_num) (by linarith)
  have neg : Real.tan ((2 : ℚ) : ℝ) < 0 := by
    rw [← Real.tan_sub_pi]
    exact Real.tan_neg_of_neg_of_pi_div_two_lt (by push_cast; linarith) (by push_cast; linarith)
  rw [abs_of_neg neg] at fc0
  rw [abs_of_nonneg one0] at fc
  generalize Real.tan ((3/2 : ℚ) : ℝ) = t at *
  rw [abs_of_pos (show 0 < t by linarith)] at fcx
  rw [abs_le] at fc fc0 fcx
  obtain ⟨R, eR, iR⟩ := ic.unordered ic0
  refine ⟨R, eR, (iR.2.lt_iff (Is.num _)).mpr (max_lt ?_ ?_), by linarith, ((Is.num _).lt_iff icx).mpr ?_⟩
  · have : (c : ℝ) < ((3 : ℚ) : ℝ) := by push_cast at *; linarith [fc.2]
    exact_mod_cast this
  · have : (c0 : ℝ) < ((3 : ℚ) : ℝ) := by push_cast at *; linarith [fc0.2]
    exact_mod_cast this
  · have : ((4 : ℚ) : ℝ) < cx := by push_cast at *; linarith [fcx.1]
    exact_mod_cast this

/-- There is a library with a tangent as accurate as we like. -/
theorem exists_tan_lib (p d : ℚ) (hd : 0 < d) : ∃ _ : Libm ℚ, (Libm.pi : Fl ℚ) = .num p ∧ TanWithin d ∧ Libm.tan (.nan : Fl ℚ) = .nan := by
  have h : ∀ k : ℚ, ∃ c : ℚ, |(c : ℝ) - Real.tan k| ≤ d * (1 + |Real.tan k|) := by
    intro k
    have hd' : (0:ℝ) < d := by exact_mod_cast hd
    obtain ⟨q, q1, q2⟩ := exists_rat_btwn (show Real.tan k - d < Real.tan k by linarith)
    have := mul_nonneg hd'.le (abs_nonneg (Real.tan k))
    exact ⟨q, abs_le.mpr ⟨by linarith, by linarith⟩⟩
  choose f hf using h
  let inst : Libm ℚ := ⟨id, id, id, id, id, fun a => if a.isFinite then .num (f a.val) else a, id, id, id, fun a _ => a, .num p⟩
  refine ⟨inst, rfl, fun a k hk => ⟨f k, ?_, hf k⟩, rfl⟩
  change Is (if a.isFinite then .num (f a.val) else a) (f k)
  rw [if_pos hk.1, ← hk.2]; exact Is.num _

/-- C93 as stated is false. -/
theorem C93_not_full : ¬ C93_full := by
  intro F
  obtain ⟨L, hpi, htan, -⟩ := exists_tan_lib piDouble (2^(-51 : ℤ)) (by norm_num)
  have htan' : TanWithin (1/10) := fun a k h => by
    obtain ⟨c, i, f⟩ := htan a k h
    refine ⟨c, i, f.trans (mul_le_mul_of_nonneg_right (by norm_num) (by positivity))⟩
  obtain ⟨R, eR, l1, -, l2⟩ := C93_violated_pole L hpi htan' true
  let _ := binary64Fmt
  have E := absErr_bin (p := 53) (emin := -1074) (Ω := (2^53 - 1) * 2^971) (by norm_num) (by norm_num) 8 (two_zpow_le_max (by omega)) (by norm_num)
  have E8 := absErr_bin (p := 53) (emin := -1074) (Ω := (2^53 - 1) * 2^971) (by norm_num) (by norm_num) 3 (two_zpow_le_max (by omega)) (by norm_num)
  rw [show (2:ℚ)^(3:ℤ) = 8 by norm_num] at E8
  have LL : TanLib piDouble (2^(3 - 53 : ℤ) / 2) :=
    ⟨hpi, piDouble_near.trans (by norm_num), by rw [show (2:ℚ)^(3 - 53 : ℤ) / 2 = 2^(-51 : ℤ) by norm_num]; exact htan⟩
  have i : IsI (⟨.num 1, .num 2⟩ : Ivl (Fl ℚ)) 1 2 := ⟨Is.num _, Is.num _⟩
  obtain ⟨R', eR', h⟩ := F _ L _ _ _ _ E E8 LL (by norm_num) (by norm_num) true _ ⟨rfl, rfl, i.proper.mpr (by norm_num)⟩ 2
    (fun x hx => by
      obtain ⟨a, b⟩ := i.mem_num.mp hx
      exact abs_le.mpr ⟨by linarith, b⟩) (by norm_num)
  rw [eR] at eR'; cases eR'
  have m := h (3/2) (i.mem_num.mpr ⟨by norm_num, by norm_num⟩)
  have lt_le : ∀ {a b : Fl ℚ}, lt a b = true → le a b = true := fun {a b} h => by
    obtain ⟨x, y, ea, eb, l⟩ := Fl.lt_iff.mp h
    exact Fl.le_iff.mpr ⟨x, y, ea, eb, l.le⟩
  have o1 := CppOrder.le_trans _ _ _ (lt_le l2) m.2
  have o2 := CppOrder.le_trans _ _ _ o1 (lt_le l1)
  exact absurd o2 (by decide +kernel)
end Intervals.Props
