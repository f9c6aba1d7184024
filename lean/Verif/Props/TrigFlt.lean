import Verif.Props.BlendFlt
import Verif.Props.Wrap
import Mathlib.Analysis.Real.Pi.Bounds
import Mathlib.Tactic.ByContra
import Mathlib.Analysis.SpecialFunctions.Trigonometric.Bounds
/-!
# C81: cos and sin with rounding
-/
set_option linter.unusedSectionVars false
namespace Intervals.Props
open Intervals CppVal Spec Fl

section wrap
variable {K : Type} [Field K] [LinearOrder K] [IsStrictOrderedRing K] [FloorRing K] [Fmt K]

theorem is_of_ext {a b : Fl K} {k : K} (e : ext a = ext b) (h : Is b k) : Is a k := is_iff_ext.mpr (e.trans (is_iff_ext.mp h))

theorem AbsErr.add {M e : K} (E : AbsErr M e) {a b : Fl K} {k l : K} (ha : Is a k) (hb : Is b l) (h : |k + l| ≤ M) :
    ∃ v, Is (Fl.add a b) v ∧ |v - (k + l)| ≤ e := by
  obtain ⟨v, hv, ev⟩ := E (k + l) h
  exact ⟨v, is_of_ext (by rw [Fl.ext_add ha.1 hb.1, ha.2, hb.2]) hv, ev⟩
theorem AbsErr.sub {M e : K} (E : AbsErr M e) {a b : Fl K} {k l : K} (ha : Is a k) (hb : Is b l) (h : |k - l| ≤ M) :
    ∃ v, Is (Fl.sub a b) v ∧ |v - (k - l)| ≤ e := by
  obtain ⟨v, hv, ev⟩ := E (k - l) h
  exact ⟨v, is_of_ext (by rw [Fl.ext_sub ha.1 hb.1, ha.2, hb.2]) hv, ev⟩
theorem AbsErr.mul {M e : K} (E : AbsErr M e) {a b : Fl K} {k l : K} (ha : Is a k) (hb : Is b l) (h : |k * l| ≤ M) :
    ∃ v, Is (Fl.mul a b) v ∧ |v - k * l| ≤ e := by
  obtain ⟨v, hv, ev⟩ := E (k * l) h
  exact ⟨v, is_of_ext (by rw [Fl.ext_mul ha.1 hb.1, ha.2, hb.2]) hv, ev⟩
theorem AbsErr.div {M e : K} (E : AbsErr M e) {a b : Fl K} {k l : K} (ha : Is a k) (hb : Is b l) (h0 : l ≠ 0) (h : |k / l| ≤ M) :
    ∃ v, Is (Fl.div a b) v ∧ |v - k / l| ≤ e := by
  obtain ⟨v, hv, ev⟩ := E (k / l) h
  exact ⟨v, is_of_ext (by rw [Fl.ext_div ha.1 hb.1 (by rw [hb.2]; exact h0), ha.2, hb.2]) hv, ev⟩

/-- the error of `wraparound`: the result lies in `[min, max]` up to rounding, and differs from `x` by a multiple of the rounded range `w`
up to three rounding errors -/
theorem wrap_err {M e : K} (E : AbsErr M e) {x a b : Fl K} {kx ka kb w : K} (hx : Is x kx) (ha : Is a ka) (hb : Is b kb) (h : ka < kb)
    (hw : Is (Fl.sub b a) w) (w0 : 0 < w) (m1 : |kx - ka| ≤ M) (m2 : 2 * w ≤ M) (m3 : |ka| + w ≤ M) :
    ∃ r k, Fl.wraparound x a b = .ok r ∧ Is r k ∧ ((Fmt.rnd ka : Fl K) = .num ka → ka ≤ k) ∧ ka - e ≤ k ∧ k ≤ ka + w + e ∧ ∃ n : ℤ, |k - (kx + n * w)| ≤ 3 * e := by
  obtain ⟨d, hd, ed⟩ := E.sub hx ha m1
  have e1 := hd.fmod hw w0.ne'
  obtain ⟨b1, -⟩ := fmod_bounds (k := d) w0
  set f1 := d - w * truncInt (d / w) with hf1
  rw [abs_lt] at b1
  have m2' : |w + f1| ≤ M := abs_le.mpr ⟨by linarith, by linarith⟩
  have s0 : 0 ≤ (Fl.add (Fl.sub b a) (Fl.fmod (Fl.sub x a) (Fl.sub b a))).val := by
    have := Fmt.rnd_mono (0:K) (w + f1) (by linarith)
    rw [Fmt.rnd_zero] at this
    obtain ⟨v, hv, -⟩ := E (w + f1) m2'
    have := ((Is.num 0).le_iff hv).mp this
    have e : ext (Fl.add (Fl.sub b a) (Fl.fmod (Fl.sub x a) (Fl.sub b a))) = ext (Fmt.rnd (w + f1)) := by
      rw [Fl.ext_add hw.1 e1.1, hw.2, e1.2]
    rw [(is_of_ext e hv).2]; exact this
  obtain ⟨s, hs, es⟩ := E.add hw e1 m2'
  rw [hs.2] at s0
  have e2 := hs.fmod hw w0.ne'
  obtain ⟨b2, b3⟩ := fmod_bounds (k := s) w0
  set f2 := s - w * truncInt (s / w) with hf2
  rw [abs_lt] at b2
  have b4 := b3 s0
  obtain ⟨r, hr, er⟩ := E.add ha e2 (by
    refine (abs_add_le _ _).trans ((add_le_add_right ?_ _).trans m3)
    rw [abs_of_nonneg b4]; exact b2.2.le)
  refine ⟨_, r, by unfold Fl.wraparound; rw [(ha.lt_iff hb).mpr h]; rfl, hr, fun rep => ?_, ?_, ?_, 1 - truncInt (d / w) - truncInt (s / w), ?_⟩
  · have m := Fmt.rnd_mono ka (ka + f2) (by linarith)
    have x := is_iff_ext.mp hr
    rw [Fl.ext_add ha.1 e2.1, ha.2, e2.2] at x
    rw [rep] at m
    exact ((Is.num ka).le_iff (is_iff_ext.mpr x)).mp m
  · have := (abs_le.mp er).1; linarith
  · have := (abs_le.mp er).2; linarith
  · rw [abs_le] at ed es er ⊢
    push_cast
    generalize truncInt (d / w) = t1 at *
    generalize truncInt (s / w) = t2 at *
    constructor <;> linarith [ed.1, ed.2, es.1, es.2, er.1, er.2]

/-- C42 with rounding: in a format whose rounding error is at most `e` for numbers up to `M`, if `min` is a number of the format, the result is
at least `min`, exceeds `max` by at most `2e`, and differs from `x` by a multiple `n` of the range up to `(3 + |n|)e`. -/
theorem C42_rounded {M e : K} (E : AbsErr M e) (x mn mx : K) (h : mn < mx) (rep : (Fmt.rnd mn : Fl K) = .num mn) (e0 : 0 ≤ e)
    (small : e < mx - mn) (hM : |x| + |mn| + 2 * (mx - mn) + 2 * e ≤ M) :
    ∃ r k, Fl.wraparound (.num x) (.num mn) (.num mx) = .ok r ∧ Is r k ∧ mn ≤ k ∧ k ≤ mx + 2 * e ∧
      ∃ n : ℤ, |k - (x + n * (mx - mn))| ≤ (3 + |(n : K)|) * e := by
  have a1 := abs_nonneg x; have a2 := abs_nonneg mn
  obtain ⟨w, hw, ew⟩ := E.sub (Is.num mx) (Is.num mn) (by rw [abs_of_pos (by linarith)]; linarith)
  have ew' := abs_le.mp ew
  obtain ⟨r, k, er, hr, h1, -, h2, n, hn⟩ := wrap_err E (Is.num x) (Is.num mn) (Is.num mx) h hw (by linarith)
    ((abs_sub _ _).trans (by linarith)) (by linarith) (by linarith)
  refine ⟨r, k, er, hr, h1 rep, by linarith, n, ?_⟩
  have : k - (x + n * (mx - mn)) = (k - (x + n * w)) + n * (w - (mx - mn)) := by ring
  rw [this]
  refine (abs_add_le _ _).trans ?_
  rw [abs_mul]
  have := mul_le_mul_of_nonneg_left ew (abs_nonneg (n : K))
  linarith

/-- subtracting a number -/
theorem sub_scalar (dbg : Bool) {X : Ivl (Fl K)} (hX : Proper X) {s : Fl K} {k : K} (hs : Is s k)
    (h : le (Fl.sub X.lo s) (Fl.sub X.hi s) = true) :
    subI dbg (.ivl X) (.scalar s) = .ok ⟨Fl.sub X.lo s, Fl.sub X.hi s⟩ := by
  unfold subI
  have n1 : isNegInf s = false := by rw [← Bool.not_eq_true, Fl.isNegInf_iff]; rintro rfl; simp [Is, isFinite] at hs
  have n2 : isPosInf s = false := by rw [← Bool.not_eq_true, Fl.isPosInf_iff]; rintro rfl; simp [Is, isFinite] at hs
  simp only [Arg.assigned, show X.assigned = true from assigned_of_proper (X := .ivl X) hX, Bool.and_self, expectsDebug_true, ok_bind,
    Arg.lo, Arg.hi, n1, n2, Bool.false_and, Bool.or_self, Bool.and_false, Bool.false_eq_true, if_false]
  exact make_ok_of_le h
end wrap

/-- up to `t`, the interval `[m, N]` is the range of `f` on `[a, b]`: it contains the values of `f`, and does not exceed them -/
def RangeUpTo (f : ℝ → ℝ) (a b m N t : ℝ) : Prop :=
  (∀ x, a ≤ x → x ≤ b → m - t ≤ f x ∧ f x ≤ N + t) ∧ (∃ x, a ≤ x ∧ x ≤ b ∧ f x ≤ m + t) ∧ (∃ x, a ≤ x ∧ x ≤ b ∧ N ≤ f x + t)

theorem RangeUpTo.mono {f : ℝ → ℝ} {a b m N t t' : ℝ} (h : RangeUpTo f a b m N t) (le : t ≤ t') : RangeUpTo f a b m N t' := by
  obtain ⟨h1, ⟨x, x1, x2, hx⟩, ⟨y, y1, y2, hy⟩⟩ := h
  exact ⟨fun z z1 z2 => ⟨by linarith [(h1 z z1 z2).1], by linarith [(h1 z z1 z2).2]⟩, ⟨x, x1, x2, by linarith⟩, ⟨y, y1, y2, by linarith⟩⟩

/-! ## Real analysis -/
section real
open Real
theorem cos_up {a b η : ℝ} (h1 : -π - η ≤ a) (h2 : a ≤ b) (h3 : b ≤ 0) (h0 : 0 ≤ η) : cos a ≤ cos b + η := by
  by_cases h : -π ≤ a
  · have : cos a ≤ cos b := by
      rw [← cos_neg a, ← cos_neg b]
      exact cos_le_cos_of_nonneg_of_le_pi (by linarith) (by linarith) (by linarith)
    linarith
  · have l := (abs_le.mp (abs_cos_sub_cos_le a (-π))).2
    rw [cos_neg, cos_pi] at l
    have : |a - -π| ≤ η := abs_le.mpr ⟨by linarith, by linarith⟩
    have := neg_one_le_cos b
    linarith
theorem cos_down {a b η : ℝ} (h1 : 0 ≤ a) (h2 : a ≤ b) (h3 : b ≤ π + η) (h0 : 0 ≤ η) : cos b ≤ cos a + η := by
  have := cos_up (a := -b) (b := -a) (η := η) (by linarith) (by linarith) (by linarith) h0
  rwa [cos_neg, cos_neg] at this
theorem cos_up' {a b η : ℝ} (h1 : π ≤ a) (h2 : a ≤ b) (h3 : b ≤ 2 * π + η) (h0 : 0 ≤ η) : cos a ≤ cos b + η := by
  have := cos_down (a := 2 * π + η - b) (b := 2 * π - a) (η := η)
  by_cases h : b ≤ 2 * π
  · have : cos (2 * π - a) ≤ cos (2 * π - b) := cos_le_cos_of_nonneg_of_le_pi (by linarith) (by linarith) (by linarith)
    rw [cos_two_pi_sub, cos_two_pi_sub] at this
    linarith
  · have l := (abs_le.mp (abs_cos_sub_cos_le b (2 * π))).1
    rw [cos_two_pi] at l
    have : |b - 2 * π| ≤ η := abs_le.mpr ⟨by linarith, by linarith⟩
    have := cos_le_one a
    linarith
/-- a point of an interval with errors at the bounds is near a point of the interval -/
theorem near_point {lo hi y E : ℝ} (h1 : lo - E ≤ y) (h2 : y ≤ hi + E) (h0 : 0 ≤ E) :
    ∃ y', |cos y - cos y'| ≤ E ∧ lo ≤ y' ∧ (y' = lo ∨ y' ≤ hi) := by
  suffices h : ∃ y', |y - y'| ≤ E ∧ lo ≤ y' ∧ (y' = lo ∨ y' ≤ hi) by
    obtain ⟨y', a, b⟩ := h
    exact ⟨y', (abs_cos_sub_cos_le _ _).trans a, b⟩
  by_cases c : y ≤ lo
  · exact ⟨lo, abs_le.mpr ⟨by linarith, by linarith⟩, le_rfl, Or.inl rfl⟩
  by_cases c' : y ≤ hi
  · exact ⟨y, by simpa using h0, by linarith, Or.inr c'⟩
  by_cases c2 : lo ≤ hi
  · exact ⟨hi, abs_le.mpr ⟨by linarith, by linarith⟩, c2, Or.inr le_rfl⟩
  · exact ⟨lo, abs_le.mpr ⟨by linarith, by linarith⟩, le_rfl, Or.inl rfl⟩
end real

/-! ## The functions -/
/-- the library's `pi` and `cos` are accurate up to `d`, and its cosine stays within [-1, 1] -/
structure CosLib [Libm ℚ] (p d : ℚ) : Prop where
  pi : (Libm.pi : Fl ℚ) = .num p
  near : |(p : ℝ) - Real.pi| ≤ d
  cos : ∀ (a : Fl ℚ) (k : ℚ), Is a k → ∃ c : ℚ, Is (Libm.cos a) c ∧ |(c : ℝ) - Real.cos k| ≤ d ∧ -1 ≤ c ∧ c ≤ 1

section main
variable [Fmt ℚ] [Libm ℚ]

/-- the second half of `cos(X)` (interval.hpp:1104–1128), after the bounds were shifted -/
def cosTail (lo hi : Fl ℚ) : Outcome (Ivl (Fl ℚ)) :=
  if le lo (.num 0) then
    if le hi (.num 0) then Ivl.fromUnorderedBounds (Libm.cos lo) (Libm.cos hi)
    else if le hi Libm.pi then Ivl.make (cmin (Libm.cos lo) (Libm.cos hi)) (.num 1)
    else Ivl.make (.num (-1)) (.num 1)
  else
    if le hi Libm.pi then Ivl.fromUnorderedBounds (Libm.cos hi) (Libm.cos lo)
    else if le hi (Fl.mul (.num 2) Libm.pi) then Ivl.make (.num (-1)) (cmax (Libm.cos lo) (Libm.cos hi))
    else Ivl.make (.num (-1)) (.num 1)

theorem cosI_eq (dbg : Bool) {X : Ivl (Fl ℚ)} (hX : Proper X) {lo : Fl ℚ}
    (hw : Fl.wraparound X.lo (Fl.neg Libm.pi) Libm.pi = .ok lo) :
    cosI dbg X = cosTail lo (Fl.add X.hi (Fl.sub lo X.lo)) := by
  unfold cosI cosTail
  rw [show X.assigned = true from assigned_of_proper (X := .ivl X) hX, expectsDebug_true, ok_bind]
  simp only [hw, ok_bind]

/-- the result is an interval within [-1, 1] -/
theorem cosTail_range {p d : ℚ} (L : CosLib p d) {lo hi : Fl ℚ} {l h : ℚ} (hl : Is lo l) (hh : Is hi h) :
    ∃ R m N, cosTail lo hi = .ok R ∧ IsI R m N ∧ -1 ≤ m ∧ m ≤ N ∧ N ≤ 1 := by
  obtain ⟨c1, i1, -, a1, a2⟩ := L.cos lo l hl
  obtain ⟨c2, i2, -, b1, b2⟩ := L.cos hi h hh
  have full : ∃ R m N, Ivl.make (.num (-1) : Fl ℚ) (.num 1) = .ok R ∧ IsI R m N ∧ -1 ≤ m ∧ m ≤ N ∧ N ≤ 1 := by
    obtain ⟨R, e, i⟩ := (Is.num (-1 : ℚ)).make (Is.num 1) (by norm_num)
    exact ⟨R, _, _, e, i, by norm_num, by norm_num, by norm_num⟩
  unfold cosTail
  split
  · split
    · obtain ⟨R, e, i⟩ := i1.unordered i2
      exact ⟨R, _, _, e, i, le_min a1 b1, min_le_max, max_le a2 b2⟩
    · split
      · obtain ⟨R, e, i⟩ := (i1.cmin i2).make (Is.num 1) ((min_le_left _ _).trans a2)
        exact ⟨R, _, _, e, i, le_min a1 b1, (min_le_left _ _).trans a2, le_rfl⟩
      · exact full
  · split
    · obtain ⟨R, e, i⟩ := i2.unordered i1
      exact ⟨R, _, _, e, i, le_min b1 a1, min_le_max, max_le b2 a2⟩
    · split
      · obtain ⟨R, e, i⟩ := (Is.num (-1 : ℚ)).make (i1.cmax i2) (a1.trans (le_max_left _ _))
        exact ⟨R, _, _, e, i, le_rfl, a1.trans (le_max_left _ _), max_le a2 b2⟩
      · exact full

/-- the result contains the cosine of every number between the bounds, up to the errors -/
theorem cosTail_err {p d q : ℚ} (L : CosLib p d) {lo hi : Fl ℚ} {l h : ℚ} (hl : Is lo l) (hh : Is hi h) {η E : ℝ} (η0 : 0 ≤ η)
    (l1 : -Real.pi - η ≤ l) (p1 : (p : ℝ) ≤ Real.pi + η) (hq : Is (Fl.mul (.num 2) Libm.pi) q) (q1 : (q : ℝ) ≤ 2 * Real.pi + η)
    (E0 : 0 ≤ E) {y : ℝ} (y1 : l - E ≤ y) (y2 : y ≤ h + E) {R : Ivl (Fl ℚ)} {m N : ℚ} (eR : cosTail lo hi = .ok R) (iR : IsI R m N) :
    m - (E + η + d) ≤ Real.cos y ∧ Real.cos y ≤ N + (E + η + d) := by
  obtain ⟨c1, i1, f1, a1, a2⟩ := L.cos lo l hl
  obtain ⟨c2, i2, f2, b1, b2⟩ := L.cos hi h hh
  have hp : Is (Libm.pi : Fl ℚ) p := by rw [L.pi]; exact Is.num p
  have d0 : (0:ℝ) ≤ d := (abs_nonneg _).trans f1
  obtain ⟨y', ey, y3, y4⟩ := near_point y1 y2 E0
  rw [abs_le] at ey f1 f2
  have up := Real.cos_le_one y
  have dn := Real.neg_one_le_cos y
  have full : ∀ {R : Ivl (Fl ℚ)} {m N : ℚ}, Ivl.make (.num (-1) : Fl ℚ) (.num 1) = .ok R → IsI R m N →
      m - (E + η + d) ≤ Real.cos y ∧ Real.cos y ≤ N + (E + η + d) := by
    intro R m N e i
    obtain ⟨R', e', i'⟩ := (Is.num (-1 : ℚ)).make (Is.num 1) (by norm_num)
    rw [e] at e'; cases e'
    rw [i.1.unique i'.1, i.2.unique i'.2]
    push_cast
    constructor <;> linarith
  unfold cosTail at eR
  rw [hl.le_eq (Is.num 0), hh.le_eq (Is.num 0), hh.le_eq hp, hh.le_eq hq] at eR
  by_cases g : l ≤ 0
  · have g' : (l:ℝ) ≤ 0 := by exact_mod_cast g
    rw [if_pos (by simpa using g)] at eR
    by_cases g2 : h ≤ 0
    · have g2' : (h:ℝ) ≤ 0 := by exact_mod_cast g2
      rw [if_pos (by simpa using g2)] at eR
      obtain ⟨R', e', i'⟩ := i1.unordered i2
      rw [eR] at e'; cases e'
      rw [iR.1.unique i'.1, iR.2.unique i'.2]
      push_cast
      have u1 := min_le_left (c1:ℝ) c2; have u2 := le_max_left (c1:ℝ) c2; have u3 := le_max_right (c1:ℝ) c2
      rcases y4 with rfl | y4
      · constructor <;> linarith
      · have v1 := cos_up l1 y3 (y4.trans g2') η0
        have v2 := cos_up (l1.trans y3) y4 g2' η0
        constructor <;> linarith
    · rw [if_neg (by simpa using g2)] at eR
      by_cases g3 : h ≤ p
      · have g3' : (h:ℝ) ≤ p := by exact_mod_cast g3
        rw [if_pos (by simpa using g3)] at eR
        obtain ⟨R', e', i'⟩ := (i1.cmin i2).make (Is.num 1) ((min_le_left _ _).trans a2)
        rw [eR] at e'; cases e'
        rw [iR.1.unique i'.1, iR.2.unique i'.2]
        push_cast
        have u1 := min_le_left (c1:ℝ) c2; have u2 := min_le_right (c1:ℝ) c2
        refine ⟨?_, by linarith⟩
        rcases y4 with rfl | y4
        · linarith
        · by_cases y5 : y' ≤ 0
          · have v1 := cos_up l1 y3 y5 η0
            linarith
          · have v1 := cos_down (by linarith) y4 (g3'.trans p1) η0
            linarith
      · rw [if_neg (by simpa using g3)] at eR
        exact full eR iR
  · have g' : (0:ℝ) < l := by exact_mod_cast not_le.mp g
    rw [if_neg (by simpa using g)] at eR
    by_cases g3 : h ≤ p
    · have g3' : (h:ℝ) ≤ p := by exact_mod_cast g3
      rw [if_pos (by simpa using g3)] at eR
      obtain ⟨R', e', i'⟩ := i2.unordered i1
      rw [eR] at e'; cases e'
      rw [iR.1.unique i'.1, iR.2.unique i'.2]
      push_cast
      have u1 := min_le_left (c2:ℝ) c1; have u2 := le_max_right (c2:ℝ) c1; have u3 := min_le_right (c2:ℝ) c1
      rcases y4 with rfl | y4
      · constructor <;> linarith
      · have v1 := cos_down (g'.le.trans y3) y4 (g3'.trans p1) η0
        have v2 := cos_down g'.le y3 (y4.trans (g3'.trans p1)) η0
        constructor <;> linarith
    · rw [if_neg (by simpa using g3)] at eR
      by_cases g4 : h ≤ q
      · have g4' : (h:ℝ) ≤ q := by exact_mod_cast g4
        rw [if_pos (by simpa using g4)] at eR
        obtain ⟨R', e', i'⟩ := (Is.num (-1 : ℚ)).make (i1.cmax i2) (a1.trans (le_max_left _ _))
        rw [eR] at e'; cases e'
        rw [iR.1.unique i'.1, iR.2.unique i'.2]
        push_cast
        have u1 := le_max_left (c1:ℝ) c2; have u2 := le_max_right (c1:ℝ) c2
        refine ⟨by linarith, ?_⟩
        rcases y4 with rfl | y4
        · linarith
        · by_cases y5 : y' ≤ Real.pi
          · have v1 := cos_down g'.le y3 (by linarith : y' ≤ Real.pi + η) η0
            linarith
          · have v1 := cos_up' (by linarith) y4 (g4'.trans q1) η0
            linarith
      · rw [if_neg (by simpa using g4)] at eR
        exact full eR iR

/-- both bounds are cosines of numbers between the bounds (in either order), up to the errors -/
theorem cosTail_tight {p d q : ℚ} (L : CosLib p d) {lo hi : Fl ℚ} {l h : ℚ} (hl : Is lo l) (hh : Is hi h) {η : ℝ} (η0 : 0 ≤ η)
    (l2 : l ≤ Real.pi + η) (p2 : Real.pi - η ≤ p) (hq : Is (Fl.mul (.num 2) Libm.pi) q)
    (q1 : 2 * Real.pi - η ≤ q) {R : Ivl (Fl ℚ)} {m N : ℚ} (eR : cosTail lo hi = .ok R) (iR : IsI R m N) :
    (∃ y : ℝ, (y = l ∨ l ≤ y ∧ y ≤ h ∨ y = h) ∧ Real.cos y ≤ m + (η + d)) ∧
      (∃ y : ℝ, (y = l ∨ l ≤ y ∧ y ≤ h ∨ y = h) ∧ N ≤ Real.cos y + (η + d)) := by
  obtain ⟨c1, i1, f1, a1, a2⟩ := L.cos lo l hl
  obtain ⟨c2, i2, f2, b1, b2⟩ := L.cos hi h hh
  have hp : Is (Libm.pi : Fl ℚ) p := by rw [L.pi]; exact Is.num p
  have d0 : (0:ℝ) ≤ d := (abs_nonneg _).trans f1
  rw [abs_le] at f1 f2
  have pg := Real.pi_pos
  -- a bound that is one of the two computed cosines
  have mn : ∃ y : ℝ, (y = l ∨ l ≤ y ∧ y ≤ h ∨ y = h) ∧ Real.cos y ≤ ((min c1 c2 : ℚ) : ℝ) + (η + d) := by
    rcases min_cases c1 c2 with ⟨e, -⟩ | ⟨e, -⟩ <;> rw [e]
    · exact ⟨l, .inl rfl, by linarith [f1.1]⟩
    · exact ⟨h, .inr (.inr rfl), by linarith [f2.1]⟩
  have mx : ∃ y : ℝ, (y = l ∨ l ≤ y ∧ y ≤ h ∨ y = h) ∧ ((max c1 c2 : ℚ) : ℝ) ≤ Real.cos y + (η + d) := by
    rcases max_cases c1 c2 with ⟨e, -⟩ | ⟨e, -⟩ <;> rw [e]
    · exact ⟨l, .inl rfl, by linarith [f1.2]⟩
    · exact ⟨h, .inr (.inr rfl), by linarith [f2.2]⟩
  -- the interval reaches `pi`
  have reach : p < h → ∃ y : ℝ, (y = l ∨ l ≤ y ∧ y ≤ h ∨ y = h) ∧ Real.cos y ≤ -1 + (η + d) := by
    intro g
    have g' : (p:ℝ) < h := by exact_mod_cast g
    have at_pi : ∀ z : ℝ, |z - Real.pi| ≤ η → Real.cos z ≤ -1 + (η + d) := by
      intro z hz
      have := (abs_le.mp ((Real.abs_cos_sub_cos_le z Real.pi).trans hz)).2
      rw [Real.cos_pi] at this; linarith
    by_cases k1 : (l:ℝ) ≤ Real.pi
    · by_cases k2 : Real.pi ≤ h
      · exact ⟨Real.pi, .inr (.inl ⟨k1, k2⟩), by rw [Real.cos_pi]; linarith⟩
      · exact ⟨h, .inr (.inr rfl), at_pi _ (abs_le.mpr ⟨by linarith, by linarith⟩)⟩
    · exact ⟨l, .inl rfl, at_pi _ (abs_le.mpr ⟨by linarith, by linarith⟩)⟩
  have full : ∀ {R : Ivl (Fl ℚ)} {m N : ℚ}, Ivl.make (.num (-1) : Fl ℚ) (.num 1) = .ok R → IsI R m N → m = -1 ∧ N = 1 := by
    intro R m N e i
    obtain ⟨R', e', i'⟩ := (Is.num (-1 : ℚ)).make (Is.num 1) (by norm_num)
    rw [e] at e'; cases e'
    exact ⟨i.1.unique i'.1, i.2.unique i'.2⟩
  unfold cosTail at eR
  rw [hl.le_eq (Is.num 0), hh.le_eq (Is.num 0), hh.le_eq hp, hh.le_eq hq] at eR
  by_cases g : l ≤ 0
  · have g' : (l:ℝ) ≤ 0 := by exact_mod_cast g
    rw [if_pos (by simpa using g)] at eR
    by_cases g2 : h ≤ 0
    · rw [if_pos (by simpa using g2)] at eR
      obtain ⟨R', e', i'⟩ := i1.unordered i2
      rw [eR] at e'; cases e'
      rw [iR.1.unique i'.1, iR.2.unique i'.2]
      exact ⟨mn, mx⟩
    · have g2' : (0:ℝ) < h := by exact_mod_cast not_le.mp g2
      rw [if_neg (by simpa using g2)] at eR
      have zero : ∃ y : ℝ, (y = l ∨ l ≤ y ∧ y ≤ h ∨ y = h) ∧ 1 ≤ Real.cos y + (η + d) :=
        ⟨0, .inr (.inl ⟨g', g2'.le⟩), by rw [Real.cos_zero]; linarith⟩
      by_cases g3 : h ≤ p
      · rw [if_pos (by simpa using g3)] at eR
        obtain ⟨R', e', i'⟩ := (i1.cmin i2).make (Is.num 1) ((min_le_left _ _).trans a2)
        rw [eR] at e'; cases e'
        rw [iR.1.unique i'.1, iR.2.unique i'.2]
        exact ⟨mn, by push_cast; exact zero⟩
      · rw [if_neg (by simpa using g3)] at eR
        obtain ⟨rfl, rfl⟩ := full eR iR
        push_cast
        exact ⟨reach (not_le.mp g3), zero⟩
  · rw [if_neg (by simpa using g)] at eR
    by_cases g3 : h ≤ p
    · rw [if_pos (by simpa using g3)] at eR
      obtain ⟨R', e', i'⟩ := i2.unordered i1
      rw [eR] at e'; cases e'
      rw [iR.1.unique i'.1, iR.2.unique i'.2, min_comm, max_comm]
      exact ⟨mn, mx⟩
    · rw [if_neg (by simpa using g3)] at eR
      by_cases g4 : h ≤ q
      · rw [if_pos (by simpa using g4)] at eR
        obtain ⟨R', e', i'⟩ := (Is.num (-1 : ℚ)).make (i1.cmax i2) (a1.trans (le_max_left _ _))
        rw [eR] at e'; cases e'
        rw [iR.1.unique i'.1, iR.2.unique i'.2]
        exact ⟨by push_cast; exact reach (not_le.mp g3), mx⟩
      · have g4' : (q:ℝ) < h := by exact_mod_cast not_le.mp g4
        rw [if_neg (by simpa using g4)] at eR
        obtain ⟨rfl, rfl⟩ := full eR iR
        push_cast
        refine ⟨reach (not_le.mp g3), ?_⟩
        by_cases k1 : (l:ℝ) ≤ 2 * Real.pi
        · by_cases k2 : 2 * Real.pi ≤ h
          · exact ⟨2 * Real.pi, .inr (.inl ⟨k1, k2⟩), by rw [Real.cos_two_pi]; linarith⟩
          · refine ⟨h, .inr (.inr rfl), ?_⟩
            have := (abs_le.mp ((Real.abs_cos_sub_cos_le h (2 * Real.pi)).trans
              (show |(h:ℝ) - 2 * Real.pi| ≤ η from abs_le.mpr ⟨by linarith, by linarith⟩))).1
            rw [Real.cos_two_pi] at this; linarith
        · refine ⟨l, .inl rfl, ?_⟩
          have := (abs_le.mp ((Real.abs_cos_sub_cos_le l (2 * Real.pi)).trans
              (show |(l:ℝ) - 2 * Real.pi| ≤ η from abs_le.mpr ⟨by linarith, by linarith⟩))).1
          rw [Real.cos_two_pi] at this; linarith

/-- `cos(X)` with rounding -/
theorem cos_err {M e p d : ℚ} (E : AbsErr M e) (E8 : AbsErr (8:ℚ) d) (L : CosLib p d) (hd : d ≤ 1/8) (hde : d ≤ e) (dbg : Bool)
    (X : Ivl (Fl ℚ)) (hX : Proper X) {a b B : ℚ} (ha : Is X.lo a) (hb : Is X.hi b) (a1 : -B ≤ a) (a2 : a ≤ b) (a3 : b ≤ B)
    (hM : 2 * B + 16 + 4 * e ≤ M) :
    ∃ R m N, cosI dbg X = .ok R ∧ IsI R m N ∧ -1 ≤ m ∧ m ≤ N ∧ N ≤ 1 ∧
      RangeUpTo Real.cos a b m N (16 * e + B * d) := by
  have hp : Is (Libm.pi : Fl ℚ) p := by rw [L.pi]; exact Is.num p
  have near := abs_le.mp L.near
  have d0 : (0:ℝ) ≤ d := (abs_nonneg _).trans L.near
  have d0' : 0 ≤ d := by exact_mod_cast d0
  have hd' : (d:ℝ) ≤ 1/8 := by
    have : ((d:ℚ):ℝ) ≤ ((1/8:ℚ):ℝ) := by exact_mod_cast hd
    simpa using this
  have pg := Real.pi_gt_d2; have pl := Real.pi_lt_d2
  have p3 : (3:ℚ) < p := by
    have : ((3:ℚ):ℝ) < p := by push_cast; linarith [near.1]
    exact_mod_cast this
  have p4 : p < 33/10 := by
    have : (p:ℝ) < ((33/10:ℚ):ℝ) := by push_cast; linarith [near.2]
    exact_mod_cast this
  have B0 : 0 ≤ B := by linarith
  obtain ⟨w, hw, ew⟩ := E8.sub hp hp.neg (abs_le.mpr ⟨by linarith, by linarith⟩)
  obtain ⟨q, hq, eq⟩ := E8.mul (Is.num 2) hp (abs_le.mpr ⟨by linarith, by linarith⟩)
  have ew' := abs_le.mp ew
  have w0 : 5 < w := by linarith [ew'.1]
  have w1 : w < 7 := by linarith [ew'.2]
  obtain ⟨lo, l, ewrap, hl, -, l1, l2, n, hn⟩ := wrap_err E ha hp.neg hp (by linarith) hw (by linarith)
    (abs_le.mpr ⟨by linarith, by linarith⟩) (by linarith) (by rw [abs_neg, abs_of_pos (by linarith)]; linarith)
  have e0 : 0 ≤ e := d0'.trans hde
  obtain ⟨v, hv, ev⟩ := E.sub hl ha (abs_le.mpr ⟨by linarith, by linarith⟩)
  rw [abs_le] at ev
  obtain ⟨h, hh, eh⟩ := E.add hb hv (abs_le.mpr ⟨by linarith, by linarith⟩)
  rw [abs_le] at eh hn eq
  obtain ⟨R, m, N, eR, iR, r1, r2, r3⟩ := cosTail_range L hl hh
  refine ⟨R, m, N, (cosI_eq dbg hX ewrap).trans eR, iR, r1, r2, r3, ?_⟩
  have cast : ∀ {x y : ℚ}, x ≤ y → (x:ℝ) ≤ y := fun h => by exact_mod_cast h
  by_cases big : e ≤ 1/8
  · have n1 : (|n| : ℚ) ≤ B / 5 + 1 := by
      rcases le_total (0:ℚ) n with n0 | n0
      · rw [abs_of_nonneg n0]; nlinarith [hn.1]
      · rw [abs_of_nonpos n0]; nlinarith [hn.2]
    have n2 := cast n1
    have n3 : |(n:ℝ) * (w - 2 * Real.pi)| ≤ (B / 5 + 1) * (3 * d) := by
      rw [abs_mul]
      refine mul_le_mul (by push_cast at n2; exact n2) ?_ (abs_nonneg _) (by have := cast B0; push_cast at this; positivity)
      have u1 := cast ew'.1; have u2 := cast ew'.2
      push_cast at u1 u2
      exact abs_le.mpr ⟨by linarith [near.1, near.2], by linarith [near.1, near.2]⟩
    rw [abs_le] at n3
    have k1 := cast hn.1; have k2 := cast hn.2; have k3 := cast l1; have k3' := cast l2; have k4 := cast ev.1; have k5 := cast ev.2
    have k6 := cast eh.1; have k7 := cast eh.2; have k8 := cast hde; have k9 := cast eq.2; have k9' := cast eq.1
    have k0 := cast e0; have kB := cast B0; have kab := cast a2; have kw := cast ew'.2
    push_cast at k1 k2 k3 k3' k4 k5 k6 k7 k8 k9 k9' k0 kB kab kw
    have Bd := mul_nonneg kB d0
    have E0 : (0:ℝ) ≤ 5 * e + (B / 5 + 1) * (3 * d) := by nlinarith
    -- numbers between the shifted bounds come from numbers of `X`
    have back : ∀ y : ℝ, (y = l ∨ l ≤ y ∧ y ≤ h ∨ y = h) →
        ∃ t : ℝ, a ≤ t ∧ t ≤ b ∧ |Real.cos t - Real.cos y| ≤ 5 * e + (B / 5 + 1) * (3 * d) := by
      intro y hy
      obtain ⟨t, t1, t2, ht⟩ : ∃ t : ℝ, a ≤ t ∧ t ≤ b ∧ |t + n * (2 * Real.pi) - y| ≤ 5 * e + (B / 5 + 1) * (3 * d) := by
        have y1 : l ≤ y ∨ y = h := by rcases hy with r | r | r <;> [exact .inl r.ge; exact .inl r.1; exact .inr r]
        have y2 : y ≤ h ∨ y = l := by rcases hy with r | r | r <;> [exact .inr r; exact .inl r.2; exact .inl r.le]
        have lowl : (a:ℝ) + n * (2 * Real.pi) - y ≤ 5 * e + (B / 5 + 1) * (3 * d) := by
          rcases y1 with r | r
          · linarith [n3.1, n3.2]
          · linarith [n3.1, n3.2]
        have upl : -(5 * e + (B / 5 + 1) * (3 * d)) ≤ (b:ℝ) + n * (2 * Real.pi) - y := by
          rcases y2 with r | r
          · linarith [n3.1, n3.2]
          · linarith [n3.1, n3.2]
        by_cases c1 : y - n * (2 * Real.pi) ≤ a
        · exact ⟨a, le_rfl, kab, abs_le.mpr ⟨by linarith, lowl⟩⟩
        by_cases c2 : y - n * (2 * Real.pi) ≤ b
        · exact ⟨y - n * (2 * Real.pi), by linarith, c2, by rw [show y - n * (2 * Real.pi) + n * (2 * Real.pi) - y = 0 by ring, abs_zero]; exact E0⟩
        · exact ⟨b, kab, le_rfl, abs_le.mpr ⟨upl, by linarith⟩⟩
      refine ⟨t, t1, t2, ?_⟩
      rw [← Real.cos_add_int_mul_two_pi t n]
      exact (Real.abs_cos_sub_cos_le _ _).trans ht
    obtain ⟨⟨y, hy, cy⟩, ⟨z, hz, cz⟩⟩ := cosTail_tight (η := 3 * e) L hl hh (by linarith) (by linarith [near.1, near.2])
      (by linarith [near.1, near.2]) hq (by linarith [near.1, near.2]) eR iR
    refine ⟨fun t t1 t2 => ?_, ?_, ?_⟩
    · have := cosTail_err (η := 3 * e) (E := 5 * e + (B / 5 + 1) * (3 * d)) (y := t + n * (2 * Real.pi)) L hl hh (by linarith)
        (by linarith [near.1, near.2]) (by linarith [near.1, near.2]) hq (by linarith [near.1, near.2]) (by nlinarith) (by linarith [n3.1, n3.2])
        (by linarith [n3.1, n3.2]) eR iR
      rw [Real.cos_add_int_mul_two_pi] at this
      constructor <;> linarith [this.1, this.2]
    · obtain ⟨t, t1, t2, ht⟩ := back y hy
      exact ⟨t, t1, t2, by linarith [(abs_le.mp ht).2]⟩
    · obtain ⟨t, t1, t2, ht⟩ := back z hz
      exact ⟨t, t1, t2, by linarith [(abs_le.mp ht).1]⟩
  · have k1 := cast (not_le.mp big).le; have k2 := cast r1; have k3 := cast r2; have k4 := cast r3; have kB := cast B0; have kab := cast a2
    push_cast at k1 k2 k3 k4 kB kab
    have Bd := mul_nonneg kB d0
    refine ⟨fun t t1 t2 => ?_, ⟨a, le_rfl, kab, ?_⟩, ⟨a, le_rfl, kab, ?_⟩⟩
    · have := Real.cos_le_one t; have := Real.neg_one_le_cos t
      constructor <;> linarith
    · have := Real.cos_le_one a
      linarith
    · have := Real.neg_one_le_cos a
      linarith

/-- `sin(X)` with rounding -/
theorem sin_err {M e p d : ℚ} (E : AbsErr M e) (E8 : AbsErr (8:ℚ) d) (L : CosLib p d) (hd : d ≤ 1/8) (hde : d ≤ e) (dbg : Bool)
    (X : Ivl (Fl ℚ)) (hX : Proper X) {a b B : ℚ} (ha : Is X.lo a) (hb : Is X.hi b) (a1 : -B ≤ a) (a2 : a ≤ b) (a3 : b ≤ B)
    (hM : 2 * B + 20 + 6 * e ≤ M) :
    ∃ R m N, sinI dbg X = .ok R ∧ IsI R m N ∧ -1 ≤ m ∧ m ≤ N ∧ N ≤ 1 ∧
      RangeUpTo Real.sin a b m N (22 * e + B * d) := by
  have hp : Is (Libm.pi : Fl ℚ) p := by rw [L.pi]; exact Is.num p
  have near := abs_le.mp L.near
  have d0 : (0:ℝ) ≤ d := (abs_nonneg _).trans L.near
  have d0' : 0 ≤ d := by exact_mod_cast d0
  have hd' : (d:ℝ) ≤ 1/8 := by
    have : ((d:ℚ):ℝ) ≤ ((1/8:ℚ):ℝ) := by exact_mod_cast hd
    simpa using this
  have pg := Real.pi_gt_d2; have pl := Real.pi_lt_d2
  have p3 : (3:ℚ) < p := by
    have : ((3:ℚ):ℝ) < p := by push_cast; linarith [near.1]
    exact_mod_cast this
  have p4 : p < 33/10 := by
    have : (p:ℝ) < ((33/10:ℚ):ℝ) := by push_cast; linarith [near.2]
    exact_mod_cast this
  have e0 : 0 ≤ e := d0'.trans hde
  obtain ⟨s, hs, es⟩ := E8.div hp (Is.num 2) (by norm_num) (abs_le.mpr ⟨by linarith, by linarith⟩)
  rw [abs_le] at es
  obtain ⟨a', ha', ea⟩ := E.sub ha hs (abs_le.mpr ⟨by linarith, by linarith⟩)
  obtain ⟨b', hb', eb⟩ := E.sub hb hs (abs_le.mpr ⟨by linarith, by linarith⟩)
  rw [abs_le] at ea eb
  have hle : le (Fl.sub X.lo (Fl.div Libm.pi (.num 2))) (Fl.sub X.hi (Fl.div Libm.pi (.num 2))) = true :=
    Fl.add_mono_left hX ha'.ne_nan hb'.ne_nan
  obtain ⟨R, m, N, eR, iR, r1, r2, r3, h⟩ := cos_err E E8 L hd hde dbg ⟨_, _⟩ hle (B := B + 2 + e) ha' hb' (by linarith)
    ((ha'.le_iff hb').mp hle) (by linarith) (by linarith)
  refine ⟨R, m, N, ?_, iR, r1, r2, r3, ?_⟩
  · unfold sinI; rw [sub_scalar dbg hX hs hle]; exact eR
  have cast : ∀ {x y : ℚ}, x ≤ y → (x:ℝ) ≤ y := fun h => by exact_mod_cast h
  have k1 := cast es.1; have k2 := cast es.2; have k3 := cast ea.1; have k4 := cast ea.2; have k5 := cast eb.1; have k6 := cast eb.2
  have k7 := cast hde; have k0 := cast e0; have k8 := cast ((ha'.le_iff hb').mp hle); have kab := cast a2
  push_cast at k1 k2 k3 k4 k5 k6 k7 k0 k8 kab
  have ed : (e:ℝ) * d ≤ e := by nlinarith
  obtain ⟨h1, ⟨x, x1, x2, hx⟩, ⟨z, z1, z2, hz⟩⟩ := h
  push_cast at h1 hx hz
  -- numbers of the shifted interval come from numbers of `X`
  have back : ∀ y : ℝ, (a':ℝ) ≤ y → y ≤ b' → ∃ t : ℝ, a ≤ t ∧ t ≤ b ∧ |Real.sin t - Real.cos y| ≤ 3 * e := by
    intro y y1 y2
    obtain ⟨t, t1, t2, ht⟩ : ∃ t : ℝ, a ≤ t ∧ t ≤ b ∧ |t - Real.pi / 2 - y| ≤ 3 * e := by
      by_cases c1 : y + Real.pi / 2 ≤ a
      · exact ⟨a, le_rfl, kab, abs_le.mpr ⟨by linarith, by linarith [near.1, near.2]⟩⟩
      by_cases c2 : y + Real.pi / 2 ≤ b
      · exact ⟨_, by linarith, c2, by rw [show y + Real.pi / 2 - Real.pi / 2 - y = 0 by ring, abs_zero]; linarith⟩
      · exact ⟨b, kab, le_rfl, abs_le.mpr ⟨by linarith [near.1, near.2], by linarith⟩⟩
    refine ⟨t, t1, t2, ?_⟩
    rw [← Real.cos_sub_pi_div_two]
    exact (Real.abs_cos_sub_cos_le _ _).trans ht
  refine ⟨fun t t1 t2 => ?_, ?_, ?_⟩
  · rw [← Real.cos_sub_pi_div_two]
    obtain ⟨y, y1, y2, y3⟩ : ∃ y : ℝ, (a':ℝ) ≤ y ∧ y ≤ b' ∧ |(t - Real.pi / 2) - y| ≤ 3 * e := by
      by_cases c1 : t - Real.pi / 2 ≤ a'
      · exact ⟨a', le_rfl, k8, abs_le.mpr ⟨by linarith [near.1, near.2], by linarith⟩⟩
      by_cases c2 : t - Real.pi / 2 ≤ b'
      · exact ⟨_, by linarith, c2, by simpa using k0⟩
      · exact ⟨b', k8, le_rfl, abs_le.mpr ⟨by linarith, by linarith [near.1, near.2]⟩⟩
    have l := abs_le.mp ((Real.abs_cos_sub_cos_le _ _).trans y3)
    have := h1 y y1 y2
    constructor <;> linarith [this.1, this.2, l.1, l.2]
  · obtain ⟨t, t1, t2, ht⟩ := back x x1 x2
    exact ⟨t, t1, t2, by linarith [(abs_le.mp ht).2]⟩
  · obtain ⟨t, t1, t2, ht⟩ := back z z1 z2
    exact ⟨t, t1, t2, by linarith [(abs_le.mp ht).1]⟩
end main

/-- C81 as stated: in a format whose rounding error is at most `e` for numbers up to `M`, with an accurate library, `cos(X)` and `sin(X)` of
a bounded interval succeed, lie within [-1, 1], and contain the cosine and sine of all points as the library computes them (the sine as
`cos(x - pi/2)`).  The rounding errors are assumed to be small, `M` to exceed the bounds. -/
def C81_full : Prop :=
  ∀ (_ : Fmt ℚ) (_ : Libm ℚ) (p d M e : ℚ), AbsErr M e → AbsErr (8:ℚ) d → CosLib p d → d ≤ 1/8 → d ≤ e →
    ∀ (dbg : Bool) (X : Ivl (Fl ℚ)), FiniteI X → ∀ B : ℚ, (∀ x, .num x ∈ᵢ X → |x| ≤ B) → 2 * B + 20 + 6 * e ≤ M →
      ∃ C S, cosI dbg X = .ok C ∧ sinI dbg X = .ok S ∧ le (.num (-1)) C.lo = true ∧ le C.hi (.num 1) = true ∧
        le (.num (-1)) S.lo = true ∧ le S.hi (.num 1) = true ∧
        ∀ x, .num x ∈ᵢ X → Libm.cos (.num x) ∈ᵢ C ∧ Libm.cos (Fl.sub (.num x) (Fl.div Libm.pi (.num 2))) ∈ᵢ S

section main
variable [Fmt ℚ] [Libm ℚ]
/-- C81: in a format whose rounding error is at most `e` for numbers up to `M` and `d` for numbers up to 8, with a library accurate up to
`d`, on bounds of magnitude at most `B`: `cos(X)` is an interval within [-1, 1] that contains the cosine of every real number between the
bounds up to `16e + Bd`, and exceeds their range by no more.  (Missing: containment without this tolerance, which is false, see `C81_violated`.) -/
theorem C81_cos_partial {M e p d : ℚ} (E : AbsErr M e) (E8 : AbsErr (8:ℚ) d) (L : CosLib p d) (hd : d ≤ 1/8) (hde : d ≤ e) (dbg : Bool)
    (X : Ivl (Fl ℚ)) (hX : FiniteI X) (B : ℚ) (hB : ∀ x, .num x ∈ᵢ X → |x| ≤ B) (hM : 2 * B + 20 + 6 * e ≤ M) :
    ∃ R m N, cosI dbg X = .ok R ∧ IsI R m N ∧ -1 ≤ m ∧ m ≤ N ∧ N ≤ 1 ∧
      RangeUpTo Real.cos X.lo.val X.hi.val m N (16 * e + B * d) := by
  have i := isI_of_finite hX.1 hX.2.1
  have h := i.proper.mp hX.2.2
  have b1 := abs_le.mp (hB X.lo.val (i.mem_num.mpr ⟨le_rfl, h⟩))
  have b2 := abs_le.mp (hB X.hi.val (i.mem_num.mpr ⟨h, le_rfl⟩))
  have e0 : 0 ≤ e := by
    have : (0:ℝ) ≤ d := (abs_nonneg _).trans L.near
    have : 0 ≤ d := by exact_mod_cast this
    linarith
  exact cos_err E E8 L hd hde dbg X hX.2.2 i.1 i.2 b1.1 h b2.2 (by linarith)

/-- C81: the same for `sin(X)`, with the tolerance `22e + Bd`. -/
theorem C81_sin_partial {M e p d : ℚ} (E : AbsErr M e) (E8 : AbsErr (8:ℚ) d) (L : CosLib p d) (hd : d ≤ 1/8) (hde : d ≤ e) (dbg : Bool)
    (X : Ivl (Fl ℚ)) (hX : FiniteI X) (B : ℚ) (hB : ∀ x, .num x ∈ᵢ X → |x| ≤ B) (hM : 2 * B + 20 + 6 * e ≤ M) :
    ∃ R m N, sinI dbg X = .ok R ∧ IsI R m N ∧ -1 ≤ m ∧ m ≤ N ∧ N ≤ 1 ∧
      RangeUpTo Real.sin X.lo.val X.hi.val m N (22 * e + B * d) := by
  have i := isI_of_finite hX.1 hX.2.1
  have h := i.proper.mp hX.2.2
  have b1 := abs_le.mp (hB X.lo.val (i.mem_num.mpr ⟨le_rfl, h⟩))
  have b2 := abs_le.mp (hB X.hi.val (i.mem_num.mpr ⟨h, le_rfl⟩))
  exact sin_err E E8 L hd hde dbg X hX.2.2 i.1 i.2 b1.1 h b2.2 hM
end main

section infinite
variable {K : Type} [Field K] [LinearOrder K] [IsStrictOrderedRing K] [FloorRing K] [Fmt K] [Libm K]

theorem sub_inf {x b : Fl K} (hx : x = .ninf ∨ x = .pinf) (fb : b.isFinite = true) : Fl.sub x b = x := by
  have h : ∀ c : Fl K, c.isFinite = true → Fl.add x c = x := fun c hc => by
    rcases hx with rfl | rfl <;> cases c <;> simp [isFinite, Fl.add, isNan, isInf] at *
  exact h _ (by rw [finite_neg]; exact fb)

theorem wrap_inf' {x a b : Fl K} (hx : x = .ninf ∨ x = .pinf) (h : lt a b = true) (fa : a.isFinite = true) : Fl.wraparound x a b = .ok .nan := by
  have hs : Fl.sub x a = x := sub_inf hx fa
  have hf : ∀ r : Fl K, Fl.fmod x r = .nan := fun r => by
    unfold Fl.fmod; rcases hx with rfl | rfl <;> simp [isInf]
  have ha : ∀ r : Fl K, Fl.add r .nan = .nan := fun r => by simp [Fl.add, isNan]
  have hn : ∀ r : Fl K, Fl.fmod .nan r = .nan := fun r => by simp [Fl.fmod, isNan]
  unfold Fl.wraparound
  rw [h]
  simp only [expects_true, ok_bind, hs, hf, ha, hn]
  rfl

theorem cos_inf' (dbg : Bool) {X : Ivl (Fl K)} (hX : Proper X) (hi : ¬(X.lo.isFinite = true ∧ X.hi.isFinite = true))
    {p q : K} (hpi : (Libm.pi : Fl K) = .num p) (p0 : 0 < p) (hq : Is (Fl.mul (.num 2) (Libm.pi : Fl K)) q) :
    cosI dbg X = .ok ⟨.num (-1), .num 1⟩ := by
  have hp : Is (Libm.pi : Fl K) p := by rw [hpi]; exact Is.num p
  have fin : Ivl.make (.num (-1) : Fl K) (.num 1) = .ok ⟨.num (-1), .num 1⟩ := make_ok_of_le (by simp)
  have hlt : lt (Fl.neg (Libm.pi : Fl K)) Libm.pi = true := (hp.neg.lt_iff hp).mpr (by linarith)
  obtain ⟨lo, ew⟩ : ∃ lo, Fl.wraparound X.lo (Fl.neg Libm.pi) Libm.pi = .ok lo := by
    unfold Fl.wraparound; rw [hlt]; exact ⟨_, rfl⟩
  have hadd : Fl.add X.hi (Fl.sub lo X.lo) = .pinf ∨ Fl.add X.hi (Fl.sub lo X.lo) = .nan := by
    by_cases hl : X.lo.isFinite = true
    · have hh : X.hi = .pinf := by
        have h2 : ¬ X.hi.isFinite = true := fun h => hi ⟨hl, h⟩
        unfold Proper at hX
        cases e1 : X.lo <;> cases e2 : X.hi <;> simp [e1, e2, isFinite] at *
      rw [hh]
      generalize Fl.sub lo X.lo = v
      cases v <;> simp [Fl.add, isNan, isInf, signBit]
    · have hx : X.lo = .ninf ∨ X.lo = .pinf := by
        unfold Proper at hX
        cases e1 : X.lo <;> simp [e1, isFinite] at *
      rw [wrap_inf' hx hlt hp.neg.1] at ew; cases ew
      exact Or.inr (by simp [Fl.add, Fl.sub, isNan])
  have not_le : ∀ {b : Fl K} {k : K}, Is b k → le (Fl.add X.hi (Fl.sub lo X.lo)) b = false := by
    intro b k hb
    rcases hadd with e | e <;> rw [e]
    · cases b <;> simp [Is, isFinite] at hb ⊢
    · simp
  unfold cosI
  rw [show X.assigned = true from assigned_of_proper (X := .ivl X) hX, expectsDebug_true, ok_bind]
  simp only [ew, ok_bind, not_le (Is.num 0), not_le hp, not_le hq, fin]
  simp

/-- C81: in every format with a positive `pi` whose double and half are finite, an interval with an infinite bound has the results [-1, 1]. -/
theorem C81_infinite (dbg : Bool) (X : Ivl (Fl K)) (hX : Proper X) (hi : ¬(X.lo.isFinite = true ∧ X.hi.isFinite = true))
    (p : K) (hpi : (Libm.pi : Fl K) = .num p) (p0 : 0 < p) (h2 : (Fl.mul (.num 2) (.num p : Fl K)).isFinite = true)
    (h3 : (Fl.div (.num p : Fl K) (.num 2)).isFinite = true) :
    cosI dbg X = .ok ⟨.num (-1), .num 1⟩ ∧ sinI dbg X = .ok ⟨.num (-1), .num 1⟩ := by
  rw [← hpi] at h2 h3
  refine ⟨cos_inf' dbg hX hi hpi p0 (Is.of_finite h2), ?_⟩
  have hs := Is.of_finite h3
  set s := Fl.div (Libm.pi : Fl K) (.num 2) with es
  have hsub : ∀ x : Fl K, x ≠ .nan → (x.isFinite = false → (Fl.sub x s).isFinite = false) ∧ Fl.sub x s ≠ .nan := by
    intro x hx
    by_cases hf : x.isFinite = true
    · refine ⟨fun h => by simp [hf] at h, fun e => ?_⟩
      have := Fl.ext_sub hf h3
      rw [e] at this
      exact absurd this (by cases r : (Fmt.rnd (x.val - s.val) : Fl K) <;> simp [ext]; exact absurd r (Fmt.rnd_ne_nan _))
    · have hx' : x = .ninf ∨ x = .pinf := by cases x <;> simp [isFinite] at hf hx ⊢
      rw [sub_inf hx' h3]
      exact ⟨id, hx⟩
  have nl : X.lo ≠ .nan := ne_nan_of_le_left hX
  have nh : X.hi ≠ .nan := ne_nan_of_le_right hX
  have hle : le (Fl.sub X.lo s) (Fl.sub X.hi s) = true := Fl.add_mono_left hX (hsub _ nl).2 (hsub _ nh).2
  unfold sinI
  rw [sub_scalar dbg hX hs hle, ok_bind]
  refine cos_inf' dbg hle (fun h => hi ⟨?_, ?_⟩) hpi p0 (Is.of_finite h2)
  · by_contra c; rw [(hsub _ nl).1 (by simpa using c)] at h; simp at h
  · by_contra c; rw [(hsub _ nh).1 (by simpa using c)] at h; simp at h
end infinite

/-! ## double and float -/
/-- `std::numbers::pi_v<double>` -/
def piDouble : ℚ := 884279719003555 / 281474976710656
/-- `std::numbers::pi_v<float>` -/
def piFloat : ℚ := 13176795 / 4194304

theorem piDouble_near : |(piDouble : ℝ) - Real.pi| ≤ 2 / 10^16 := by
  have h1 := Real.pi_gt_d20; have h2 := Real.pi_lt_d20
  unfold piDouble
  push_cast
  rw [abs_le]
  constructor <;> norm_num at * <;> linarith
theorem piFloat_near : |(piFloat : ℝ) - Real.pi| ≤ 1 / 10^7 := by
  have h1 := Real.pi_gt_d20; have h2 := Real.pi_lt_d20
  unfold piFloat
  push_cast
  rw [abs_le]
  constructor <;> norm_num at * <;> linarith

-- they are the nearest numbers
example : (binary64Fmt.rnd (314159265358979323846/10^20) : Fl ℚ) = .num piDouble ∧ (binary32Fmt.rnd (314159265358979323846/10^20) : Fl ℚ) = .num piFloat := by
  constructor <;> decide +kernel

/-- the library's cosine is accurate up to `d` and stays within [-1, 1] -/
def CosWithin [Libm ℚ] (d : ℚ) : Prop :=
  ∀ (a : Fl ℚ) (k : ℚ), Is a k → ∃ c : ℚ, Is (Libm.cos a) c ∧ |(c : ℝ) - Real.cos k| ≤ d ∧ -1 ≤ c ∧ c ≤ 1

theorem tol_bin {n q : ℤ} : 22 * ((2:ℝ)^(n + 2 - q) / 2) + 2^n * (2^(3 - q) / 2) ≤ 2^(n + 6 - q) := by
  have a : (2:ℝ)^(n + 2 - q) = 4 * 2^(n - q) := by rw [show n + 2 - q = 2 + (n - q) by ring, zpow_add₀ (by norm_num)]; norm_num
  have b : (2:ℝ)^(n + 6 - q) = 64 * 2^(n - q) := by rw [show n + 6 - q = 6 + (n - q) by ring, zpow_add₀ (by norm_num)]; norm_num
  have c : (2:ℝ)^n * (2^(3 - q) / 2) = 4 * 2^(n - q) := by
    rw [mul_div_assoc', ← zpow_add₀ (by norm_num), show n + (3 - q) = 3 + (n - q) by ring, zpow_add₀ (by norm_num)]; norm_num; ring
  rw [a, b, c]
  have : (0:ℝ) < 2^(n - q) := zpow_pos (by norm_num) _
  linarith

/-- C81 for `double`: if the magnitude of the bounds is at most `2^n` (at least 16), `cos(X)` and `sin(X)` are intervals within [-1, 1] that
contain the cosine and sine of every real number between the bounds up to `2^(n-47)`, and exceed their ranges by no more. -/
theorem C81_double_partial (_ : Libm ℚ) (hpi : (Libm.pi : Fl ℚ) = .num piDouble) (hcos : CosWithin (2^(-51 : ℤ))) (n : ℤ) (n1 : 4 ≤ n) (n2 : n ≤ 1021)
    (dbg : Bool) (X : Ivl (Fl ℚ)) (hX : FiniteI X) (hB : ∀ x, .num x ∈ᵢ X → |x| ≤ 2^n) :
    let := binary64Fmt
    ∃ C S c c' s s', cosI dbg X = .ok C ∧ sinI dbg X = .ok S ∧ IsI C c c' ∧ IsI S s s' ∧ -1 ≤ c ∧ c ≤ c' ∧ c' ≤ 1 ∧ -1 ≤ s ∧ s ≤ s' ∧ s' ≤ 1 ∧
      RangeUpTo Real.cos X.lo.val X.hi.val c c' (2^(n - 47)) ∧ RangeUpTo Real.sin X.lo.val X.hi.val s s' (2^(n - 47)) := by
  intro _
  have E := absErr_bin (p := 53) (emin := -1074) (Ω := (2^53 - 1) * 2^971) (by norm_num) (by norm_num) (n + 2) (two_zpow_le_max (by omega)) (by omega)
  have E8 := absErr_bin (p := 53) (emin := -1074) (Ω := (2^53 - 1) * 2^971) (by norm_num) (by norm_num) 3 (two_zpow_le_max (by omega)) (by norm_num)
  rw [show (2:ℚ)^(3:ℤ) = 8 by norm_num] at E8
  have de : (2:ℚ)^(3 - 53 : ℤ) / 2 ≤ 2^(n + 2 - 53) / 2 := div_le_div_of_nonneg_right (zpow_le_zpow_right₀ (by norm_num) (by omega)) (by norm_num)
  have L : CosLib piDouble (2^(3 - 53 : ℤ) / 2) :=
    ⟨hpi, piDouble_near.trans (by norm_num), by rw [show (2:ℚ)^(3 - 53 : ℤ) / 2 = 2^(-51 : ℤ) by norm_num]; exact hcos⟩
  have big : 2 * 2^n + 20 + 6 * ((2:ℚ)^(n + 2 - 53) / 2) ≤ 2^(n + 2) := by
    have a : (2:ℚ)^(n + 2) = 4 * 2^n := by rw [zpow_add₀ (by norm_num)]; norm_num; ring
    have b : (16:ℚ) ≤ 2^n := by
      calc (16:ℚ) = 2^(4:ℤ) := by norm_num
        _ ≤ 2^n := zpow_le_zpow_right₀ (by norm_num) n1
    have c : (2:ℚ)^(n + 2 - 53) ≤ 2^n / 8 := by
      rw [show n + 2 - 53 = -51 + n by ring, zpow_add₀ (by norm_num)]
      have := (zpow_pos (by norm_num : (0:ℚ) < 2) n)
      norm_num
      linarith
    rw [a]; linarith
  obtain ⟨C, c, c', eC, iC, c1, c2, c3, hC⟩ := C81_cos_partial E E8 L (by norm_num) de dbg X hX (2^n) hB big
  obtain ⟨S, s, s', eS, iS, s1, s2, s3, hS⟩ := C81_sin_partial E E8 L (by norm_num) de dbg X hX (2^n) hB big
  refine ⟨C, S, c, c', s, s', eC, eS, iC, iS, c1, c2, c3, s1, s2, s3, ?_⟩
  have tol : 22 * ((2:ℝ)^(n + 2 - 53) / 2) + 2^n * (2^(3 - 53 : ℤ) / 2) ≤ 2^(n - 47) := by
    have := tol_bin (n := n) (q := 53)
    rw [show n + 6 - 53 = n - 47 by ring] at this
    exact this
  have pos : (0:ℝ) < 2^(n + 2 - 53) := zpow_pos (by norm_num) _
  push_cast at hC hS
  exact ⟨hC.mono (by linarith), hS.mono (by linarith)⟩

/-- C81 for `float`: likewise up to `2^(n-18)`. -/
theorem C81_float_partial (_ : Libm ℚ) (hpi : (Libm.pi : Fl ℚ) = .num piFloat) (hcos : CosWithin (2^(-22 : ℤ))) (n : ℤ) (n1 : 4 ≤ n) (n2 : n ≤ 125)
    (dbg : Bool) (X : Ivl (Fl ℚ)) (hX : FiniteI X) (hB : ∀ x, .num x ∈ᵢ X → |x| ≤ 2^n) :
    let := binary32Fmt
    ∃ C S c c' s s', cosI dbg X = .ok C ∧ sinI dbg X = .ok S ∧ IsI C c c' ∧ IsI S s s' ∧ -1 ≤ c ∧ c ≤ c' ∧ c' ≤ 1 ∧ -1 ≤ s ∧ s ≤ s' ∧ s' ≤ 1 ∧
      RangeUpTo Real.cos X.lo.val X.hi.val c c' (2^(n - 18)) ∧ RangeUpTo Real.sin X.lo.val X.hi.val s s' (2^(n - 18)) := by
  intro _
  have le_max : ∀ n : ℤ, n ≤ 127 → (2:ℚ)^n ≤ (2^24 - 1) * 2^104 := fun n hn =>
    (zpow_le_zpow_right₀ (by norm_num) hn).trans (by norm_num)
  have E := absErr_bin (p := 24) (emin := -149) (Ω := (2^24 - 1) * 2^104) (by norm_num) (by norm_num) (n + 2) (le_max _ (by omega)) (by omega)
  have E8 := absErr_bin (p := 24) (emin := -149) (Ω := (2^24 - 1) * 2^104) (by norm_num) (by norm_num) 3 (le_max _ (by omega)) (by norm_num)
  rw [show (2:ℚ)^(3:ℤ) = 8 by norm_num] at E8
  have de : (2:ℚ)^(3 - 24 : ℤ) / 2 ≤ 2^(n + 2 - 24) / 2 := div_le_div_of_nonneg_right (zpow_le_zpow_right₀ (by norm_num) (by omega)) (by norm_num)
  have L : CosLib piFloat (2^(3 - 24 : ℤ) / 2) :=
    ⟨hpi, piFloat_near.trans (by norm_num), by rw [show (2:ℚ)^(3 - 24 : ℤ) / 2 = 2^(-22 : ℤ) by norm_num]; exact hcos⟩
  have big : 2 * 2^n + 20 + 6 * ((2:ℚ)^(n + 2 - 24) / 2) ≤ 2^(n + 2) := by
    have a : (2:ℚ)^(n + 2) = 4 * 2^n := by rw [zpow_add₀ (by norm_num)]; norm_num; ring
    have b : (16:ℚ) ≤ 2^n := by
      calc (16:ℚ) = 2^(4:ℤ) := by norm_num
        _ ≤ 2^n := zpow_le_zpow_right₀ (by norm_num) n1
    have c : (2:ℚ)^(n + 2 - 24) ≤ 2^n / 8 := by
      rw [show n + 2 - 24 = -22 + n by ring, zpow_add₀ (by norm_num)]
      have := (zpow_pos (by norm_num : (0:ℚ) < 2) n)
      norm_num
      linarith
    rw [a]; linarith
  obtain ⟨C, c, c', eC, iC, c1, c2, c3, hC⟩ := C81_cos_partial E E8 L (by norm_num) de dbg X hX (2^n) hB big
  obtain ⟨S, s, s', eS, iS, s1, s2, s3, hS⟩ := C81_sin_partial E E8 L (by norm_num) de dbg X hX (2^n) hB big
  refine ⟨C, S, c, c', s, s', eC, eS, iC, iS, c1, c2, c3, s1, s2, s3, ?_⟩
  have tol : 22 * ((2:ℝ)^(n + 2 - 24) / 2) + 2^n * (2^(3 - 24 : ℤ) / 2) ≤ 2^(n - 18) := by
    have := tol_bin (n := n) (q := 24)
    rw [show n + 6 - 24 = n - 18 by ring] at this
    exact this
  have pos : (0:ℝ) < 2^(n + 2 - 24) := zpow_pos (by norm_num) _
  push_cast at hC hS
  exact ⟨hC.mono (by linarith), hS.mono (by linarith)⟩

/-! Examples: accurate libraries exist (`exists_lib`), the bounds and formats meet the conditions. -/
example : FiniteI (⟨.num (-2), .num 7⟩ : Ivl (Fl ℚ)) ∧ ∀ x, .num x ∈ᵢ (⟨.num (-2), .num 7⟩ : Ivl (Fl ℚ)) → |x| ≤ (2:ℚ)^(4:ℤ) := by
  refine ⟨⟨rfl, rfl, by decide +kernel⟩, fun x hx => ?_⟩
  obtain ⟨a, b⟩ := (show IsI (⟨.num (-2), .num 7⟩ : Ivl (Fl ℚ)) (-2) 7 from ⟨Is.num _, Is.num _⟩).mem_num.mp hx
  exact abs_le.mpr ⟨by norm_num; linarith, by norm_num; linarith⟩
example : let := binary64Fmt
    Proper (⟨.num 1, .pinf⟩ : Ivl (Fl ℚ)) ∧ (Fl.mul (.num 2) (.num piDouble : Fl ℚ)).isFinite = true ∧
      (Fl.div (.num piDouble : Fl ℚ) (.num 2)).isFinite = true := by
  refine ⟨?_, ?_, ?_⟩ <;> decide +kernel
-- `wraparound` of 7 in double with the bounds -1/8, 2 (hypotheses of `C42_rounded`)
example : let := binary64Fmt
    AbsErr ((2:ℚ)^(10:ℤ)) (2^(10 - 53 : ℤ) / 2) ∧ (Fmt.rnd (-1/8 : ℚ) : Fl ℚ) = .num (-1/8) ∧
      Fl.wraparound (.num 7) (.num (-1/8)) (.num (2:ℚ)) = .ok (.num (5/8)) :=
  ⟨absErr_bin (p := 53) (emin := -1074) (Ω := (2^53 - 1) * 2^971) (by norm_num) (by norm_num) 10 (two_zpow_le_max (by norm_num)) (by norm_num),
    by decide +kernel, by decide +kernel⟩

/-! ## The violation -/
theorem far_cos : Real.cos (18008441263784348 : ℚ) ≤ 0 := by
  have h1 := Real.pi_gt_d20; have h2 := Real.pi_lt_d20
  rw [← Real.cos_sub_int_mul_two_pi _ 2866132444511338, ← Real.cos_neg]
  apply Real.cos_nonpos_of_pi_div_two_le_of_le <;> push_cast <;> norm_num at * <;> linarith

/-- C81 is false: in `double`, with any library whose cosine is accurate up to 1/10, `cos` of the interval with the single point
18008441263784348 lies above 1/2, whereas the cosine of that number, and also the library's, is below 1/8. -/
theorem C81_violated (_ : Libm ℚ) (hpi : (Libm.pi : Fl ℚ) = .num piDouble) (hcos : CosWithin (1/10)) (dbg : Bool) :
    let := binary64Fmt
    Representable (.num 18008441263784348 : Fl ℚ) ∧
    ∃ R, cosI dbg (⟨.num 18008441263784348, .num 18008441263784348⟩ : Ivl (Fl ℚ)) = .ok R ∧ lt (.num (1/2)) R.lo = true ∧
      Real.cos (18008441263784348 : ℚ) ≤ 0 ∧ lt (Libm.cos (.num 18008441263784348 : Fl ℚ)) (.num (1/8)) = true := by
  intro _
  have hw : Fl.wraparound (.num 18008441263784348) (Fl.neg Libm.pi) Libm.pi = .ok (.num (-220736754161823/281474976710656) : Fl ℚ) := by
    rw [hpi]; decide +kernel
  have hh : Fl.add (.num 18008441263784348) (Fl.sub (.num (-220736754161823/281474976710656)) (.num 18008441263784348)) = (.num 0 : Fl ℚ) := by
    decide +kernel
  refine ⟨by decide +kernel, ?_⟩
  rw [cosI_eq dbg (X := ⟨.num 18008441263784348, .num 18008441263784348⟩) (by simp [Proper]) hw]
  simp only [hh]
  obtain ⟨c, ic, fc, -, -⟩ := hcos _ _ (Is.num (-220736754161823/281474976710656))
  obtain ⟨c0, ic0, fc0, -, -⟩ := hcos _ _ (Is.num 0)
  obtain ⟨cx, icx, fcx, -, -⟩ := hcos _ _ (Is.num 18008441263784348)
  rw [abs_le] at fc fc0 fcx
  have far := far_cos
  have low := Real.one_sub_sq_div_two_le_cos (x := ((-220736754161823/281474976710656 : ℚ) : ℝ))
  unfold cosTail
  rw [if_pos (by decide +kernel), if_pos (by decide +kernel)]
  obtain ⟨R, eR, iR⟩ := ic.unordered ic0
  refine ⟨R, eR, ((Is.num _).lt_iff iR.1).mpr (lt_min ?_ ?_), far, (icx.lt_iff (Is.num _)).mpr ?_⟩
  · have : ((1/2 : ℚ) : ℝ) < c := by push_cast at *; norm_num at *; linarith [fc.1]
    exact_mod_cast this
  · have : ((1/2 : ℚ) : ℝ) < c0 := by push_cast at *; rw [Real.cos_zero] at fc0; norm_num at *; linarith [fc0.1]
    exact_mod_cast this
  · have : (cx : ℝ) < ((1/8 : ℚ) : ℝ) := by push_cast at *; norm_num at *; linarith [fcx.2]
    exact_mod_cast this

/-- There is a library with a cosine as accurate as we like. -/
theorem exists_lib (p d : ℚ) (hd : 0 < d) : ∃ _ : Libm ℚ, (Libm.pi : Fl ℚ) = .num p ∧ CosWithin d := by
  have h : ∀ k : ℚ, ∃ c : ℚ, |(c : ℝ) - Real.cos k| ≤ d ∧ -1 ≤ c ∧ c ≤ 1 := by
    intro k
    have hd' : (0:ℝ) < d := by exact_mod_cast hd
    have u := Real.cos_le_one k; have v := Real.neg_one_le_cos k
    by_cases g : -1 ≤ Real.cos k - d
    · obtain ⟨q, q1, q2⟩ := exists_rat_btwn (show Real.cos k - d < Real.cos k by linarith)
      refine ⟨q, abs_le.mpr ⟨by linarith, by linarith⟩, ?_, ?_⟩
      · have : ((-1 : ℚ) : ℝ) ≤ q := by push_cast; linarith
        exact_mod_cast this
      · have : (q : ℝ) ≤ ((1 : ℚ) : ℝ) := by push_cast; linarith
        exact_mod_cast this
    · exact ⟨-1, by push_cast; exact abs_le.mpr ⟨by linarith, by linarith⟩, le_rfl, by norm_num⟩
  choose f hf using h
  let inst : Libm ℚ := ⟨id, id, id, id, fun a => .num (f a.val), id, id, id, id, fun a _ => a, .num p⟩
  refine ⟨inst, rfl, fun a k hk => ⟨f k, ?_, hf k⟩⟩
  rw [← hk.2]; exact Is.num _

/-- C81 as stated is false. -/
theorem C81_not_full : ¬ C81_full := by
  intro F
  obtain ⟨L, hpi, hcos⟩ := exists_lib piDouble (2^(-51 : ℤ)) (by norm_num)
  have hcos' : CosWithin (1/10) := fun a k h => by
    obtain ⟨c, i, f, r⟩ := hcos a k h
    exact ⟨c, i, f.trans (by norm_num), r⟩
  obtain ⟨-, R, eR, l1, -, l2⟩ := C81_violated L hpi hcos' true
  let _ := binary64Fmt
  have E := absErr_bin (p := 53) (emin := -1074) (Ω := (2^53 - 1) * 2^971) (by norm_num) (by norm_num) 64 (two_zpow_le_max (by omega)) (by norm_num)
  have E8 := absErr_bin (p := 53) (emin := -1074) (Ω := (2^53 - 1) * 2^971) (by norm_num) (by norm_num) 3 (two_zpow_le_max (by omega)) (by norm_num)
  rw [show (2:ℚ)^(3:ℤ) = 8 by norm_num] at E8
  have LL : CosLib piDouble (2^(3 - 53 : ℤ) / 2) :=
    ⟨hpi, piDouble_near.trans (by norm_num), by rw [show (2:ℚ)^(3 - 53 : ℤ) / 2 = 2^(-51 : ℤ) by norm_num]; exact hcos⟩
  have i : IsI (⟨.num 18008441263784348, .num 18008441263784348⟩ : Ivl (Fl ℚ)) 18008441263784348 18008441263784348 := ⟨Is.num _, Is.num _⟩
  obtain ⟨R', S, eR', -, -, -, -, -, h⟩ := F _ L _ _ _ _ E E8 LL (by norm_num) (by norm_num) true _ ⟨rfl, rfl, i.proper.mpr le_rfl⟩ 18008441263784348
    (fun x hx => by
      obtain ⟨a, b⟩ := i.mem_num.mp hx
      rw [le_antisymm b a]; norm_num) (by norm_num)
  rw [eR] at eR'; cases eR'
  have m := (h 18008441263784348 (i.mem_num.mpr ⟨le_rfl, le_rfl⟩)).1
  have lt_le : ∀ {a b : Fl ℚ}, lt a b = true → le a b = true := fun {a b} h => by
    obtain ⟨x, y, ea, eb, l⟩ := Fl.lt_iff.mp h
    exact Fl.le_iff.mpr ⟨x, y, ea, eb, l.le⟩
  have o1 := CppOrder.le_trans _ _ _ (lt_le l1) m.1
  have o2 := CppOrder.le_trans _ _ _ o1 (lt_le l2)
  exact absurd o2 (by decide +kernel)
end Intervals.Props
