import Verif.Props.TrigFlt
import Verif.Props.TanFlt
import Verif.Model.RealLibm
import Verif.Spec.ExprRange
import Verif.Props.Monotone
import Verif.Props.PowErr
/-!
# cos, sin and tan with rounding, for formats of real numbers

The arguments of C81 and C93 with real instead of rational numbers, for the correctly rounded library of `Model/RealLibm`: used by C86.
-/
set_option linter.unusedSectionVars false
namespace Intervals.Props.OverReal
open Intervals CppVal Spec Fl Intervals.Props

/-- the library's `pi` and `cos` are accurate up to `d`, and its cosine stays within [-1, 1] -/
structure CosLib [Fmt ℝ] (p d : ℝ) : Prop where
  pi : Is (Libm.pi : Fl ℝ) p
  near : |p - Real.pi| ≤ d
  cos : ∀ (a : Fl ℝ) (k : ℝ), Is a k → ∃ c : ℝ, Is (Libm.cos a) c ∧ |c - Real.cos k| ≤ d ∧ -1 ≤ c ∧ c ≤ 1
/-- the library's `pi` is accurate up to `d` -/
structure PiLib [Fmt ℝ] (p d : ℝ) : Prop where
  pi : Is (Libm.pi : Fl ℝ) p
  near : |p - Real.pi| ≤ d

section main
variable [Fmt ℝ]

/-- the second half of `cos(X)` (interval.hpp:1104–1128), after the bounds were shifted -/
noncomputable def cosTail (lo hi : Fl ℝ) : Outcome (Ivl (Fl ℝ)) :=
  if le lo (.num 0) then
    if le hi (.num 0) then Ivl.fromUnorderedBounds (Libm.cos lo) (Libm.cos hi)
    else if le hi Libm.pi then Ivl.make (cmin (Libm.cos lo) (Libm.cos hi)) (.num 1)
    else Ivl.make (.num (-1)) (.num 1)
  else
    if le hi Libm.pi then Ivl.fromUnorderedBounds (Libm.cos hi) (Libm.cos lo)
    else if le hi (Fl.mul (.num 2) Libm.pi) then Ivl.make (.num (-1)) (cmax (Libm.cos lo) (Libm.cos hi))
    else Ivl.make (.num (-1)) (.num 1)

theorem cosI_eq (dbg : Bool) {X : Ivl (Fl ℝ)} (hX : Proper X) {lo : Fl ℝ}
    (hw : Fl.wraparound X.lo (Fl.neg Libm.pi) Libm.pi = .ok lo) :
    cosI dbg X = cosTail lo (Fl.add X.hi (Fl.sub lo X.lo)) := by
  unfold cosI cosTail
  rw [show X.assigned = true from Intervals.assigned_of_proper (X := .ivl X) hX, expectsDebug_true, ok_bind]
  simp only [hw, ok_bind]

/-- the result is an interval within [-1, 1] -/
theorem cosTail_range {p d : ℝ} (L : CosLib p d) {lo hi : Fl ℝ} {l h : ℝ} (hl : Is lo l) (hh : Is hi h) :
    ∃ R m N, cosTail lo hi = .ok R ∧ IsI R m N ∧ -1 ≤ m ∧ m ≤ N ∧ N ≤ 1 := by
  obtain ⟨c1, i1, -, a1, a2⟩ := L.cos lo l hl
  obtain ⟨c2, i2, -, b1, b2⟩ := L.cos hi h hh
  have full : ∃ R m N, Ivl.make (.num (-1) : Fl ℝ) (.num 1) = .ok R ∧ IsI R m N ∧ -1 ≤ m ∧ m ≤ N ∧ N ≤ 1 := by
    obtain ⟨R, e, i⟩ := (Is.num (-1 : ℝ)).make (Is.num 1) (by norm_num)
    exact ⟨R, _, _, e, i, by norm_num, by norm_num, by norm_num⟩
  unfold cosTail
  split
  · split
    · obtain ⟨R, e, i⟩ := i1.unordered i2
      exact ⟨R, _, _, e, i, le_min a1 b1, min_le_max, max_le a2 b2⟩
    · split
      · obtain ⟨R, e, i⟩ := (i1.cmin i2).make (Is.num 1) ((min_le_left _ _).trans a2)
        exact ⟨R, _, _, e, i, le_min a1 b1, (min_le_left _ _).trans a2, le_rfl⟩
      · exact full
  · split
    · obtain ⟨R, e, i⟩ := i2.unordered i1
      exact ⟨R, _, _, e, i, le_min b1 a1, min_le_max, max_le b2 a2⟩
    · split
      · obtain ⟨R, e, i⟩ := (Is.num (-1 : ℝ)).make (i1.cmax i2) (a1.trans (le_max_left _ _))
        exact ⟨R, _, _, e, i, le_rfl, a1.trans (le_max_left _ _), max_le a2 b2⟩
      · exact full

/-- the result contains the cosine of every number between the bounds, up to the errors -/
theorem cosTail_err {p d q : ℝ} (L : CosLib p d) {lo hi : Fl ℝ} {l h : ℝ} (hl : Is lo l) (hh : Is hi h) {η E : ℝ} (η0 : 0 ≤ η)
    (l1 : -Real.pi - η ≤ l) (p1 : (p : ℝ) ≤ Real.pi + η) (hq : Is (Fl.mul (.num 2) Libm.pi) q) (q1 : (q : ℝ) ≤ 2 * Real.pi + η)
    (E0 : 0 ≤ E) {y : ℝ} (y1 : l - E ≤ y) (y2 : y ≤ h + E) {R : Ivl (Fl ℝ)} {m N : ℝ} (eR : cosTail lo hi = .ok R) (iR : IsI R m N) :
    m - (E + η + d) ≤ Real.cos y ∧ Real.cos y ≤ N + (E + η + d) := by
  obtain ⟨c1, i1, f1, a1, a2⟩ := L.cos lo l hl
  obtain ⟨c2, i2, f2, b1, b2⟩ := L.cos hi h hh
  have hp : Is (Libm.pi : Fl ℝ) p := L.pi
  have d0 : (0:ℝ) ≤ d := (abs_nonneg _).trans f1
  obtain ⟨y', ey, y3, y4⟩ := near_point y1 y2 E0
  rw [abs_le] at ey f1 f2
  have up := Real.cos_le_one y
  have dn := Real.neg_one_le_cos y
  have full : ∀ {R : Ivl (Fl ℝ)} {m N : ℝ}, Ivl.make (.num (-1) : Fl ℝ) (.num 1) = .ok R → IsI R m N →
      m - (E + η + d) ≤ Real.cos y ∧ Real.cos y ≤ N + (E + η + d) := by
    intro R m N e i
    obtain ⟨R', e', i'⟩ := (Is.num (-1 : ℝ)).make (Is.num 1) (by norm_num)
    rw [e] at e'; cases e'
    rw [i.1.unique i'.1, i.2.unique i'.2]
    push_cast
    constructor <;> linarith
  unfold cosTail at eR
  rw [hl.le_eq (Is.num 0), hh.le_eq (Is.num 0), hh.le_eq hp, hh.le_eq hq] at eR
  by_cases g : l ≤ 0
  · have g' : (l:ℝ) ≤ 0 := by exact_mod_cast g
    rw [if_pos (by simpa using g)] at eR
    by_cases g2 : h ≤ 0
    · have g2' : (h:ℝ) ≤ 0 := by exact_mod_cast g2
      rw [if_pos (by simpa using g2)] at eR
      obtain ⟨R', e', i'⟩ := i1.unordered i2
      rw [eR] at e'; cases e'
      rw [iR.1.unique i'.1, iR.2.unique i'.2]
      push_cast
      have u1 := min_le_left (c1:ℝ) c2; have u2 := le_max_left (c1:ℝ) c2; have u3 := le_max_right (c1:ℝ) c2
      rcases y4 with rfl | y4
      · constructor <;> linarith
      · have v1 := cos_up l1 y3 (y4.trans g2') η0
        have v2 := cos_up (l1.trans y3) y4 g2' η0
        constructor <;> linarith
    · rw [if_neg (by simpa using g2)] at eR
      by_cases g3 : h ≤ p
      · have g3' : (h:ℝ) ≤ p := by exact_mod_cast g3
        rw [if_pos (by simpa using g3)] at eR
        obtain ⟨R', e', i'⟩ := (i1.cmin i2).make (Is.num 1) ((min_le_left _ _).trans a2)
        rw [eR] at e'; cases e'
        rw [iR.1.unique i'.1, iR.2.unique i'.2]
        push_cast
        have u1 := min_le_left (c1:ℝ) c2; have u2 := min_le_right (c1:ℝ) c2
        refine ⟨?_, by linarith⟩
        rcases y4 with rfl | y4
        · linarith
        · by_cases y5 : y' ≤ 0
          · have v1 := cos_up l1 y3 y5 η0
            linarith
          · have v1 := cos_down (by linarith) y4 (g3'.trans p1) η0
            linarith
      · rw [if_neg (by simpa using g3)] at eR
        exact full eR iR
  · have g' : (0:ℝ) < l := by exact_mod_cast not_le.mp g
    rw [if_neg (by simpa using g)] at eR
    by_cases g3 : h ≤ p
    · have g3' : (h:ℝ) ≤ p := by exact_mod_cast g3
      rw [if_pos (by simpa using g3)] at eR
      obtain ⟨R', e', i'⟩ := i2.unordered i1
      rw [eR] at e'; cases e'
      rw [iR.1.unique i'.1, iR.2.unique i'.2]
      push_cast
      have u1 := min_le_left (c2:ℝ) c1; have u2 := le_max_right (c2:ℝ) c1; have u3 := min_le_right (c2:ℝ) c1
      rcases y4 with rfl | y4
      · constructor <;> linarith
      · have v1 := cos_down (g'.le.trans y3) y4 (g3'.trans p1) η0
        have v2 := cos_down g'.le y3 (y4.trans (g3'.trans p1)) η0
        constructor <;> linarith
    · rw [if_neg (by simpa using g3)] at eR
      by_cases g4 : h ≤ q
      · have g4' : (h:ℝ) ≤ q := by exact_mod_cast g4
        rw [if_pos (by simpa using g4)] at eR
        obtain ⟨R', e', i'⟩ := (Is.num (-1 : ℝ)).make (i1.cmax i2) (a1.trans (le_max_left _ _))
        rw [eR] at e'; cases e'
        rw [iR.1.unique i'.1, iR.2.unique i'.2]
        push_cast
        have u1 := le_max_left (c1:ℝ) c2; have u2 := le_max_right (c1:ℝ) c2
        refine ⟨by linarith, ?_⟩
        rcases y4 with rfl | y4
        · linarith
        · by_cases y5 : y' ≤ Real.pi
          · have v1 := cos_down g'.le y3 (by linarith : y' ≤ Real.pi + η) η0
            linarith
          · have v1 := cos_up' (by linarith) y4 (g4'.trans q1) η0
            linarith
      · rw [if_neg (by simpa using g4)] at eR
        exact full eR iR

/-- both bounds are cosines of numbers between the bounds (in either order), up to the errors -/
theorem cosTail_tight {p d q : ℝ} (L : CosLib p d) {lo hi : Fl ℝ} {l h : ℝ} (hl : Is lo l) (hh : Is hi h) {η : ℝ} (η0 : 0 ≤ η)
    (l2 : l ≤ Real.pi + η) (p2 : Real.pi - η ≤ p) (hq : Is (Fl.mul (.num 2) Libm.pi) q)
    (q1 : 2 * Real.pi - η ≤ q) {R : Ivl (Fl ℝ)} {m N : ℝ} (eR : cosTail lo hi = .ok R) (iR : IsI R m N) :
    (∃ y : ℝ, (y = l ∨ l ≤ y ∧ y ≤ h ∨ y = h) ∧ Real.cos y ≤ m + (η + d)) ∧
      (∃ y : ℝ, (y = l ∨ l ≤ y ∧ y ≤ h ∨ y = h) ∧ N ≤ Real.cos y + (η + d)) := by
  obtain ⟨c1, i1, f1, a1, a2⟩ := L.cos lo l hl
  obtain ⟨c2, i2, f2, b1, b2⟩ := L.cos hi h hh
  have hp : Is (Libm.pi : Fl ℝ) p := L.pi
  have d0 : (0:ℝ) ≤ d := (abs_nonneg _).trans f1
  rw [abs_le] at f1 f2
  have pg := Real.pi_pos
  -- a bound that is one of the two computed cosines
  have mn : ∃ y : ℝ, (y = l ∨ l ≤ y ∧ y ≤ h ∨ y = h) ∧ Real.cos y ≤ ((min c1 c2 : ℝ) : ℝ) + (η + d) := by
    rcases min_cases c1 c2 with ⟨e, -⟩ | ⟨e, -⟩ <;> rw [e]
    · exact ⟨l, .inl rfl, by linarith [f1.1]⟩
    · exact ⟨h, .inr (.inr rfl), by linarith [f2.1]⟩
  have mx : ∃ y : ℝ, (y = l ∨ l ≤ y ∧ y ≤ h ∨ y = h) ∧ ((max c1 c2 : ℝ) : ℝ) ≤ Real.cos y + (η + d) := by
    rcases max_cases c1 c2 with ⟨e, -⟩ | ⟨e, -⟩ <;> rw [e]
    · exact ⟨l, .inl rfl, by linarith [f1.2]⟩
    · exact ⟨h, .inr (.inr rfl), by linarith [f2.2]⟩
  -- the interval reaches `pi`
  have reach : p < h → ∃ y : ℝ, (y = l ∨ l ≤ y ∧ y ≤ h ∨ y = h) ∧ Real.cos y ≤ -1 + (η + d) := by
    intro g
    have g' : (p:ℝ) < h := by exact_mod_cast g
    have at_pi : ∀ z : ℝ, |z - Real.pi| ≤ η → Real.cos z ≤ -1 + (η + d) := by
      intro z hz
      have := (abs_le.mp ((Real.abs_cos_sub_cos_le z Real.pi).trans hz)).2
      rw [Real.cos_pi] at this; linarith
    by_cases k1 : (l:ℝ) ≤ Real.pi
    · by_cases k2 : Real.pi ≤ h
      · exact ⟨Real.pi, .inr (.inl ⟨k1, k2⟩), by rw [Real.cos_pi]; linarith⟩
      · exact ⟨h, .inr (.inr rfl), at_pi _ (abs_le.mpr ⟨by linarith, by linarith⟩)⟩
    · exact ⟨l, .inl rfl, at_pi _ (abs_le.mpr ⟨by linarith, by linarith⟩)⟩
  have full : ∀ {R : Ivl (Fl ℝ)} {m N : ℝ}, Ivl.make (.num (-1) : Fl ℝ) (.num 1) = .ok R → IsI R m N → m = -1 ∧ N = 1 := by
    intro R m N e i
    obtain ⟨R', e', i'⟩ := (Is.num (-1 : ℝ)).make (Is.num 1) (by norm_num)
    rw [e] at e'; cases e'
    exact ⟨i.1.unique i'.1, i.2.unique i'.2⟩
  unfold cosTail at eR
  rw [hl.le_eq (Is.num 0), hh.le_eq (Is.num 0), hh.le_eq hp, hh.le_eq hq] at eR
  by_cases g : l ≤ 0
  · have g' : (l:ℝ) ≤ 0 := by exact_mod_cast g
    rw [if_pos (by simpa using g)] at eR
    by_cases g2 : h ≤ 0
    · rw [if_pos (by simpa using g2)] at eR
      obtain ⟨R', e', i'⟩ := i1.unordered i2
      rw [eR] at e'; cases e'
      rw [iR.1.unique i'.1, iR.2.unique i'.2]
      exact ⟨mn, mx⟩
    · have g2' : (0:ℝ) < h := by exact_mod_cast not_le.mp g2
      rw [if_neg (by simpa using g2)] at eR
      have zero : ∃ y : ℝ, (y = l ∨ l ≤ y ∧ y ≤ h ∨ y = h) ∧ 1 ≤ Real.cos y + (η + d) :=
        ⟨0, .inr (.inl ⟨g', g2'.le⟩), by rw [Real.cos_zero]; linarith⟩
      by_cases g3 : h ≤ p
      · rw [if_pos (by simpa using g3)] at eR
        obtain ⟨R', e', i'⟩ := (i1.cmin i2).make (Is.num 1) ((min_le_left _ _).trans a2)
        rw [eR] at e'; cases e'
        rw [iR.1.unique i'.1, iR.2.unique i'.2]
        exact ⟨mn, by push_cast; exact zero⟩
      · rw [if_neg (by simpa using g3)] at eR
        obtain ⟨rfl, rfl⟩ := full eR iR
        push_cast
        exact ⟨reach (not_le.mp g3), zero⟩
  · rw [if_neg (by simpa using g)] at eR
    by_cases g3 : h ≤ p
    · rw [if_pos (by simpa using g3)] at eR
      obtain ⟨R', e', i'⟩ := i2.unordered i1
      rw [eR] at e'; cases e'
      rw [iR.1.unique i'.1, iR.2.unique i'.2, min_comm, max_comm]
      exact ⟨mn, mx⟩
    · rw [if_neg (by simpa using g3)] at eR
      by_cases g4 : h ≤ q
      · rw [if_pos (by simpa using g4)] at eR
        obtain ⟨R', e', i'⟩ := (Is.num (-1 : ℝ)).make (i1.cmax i2) (a1.trans (le_max_left _ _))
        rw [eR] at e'; cases e'
        rw [iR.1.unique i'.1, iR.2.unique i'.2]
        exact ⟨by push_cast; exact reach (not_le.mp g3), mx⟩
      · have g4' : (q:ℝ) < h := by exact_mod_cast not_le.mp g4
        rw [if_neg (by simpa using g4)] at eR
        obtain ⟨rfl, rfl⟩ := full eR iR
        push_cast
        refine ⟨reach (not_le.mp g3), ?_⟩
        by_cases k1 : (l:ℝ) ≤ 2 * Real.pi
        · by_cases k2 : 2 * Real.pi ≤ h
          · exact ⟨2 * Real.pi, .inr (.inl ⟨k1, k2⟩), by rw [Real.cos_two_pi]; linarith⟩
          · refine ⟨h, .inr (.inr rfl), ?_⟩
            have := (abs_le.mp ((Real.abs_cos_sub_cos_le h (2 * Real.pi)).trans
              (show |(h:ℝ) - 2 * Real.pi| ≤ η from abs_le.mpr ⟨by linarith, by linarith⟩))).1
            rw [Real.cos_two_pi] at this; linarith
        · refine ⟨l, .inl rfl, ?_⟩
          have := (abs_le.mp ((Real.abs_cos_sub_cos_le l (2 * Real.pi)).trans
              (show |(l:ℝ) - 2 * Real.pi| ≤ η from abs_le.mpr ⟨by linarith, by linarith⟩))).1
          rw [Real.cos_two_pi] at this; linarith

set_option maxHeartbeats 1000000 in
/-- `cos(X)` with rounding -/
theorem cos_err {M e p d : ℝ} (E : AbsErr M e) (E8 : AbsErr (8:ℝ) d) (L : CosLib p d) (hd : d ≤ 1/8) (hde : d ≤ e) (dbg : Bool)
    (X : Ivl (Fl ℝ)) (hX : Proper X) {a b B : ℝ} (ha : Is X.lo a) (hb : Is X.hi b) (a1 : -B ≤ a) (a2 : a ≤ b) (a3 : b ≤ B)
    (hM : 2 * B + 16 + 4 * e ≤ M) :
    ∃ R m N, cosI dbg X = .ok R ∧ IsI R m N ∧ -1 ≤ m ∧ m ≤ N ∧ N ≤ 1 ∧
      RangeUpTo Real.cos a b m N (16 * e + B * d) := by
  have hp : Is (Libm.pi : Fl ℝ) p := L.pi
  have near := abs_le.mp L.near
  have d0 : (0:ℝ) ≤ d := (abs_nonneg _).trans L.near
  have d0' : 0 ≤ d := by exact_mod_cast d0
  have hd' : (d:ℝ) ≤ 1/8 := by
    have : ((d:ℝ):ℝ) ≤ ((1/8:ℝ):ℝ) := by exact_mod_cast hd
    simpa using this
  have pg := Real.pi_gt_d2; have pl := Real.pi_lt_d2
  have p3 : (3:ℝ) < p := by
    have : ((3:ℝ):ℝ) < p := by push_cast; linarith [near.1]
    exact_mod_cast this
  have p4 : p < 33/10 := by
    have : (p:ℝ) < ((33/10:ℝ):ℝ) := by push_cast; linarith [near.2]
    exact_mod_cast this
  have B0 : 0 ≤ B := by linarith
  obtain ⟨w, hw, ew⟩ := E8.sub hp hp.neg (abs_le.mpr ⟨by linarith, by linarith⟩)
  obtain ⟨q, hq, eq⟩ := E8.mul (Is.num 2) hp (abs_le.mpr ⟨by linarith, by linarith⟩)
  have ew' := abs_le.mp ew
  have w0 : 5 < w := by linarith [ew'.1]
  have w1 : w < 7 := by linarith [ew'.2]
  obtain ⟨lo, l, ewrap, hl, -, l1, l2, n, hn⟩ := wrap_err E ha hp.neg hp (by linarith) hw (by linarith)
    (abs_le.mpr ⟨by linarith, by linarith⟩) (by linarith) (by rw [abs_neg, abs_of_pos (by linarith)]; linarith)
  have e0 : 0 ≤ e := d0'.trans hde
  obtain ⟨v, hv, ev⟩ := E.sub hl ha (abs_le.mpr ⟨by linarith, by linarith⟩)
  rw [abs_le] at ev
  obtain ⟨h, hh, eh⟩ := E.add hb hv (abs_le.mpr ⟨by linarith, by linarith⟩)
  rw [abs_le] at eh hn eq
  obtain ⟨R, m, N, eR, iR, r1, r2, r3⟩ := cosTail_range L hl hh
  refine ⟨R, m, N, (cosI_eq dbg hX ewrap).trans eR, iR, r1, r2, r3, ?_⟩
  have cast : ∀ {x y : ℝ}, x ≤ y → (x:ℝ) ≤ y := fun h => by exact_mod_cast h
  by_cases big : e ≤ 1/8
  · have n1 : (|n| : ℝ) ≤ B / 5 + 1 := by
      rcases le_total (0:ℝ) n with n0 | n0
      · rw [abs_of_nonneg n0]; nlinarith [hn.1]
      · rw [abs_of_nonpos n0]; nlinarith [hn.2]
    have n2 := cast n1
    have n3 : |(n:ℝ) * (w - 2 * Real.pi)| ≤ (B / 5 + 1) * (3 * d) := by
      rw [abs_mul]
      refine mul_le_mul (by push_cast at n2; exact n2) ?_ (abs_nonneg _) (by have := cast B0; push_cast at this; positivity)
      have u1 := cast ew'.1; have u2 := cast ew'.2
      push_cast at u1 u2
      exact abs_le.mpr ⟨by linarith [near.1, near.2], by linarith [near.1, near.2]⟩
    rw [abs_le] at n3
    have k1 := cast hn.1; have k2 := cast hn.2; have k3 := cast l1; have k3' := cast l2; have k4 := cast ev.1; have k5 := cast ev.2
    have k6 := cast eh.1; have k7 := cast eh.2; have k8 := cast hde; have k9 := cast eq.2; have k9' := cast eq.1
    have k0 := cast e0; have kB := cast B0; have kab := cast a2; have kw := cast ew'.2
    push_cast at k1 k2 k3 k3' k4 k5 k6 k7 k8 k9 k9' k0 kB kab kw
    have Bd := mul_nonneg kB d0
    have E0 : (0:ℝ) ≤ 5 * e + (B / 5 + 1) * (3 * d) := by nlinarith
    -- numbers between the shifted bounds come from numbers of `X`
    have back : ∀ y : ℝ, (y = l ∨ l ≤ y ∧ y ≤ h ∨ y = h) →
        ∃ t : ℝ, a ≤ t ∧ t ≤ b ∧ |Real.cos t - Real.cos y| ≤ 5 * e + (B / 5 + 1) * (3 * d) := by
      intro y hy
      obtain ⟨t, t1, t2, ht⟩ : ∃ t : ℝ, a ≤ t ∧ t ≤ b ∧ |t + n * (2 * Real.pi) - y| ≤ 5 * e + (B / 5 + 1) * (3 * d) := by
        have y1 : l ≤ y ∨ y = h := by rcases hy with r | r | r <;> [exact .inl r.ge; exact .inl r.1; exact .inr r]
        have y2 : y ≤ h ∨ y = l := by rcases hy with r | r | r <;> [exact .inr r; exact .inl r.2; exact .inl r.le]
        have lowl : (a:ℝ) + n * (2 * Real.pi) - y ≤ 5 * e + (B / 5 + 1) * (3 * d) := by
          rcases y1 with r | r
          · linarith [n3.1, n3.2]
          · linarith [n3.1, n3.2]
        have upl : -(5 * e + (B / 5 + 1) * (3 * d)) ≤ (b:ℝ) + n * (2 * Real.pi) - y := by
          rcases y2 with r | r
          · linarith [n3.1, n3.2]
          · linarith [n3.1, n3.2]
        by_cases c1 : y - n * (2 * Real.pi) ≤ a
        · exact ⟨a, le_rfl, kab, abs_le.mpr ⟨by linarith, lowl⟩⟩
        by_cases c2 : y - n * (2 * Real.pi) ≤ b
        · exact ⟨y - n * (2 * Real.pi), by linarith, c2, by rw [show y - n * (2 * Real.pi) + n * (2 * Real.pi) - y = 0 by ring, abs_zero]; exact E0⟩
        · exact ⟨b, kab, le_rfl, abs_le.mpr ⟨upl, by linarith⟩⟩
      refine ⟨t, t1, t2, ?_⟩
      rw [← Real.cos_add_int_mul_two_pi t n]
      exact (Real.abs_cos_sub_cos_le _ _).trans ht
    obtain ⟨⟨y, hy, cy⟩, ⟨z, hz, cz⟩⟩ := cosTail_tight (η := 3 * e) L hl hh (by linarith) (by linarith [near.1, near.2])
      (by linarith [near.1, near.2]) hq (by linarith [near.1, near.2]) eR iR
    refine ⟨fun t t1 t2 => ?_, ?_, ?_⟩
    · have := cosTail_err (η := 3 * e) (E := 5 * e + (B / 5 + 1) * (3 * d)) (y := t + n * (2 * Real.pi)) L hl hh (by linarith)
        (by linarith [near.1, near.2]) (by linarith [near.1, near.2]) hq (by linarith [near.1, near.2]) (by nlinarith) (by linarith [n3.1, n3.2])
        (by linarith [n3.1, n3.2]) eR iR
      rw [Real.cos_add_int_mul_two_pi] at this
      constructor <;> linarith [this.1, this.2]
    · obtain ⟨t, t1, t2, ht⟩ := back y hy
      exact ⟨t, t1, t2, by linarith [(abs_le.mp ht).2]⟩
    · obtain ⟨t, t1, t2, ht⟩ := back z hz
      exact ⟨t, t1, t2, by linarith [(abs_le.mp ht).1]⟩
  · have k1 := cast (not_le.mp big).le; have k2 := cast r1; have k3 := cast r2; have k4 := cast r3; have kB := cast B0; have kab := cast a2
    push_cast at k1 k2 k3 k4 kB kab
    have Bd := mul_nonneg kB d0
    refine ⟨fun t t1 t2 => ?_, ⟨a, le_rfl, kab, ?_⟩, ⟨a, le_rfl, kab, ?_⟩⟩
    · have := Real.cos_le_one t; have := Real.neg_one_le_cos t
      constructor <;> linarith
    · have := Real.cos_le_one a
      linarith
    · have := Real.neg_one_le_cos a
      linarith

set_option maxHeartbeats 1000000 in
/-- `sin(X)` with rounding -/
theorem sin_err {M e p d : ℝ} (E : AbsErr M e) (E8 : AbsErr (8:ℝ) d) (L : CosLib p d) (hd : d ≤ 1/8) (hde : d ≤ e) (dbg : Bool)
    (X : Ivl (Fl ℝ)) (hX : Proper X) {a b B : ℝ} (ha : Is X.lo a) (hb : Is X.hi b) (a1 : -B ≤ a) (a2 : a ≤ b) (a3 : b ≤ B)
    (hM : 2 * B + 20 + 6 * e ≤ M) :
    ∃ R m N, sinI dbg X = .ok R ∧ IsI R m N ∧ -1 ≤ m ∧ m ≤ N ∧ N ≤ 1 ∧
      RangeUpTo Real.sin a b m N (22 * e + B * d) := by
  have hp : Is (Libm.pi : Fl ℝ) p := L.pi
  have near := abs_le.mp L.near
  have d0 : (0:ℝ) ≤ d := (abs_nonneg _).trans L.near
  have d0' : 0 ≤ d := by exact_mod_cast d0
  have hd' : (d:ℝ) ≤ 1/8 := by
    have : ((d:ℝ):ℝ) ≤ ((1/8:ℝ):ℝ) := by exact_mod_cast hd
    simpa using this
  have pg := Real.pi_gt_d2; have pl := Real.pi_lt_d2
  have p3 : (3:ℝ) < p := by
    have : ((3:ℝ):ℝ) < p := by push_cast; linarith [near.1]
    exact_mod_cast this
  have p4 : p < 33/10 := by
    have : (p:ℝ) < ((33/10:ℝ):ℝ) := by push_cast; linarith [near.2]
    exact_mod_cast this
  have e0 : 0 ≤ e := d0'.trans hde
  obtain ⟨s, hs, es⟩ := E8.div hp (Is.num 2) (by norm_num) (abs_le.mpr ⟨by linarith, by linarith⟩)
  rw [abs_le] at es
  obtain ⟨a', ha', ea⟩ := E.sub ha hs (abs_le.mpr ⟨by linarith, by linarith⟩)
  obtain ⟨b', hb', eb⟩ := E.sub hb hs (abs_le.mpr ⟨by linarith, by linarith⟩)
  rw [abs_le] at ea eb
  have hle : le (Fl.sub X.lo (Fl.div Libm.pi (.num 2))) (Fl.sub X.hi (Fl.div Libm.pi (.num 2))) = true :=
    Fl.add_mono_left hX ha'.ne_nan hb'.ne_nan
  obtain ⟨R, m, N, eR, iR, r1, r2, r3, h⟩ := cos_err E E8 L hd hde dbg ⟨_, _⟩ hle (B := B + 2 + e) ha' hb' (by linarith)
    ((ha'.le_iff hb').mp hle) (by linarith) (by linarith)
  refine ⟨R, m, N, ?_, iR, r1, r2, r3, ?_⟩
  · unfold sinI; rw [sub_scalar dbg hX hs hle]; exact eR
  have cast : ∀ {x y : ℝ}, x ≤ y → (x:ℝ) ≤ y := fun h => by exact_mod_cast h
  have k1 := cast es.1; have k2 := cast es.2; have k3 := cast ea.1; have k4 := cast ea.2; have k5 := cast eb.1; have k6 := cast eb.2
  have k7 := cast hde; have k0 := cast e0; have k8 := cast ((ha'.le_iff hb').mp hle); have kab := cast a2
  push_cast at k1 k2 k3 k4 k5 k6 k7 k0 k8 kab
  have ed : (e:ℝ) * d ≤ e := by nlinarith
  obtain ⟨h1, ⟨x, x1, x2, hx⟩, ⟨z, z1, z2, hz⟩⟩ := h
  push_cast at h1 hx hz
  -- numbers of the shifted interval come from numbers of `X`
  have back : ∀ y : ℝ, (a':ℝ) ≤ y → y ≤ b' → ∃ t : ℝ, a ≤ t ∧ t ≤ b ∧ |Real.sin t - Real.cos y| ≤ 3 * e := by
    intro y y1 y2
    obtain ⟨t, t1, t2, ht⟩ : ∃ t : ℝ, a ≤ t ∧ t ≤ b ∧ |t - Real.pi / 2 - y| ≤ 3 * e := by
      by_cases c1 : y + Real.pi / 2 ≤ a
      · exact ⟨a, le_rfl, kab, abs_le.mpr ⟨by linarith, by linarith [near.1, near.2]⟩⟩
      by_cases c2 : y + Real.pi / 2 ≤ b
      · exact ⟨_, by linarith, c2, by rw [show y + Real.pi / 2 - Real.pi / 2 - y = 0 by ring, abs_zero]; linarith⟩
      · exact ⟨b, kab, le_rfl, abs_le.mpr ⟨by linarith [near.1, near.2], by linarith⟩⟩
    refine ⟨t, t1, t2, ?_⟩
    rw [← Real.cos_sub_pi_div_two]
    exact (Real.abs_cos_sub_cos_le _ _).trans ht
  refine ⟨fun t t1 t2 => ?_, ?_, ?_⟩
  · rw [← Real.cos_sub_pi_div_two]
    obtain ⟨y, y1, y2, y3⟩ : ∃ y : ℝ, (a':ℝ) ≤ y ∧ y ≤ b' ∧ |(t - Real.pi / 2) - y| ≤ 3 * e := by
      by_cases c1 : t - Real.pi / 2 ≤ a'
      · exact ⟨a', le_rfl, k8, abs_le.mpr ⟨by linarith [near.1, near.2], by linarith⟩⟩
      by_cases c2 : t - Real.pi / 2 ≤ b'
      · exact ⟨_, by linarith, c2, by simpa using k0⟩
      · exact ⟨b', k8, le_rfl, abs_le.mpr ⟨by linarith, by linarith [near.1, near.2]⟩⟩
    have l := abs_le.mp ((Real.abs_cos_sub_cos_le _ _).trans y3)
    have := h1 y y1 y2
    constructor <;> linarith [this.1, this.2, l.1, l.2]
  · obtain ⟨t, t1, t2, ht⟩ := back x x1 x2
    exact ⟨t, t1, t2, by linarith [(abs_le.mp ht).2]⟩
  · obtain ⟨t, t1, t2, ht⟩ := back z z1 z2
    exact ⟨t, t1, t2, by linarith [(abs_le.mp ht).1]⟩

set_option maxHeartbeats 1000000 in
/-- the bounds after reduction: `lo` and `hi` differ from the bounds of `X` by the same multiple of `π`, up to rounding errors -/
theorem tan_reduce {M e p d : ℝ} (E : AbsErr M e) (E8 : AbsErr (8:ℝ) d) (L : PiLib p d) (hd : d ≤ 1/8) (hde : d ≤ e) (dbg : Bool)
    (X : Ivl (Fl ℝ)) (hX : Proper X) {a b B : ℝ} (ha : Is X.lo a) (hb : Is X.hi b) (a1 : -B ≤ a) (a2 : a ≤ b) (a3 : b ≤ B)
    (hM : 2 * B + 20 + 6 * e ≤ M) :
    ∃ (lo hi : Fl ℝ) (l h g : ℝ) (n : ℤ), Is lo l ∧ Is hi h ∧ |g - (b - a)| ≤ 3 * e ∧
      (e ≤ 1/8 → |(l:ℝ) - (a + n * Real.pi)| ≤ 16 * e + 2 * B * d ∧ |(h:ℝ) - (b + n * Real.pi)| ≤ 16 * e + 2 * B * d) ∧
      tanI dbg X = if p ≤ g then .ok ⟨.ninf, .pinf⟩ else Ivl.fromUnorderedBounds (Libm.tan lo) (Libm.tan hi) := by
  have hp : Is (Libm.pi : Fl ℝ) p := L.pi
  have near := abs_le.mp L.near
  have d0 : (0:ℝ) ≤ d := (abs_nonneg _).trans L.near
  have d0' : 0 ≤ d := by exact_mod_cast d0
  have hd' : (d:ℝ) ≤ 1/8 := by
    have : ((d:ℝ):ℝ) ≤ ((1/8:ℝ):ℝ) := by exact_mod_cast hd
    simpa using this
  have pg := Real.pi_gt_d2; have pl := Real.pi_lt_d2
  have p3 : (3:ℝ) < p := by
    have : ((3:ℝ):ℝ) < p := by push_cast; linarith [near.1]
    exact_mod_cast this
  have p4 : p < 33/10 := by
    have : (p:ℝ) < ((33/10:ℝ):ℝ) := by push_cast; linarith [near.2]
    exact_mod_cast this
  have e0 : 0 ≤ e := d0'.trans hde
  have B0 : 0 ≤ B := by linarith
  obtain ⟨q, hq, eq⟩ := E8.div hp (Is.num 2) (by norm_num) (abs_le.mpr ⟨by linarith, by linarith⟩)
  obtain ⟨r, hr, er⟩ := E8.div hp.neg (Is.num 2) (by norm_num) (abs_le.mpr ⟨by linarith, by linarith⟩)
  rw [abs_le] at eq er
  obtain ⟨w, hw, ew⟩ := E8.sub hq hr (abs_le.mpr ⟨by linarith, by linarith⟩)
  have ew' := abs_le.mp ew
  have w0 : 5/2 < w := by linarith [ew'.1]
  have w1 : w < 4 := by linarith [ew'.2]
  obtain ⟨lo, l, ewrap, hl, -, l1, l2, n, hn⟩ := wrap_err E ha hr hq (by linarith) hw (by linarith)
    (abs_le.mpr ⟨by linarith, by linarith⟩) (by linarith) (by rw [abs_of_neg (by linarith)]; linarith)
  obtain ⟨v, hv, ev⟩ := E.sub hl ha (abs_le.mpr ⟨by linarith, by linarith⟩)
  rw [abs_le] at ev
  obtain ⟨h, hh, eh⟩ := E.add hb hv (abs_le.mpr ⟨by linarith, by linarith⟩)
  rw [abs_le] at eh hn
  obtain ⟨g, hg, eg⟩ := E.sub hh hl (abs_le.mpr ⟨by linarith, by linarith⟩)
  rw [abs_le] at eg
  refine ⟨lo, _, l, h, g, n, hl, hh, abs_le.mpr ⟨by linarith, by linarith⟩, fun small => ?_, ?_⟩
  · have cast : ∀ {x y : ℝ}, x ≤ y → (x:ℝ) ≤ y := fun h => by exact_mod_cast h
    have n1 : (|n| : ℝ) ≤ 2 * B / 5 + 11/10 := by
      rcases le_total (0:ℝ) n with n0 | n0
      · rw [abs_of_nonneg n0]; nlinarith [hn.1]
      · rw [abs_of_nonpos n0]; nlinarith [hn.2]
    have n2 := cast n1
    have n3 : |(n:ℝ) * (w - Real.pi)| ≤ (2 * B / 5 + 11/10) * (5 * d) := by
      rw [abs_mul]
      refine mul_le_mul (by push_cast at n2; exact n2) ?_ (abs_nonneg _) (by have := cast B0; push_cast at this; positivity)
      have u1 := cast ew'.1; have u2 := cast ew'.2; have u3 := cast eq.1; have u4 := cast eq.2; have u5 := cast er.1; have u6 := cast er.2
      push_cast at u1 u2 u3 u4 u5 u6
      exact abs_le.mpr ⟨by linarith [near.1, near.2], by linarith [near.1, near.2]⟩
    rw [abs_le] at n3
    have k1 := cast hn.1; have k2 := cast hn.2; have k4 := cast ev.1; have k5 := cast ev.2
    have k6 := cast eh.1; have k7 := cast eh.2; have k8 := cast hde
    have k0 := cast e0
    push_cast at k1 k2 k4 k5 k6 k7 k8 k0
    constructor <;> rw [abs_le] <;> constructor <;> nlinarith [n3.1, n3.2]
  · unfold tanI
    rw [show X.assigned = true from Intervals.assigned_of_proper (X := .ivl X) hX, expectsDebug_true, ok_bind]
    simp only [ewrap, ok_bind, CppVal.ge, hp.le_eq hg, decide_eq_true_eq, Fl.infInterval_eq]


/-- `tan(X)` with rounding: if the tangent has no pole on the interval widened by `(16 + 2B)u`, and is at most `T` there -/
theorem tan_err {u p M T : ℝ} (E : AbsErr M u) (L : PiLib p u) (hu : u ≤ 1/8) (dbg : Bool) (X : Ivl (Fl ℝ)) (hX : Proper X) {a b B : ℝ}
    (ha : Is X.lo a) (hb : Is X.hi b) (a1 : -B ≤ a) (a2 : a ≤ b) (a3 : b ≤ B) (hM : 2 * B + 20 + 6 * u ≤ M) (hTM : T ≤ M)
    (hT : TanBound (a - (16 + 2 * B) * u) (b + (16 + 2 * B) * u) T) :
    ∃ R m N, tanI dbg X = .ok R ∧ IsI R m N ∧ m ≤ N ∧ RangeUpTo Real.tan a b m N (((1 + T^2) * (16 + 2 * B) + 1) * u) := by
  have near := abs_le.mp L.near
  have u0 : 0 ≤ u := (abs_nonneg _).trans L.near
  have B0 : 0 ≤ B := by linarith
  have E8 : AbsErr (8:ℝ) u := fun k hk => E k (by linarith)
  obtain ⟨lo, hi, l, h, g, n, hl, hh, hg, hlh, eq⟩ := tan_reduce E E8 L hu le_rfl dbg X hX ha hb a1 a2 a3 hM
  obtain ⟨hl', hh'⟩ := hlh hu
  rw [abs_le] at hg
  have eτ : 16 * u + 2 * B * u = (16 + 2 * B) * u := by ring
  rw [eτ] at hl' hh'
  have τ0 : 0 ≤ (16 + 2 * B) * u := by positivity
  have Bu : 0 ≤ B * u := by positivity
  generalize hτ : (16 + 2 * B) * u = τ at *
  have width : b - a + 2 * τ < Real.pi := by
    by_contra c
    obtain ⟨z, z1, z2, z3⟩ := exists_pole (a - τ)
    exact (hT z z1 (by linarith)).1 z3
  have nw : ¬ p ≤ g := by
    intro c
    nlinarith [near.1]
  rw [if_neg nw] at eq
  have hT' : ∀ x, a + n * Real.pi - τ ≤ x → x ≤ b + n * Real.pi + τ → Real.cos x ≠ 0 ∧ |Real.tan x| ≤ T := by
    intro x x1 x2
    have := hT (x - n * Real.pi) (by linarith) (by linarith)
    rw [Ne, ← cos_add_int_pi (n := n), ← tan_add_int_pi _ n, sub_add_cancel] at this
    exact this
  have hl2 := abs_le.mp hl'; have hh2 := abs_le.mp hh'
  have n1 := tan_near hT' (u := l) (v := a + n * Real.pi) (by linarith) (by linarith) (by linarith) (by linarith) hl'
  have n2 := tan_near hT' (u := h) (v := b + n * Real.pi) (by linarith) (by linarith) (by linarith) (by linarith) hh'
  rw [tan_add_int_pi, abs_le] at n1 n2
  have lib : ∀ {x : Fl ℝ} {k : ℝ}, Is x k → Real.cos k ≠ 0 ∧ |Real.tan k| ≤ T → ∃ c, Is (Libm.tan x) c ∧ |c - Real.tan k| ≤ u := by
    intro x k hx hk
    obtain ⟨h1, h2⟩ := hx
    obtain ⟨v, hv, ev⟩ := E (Real.tan k) (hk.2.trans hTM)
    cases x <;> simp [isFinite, val] at h1 h2
    · subst h2
      refine ⟨0, ⟨rfl, rfl⟩, by simpa using u0⟩
    · subst h2
      exact ⟨v, by simpa [Libm.tan, hk.1] using hv, ev⟩
  obtain ⟨c1, i1, f1⟩ := lib hl (hT' l (by linarith) (by linarith))
  obtain ⟨c2, i2, f2⟩ := lib hh (hT' h (by linarith) (by linarith))
  rw [abs_le] at f1 f2
  obtain ⟨R, eR, iR⟩ := i1.unordered i2
  have up : ∀ x : ℝ, a ≤ x → x ≤ b → Real.tan a ≤ Real.tan x ∧ Real.tan x ≤ Real.tan b := fun x x1 x2 =>
    ⟨(tan_slope hT (by linarith) x1 (by linarith)).1, (tan_slope hT (by linarith) x2 (by linarith)).1⟩
  have top := (up a le_rfl a2).2
  have tol : ((1 + T^2) * (16 + 2 * B) + 1) * u = (1 + T^2) * τ + u := by rw [← hτ]; ring
  rw [tol]
  refine ⟨R, _, _, eq.trans eR, iR, min_le_max, fun x x1 x2 => ?_, ?_, ?_⟩
  · have := up x x1 x2
    have u1 := min_le_left c1 c2; have u2 := le_max_right c1 c2
    constructor <;> linarith [this.1, this.2]
  · rcases min_cases c1 c2 with ⟨e, -⟩ | ⟨e, -⟩ <;> rw [e]
    · exact ⟨a, le_rfl, a2, by linarith⟩
    · exact ⟨b, a2, le_rfl, by linarith⟩
  · rcases max_cases c1 c2 with ⟨e, -⟩ | ⟨e, -⟩ <;> rw [e]
    · exact ⟨a, le_rfl, a2, by linarith⟩
    · exact ⟨b, a2, le_rfl, by linarith⟩

theorem absErr_of {u M : ℝ} (h : Accurate inferInstance u M) : AbsErr M u := fun k hk => ⟨_, Is.of_finite (h.2 k hk).1, (h.2 k hk).2⟩

theorem cosLib_of {u M : ℝ} (h : Accurate inferInstance u M) (hM : 4 ≤ M) : ∃ p, CosLib p u ∧ PiLib p u := by
  have pl := Real.pi_lt_d2; have pg := Real.pi_pos
  obtain ⟨p, hp, ep⟩ := absErr_of h Real.pi (by rw [abs_of_pos pg]; linarith)
  have neg : (Fmt.rnd (-1 : ℝ) : Fl ℝ) = .num (-1) := Fmt.rnd_symm 1 h.1
  have cos : ∀ k : ℝ, ∃ c : ℝ, Is (Fmt.rnd (Real.cos k) : Fl ℝ) c ∧ |c - Real.cos k| ≤ u ∧ -1 ≤ c ∧ c ≤ 1 := fun k => by
    obtain ⟨c, hc, ec⟩ := absErr_of h (Real.cos k) ((Real.abs_cos_le_one k).trans (by linarith))
    refine ⟨c, hc, ec, ?_, ?_⟩
    · have := Fmt.rnd_mono (-1) (Real.cos k) (Real.neg_one_le_cos k)
      rw [neg] at this
      exact ((Is.num (-1)).le_iff hc).mp this
    · have := Fmt.rnd_mono (Real.cos k) 1 (Real.cos_le_one k)
      rw [show (Fmt.rnd (1 : ℝ) : Fl ℝ) = .num 1 from h.1] at this
      exact (hc.le_iff (Is.num 1)).mp this
  refine ⟨p, ⟨hp, ep, fun a k ha => ?_⟩, hp, ep⟩
  obtain ⟨h1, h2⟩ := ha
  cases a <;> simp [isFinite, val] at h1 h2
  · subst h2
    have := cos 0
    rw [Real.cos_zero] at this ⊢; exact this
  · subst h2; exact cos _

/-- the power of two numbers with rounding -/
theorem powPt_err {u M Z x y : ℝ} (hF : Accurate inferInstance u M) (hu : u ≤ 1) {a b : Fl ℝ} (ha : Is a x) (hb : Is b y) (x0 : 0 < x)
    (hl : |Real.log x| ≤ Z) (hy : |y| ≤ Z) (hM : Z * Z + 2 * Z + Real.exp (Z * Z + Z + 1) ≤ M) :
    ∃ r, Is (powPt a b) r ∧ |r - x ^ y| ≤ (Real.exp (Z * Z + Z + 1) * (Z + 1) + 1) * u := by
  have E := absErr_of hF
  have Z0 : 0 ≤ Z := (abs_nonneg _).trans hy
  have u0 : 0 ≤ u := by
    obtain ⟨v, -, hv⟩ := E 0 (by rw [abs_zero]; have := Real.exp_pos (Z * Z + Z + 1); nlinarith)
    exact (abs_nonneg _).trans hv
  have ep := Real.exp_pos (Z * Z + Z + 1)
  have ZZ : 0 ≤ Z * Z := by positivity
  obtain ⟨g, hg, eg⟩ : ∃ g, Is (Libm.log a) g ∧ |g - Real.log x| ≤ u := by
    obtain ⟨v, hv, ev⟩ := E (Real.log x) (hl.trans (by linarith))
    obtain ⟨h1, h2⟩ := ha
    cases a <;> simp [isFinite, val] at h1 h2
    · subst h2; exact absurd x0 (lt_irrefl _)
    · subst h2
      exact ⟨v, by simpa [Libm.log, x0.not_gt, x0.ne'] using hv, ev⟩
  have near : |y * g - y * Real.log x| ≤ Z * u := by
    rw [← mul_sub, abs_mul]; exact mul_le_mul hy eg (abs_nonneg _) Z0
  have small : |y * Real.log x| ≤ Z * Z := by
    rw [abs_mul]; exact mul_le_mul hy hl (abs_nonneg _) Z0
  have Zu : Z * u ≤ Z := by nlinarith
  obtain ⟨z, hz, ez⟩ : ∃ z, Is (if b.isZero || (Libm.log a).isZero then .num 0 else Fl.mul b (Libm.log a)) z ∧ |z - y * g| ≤ u := by
    have zi : ∀ {a : Fl ℝ} {k : ℝ}, Is a k → (a.isZero = true ↔ k = 0) := fun {a k} h => by
      rcases h with ⟨h1, h2⟩
      cases a <;> simp [isFinite, isZero, val] at * <;> simp [← h2]
    by_cases h : y = 0 ∨ g = 0
    · have : (b.isZero || (Libm.log a).isZero) = true := by simpa [zi hb, zi hg] using h
      rw [if_pos this]
      refine ⟨0, Is.num 0, ?_⟩
      rw [show y * g = 0 by simpa using h]; simpa using u0
    · have : ¬ (b.isZero || (Libm.log a).isZero) = true := by simpa [zi hb, zi hg] using h
      rw [if_neg this]
      refine E.mul hb hg ?_
      rw [abs_le] at *
      constructor <;> linarith [near.1, near.2, small.1, small.2]
  have zv : |z - y * Real.log x| ≤ (Z + 1) * u := by
    rw [abs_le] at *
    constructor <;> linarith [near.1, near.2, ez.1, ez.2]
  rw [abs_le] at zv small
  have Zu1 : (Z + 1) * u ≤ Z + 1 := by nlinarith
  have zW : z ≤ Z * Z + Z + 1 := by linarith [zv.2, small.2]
  have vW : y * Real.log x ≤ Z * Z + Z + 1 := by linarith [small.2]
  have ez' := Real.exp_le_exp.mpr zW
  have ev' := Real.exp_le_exp.mpr vW
  obtain ⟨c, hc, ec⟩ : ∃ c, Is (Libm.exp (if b.isZero || (Libm.log a).isZero then .num 0 else Fl.mul b (Libm.log a))) c ∧ |c - Real.exp z| ≤ u := by
    generalize (if b.isZero || (Libm.log a).isZero then .num 0 else Fl.mul b (Libm.log a) : Fl ℝ) = q at hz
    obtain ⟨v, hv, ev⟩ := E (Real.exp z) (by rw [abs_of_pos (Real.exp_pos _)]; linarith)
    obtain ⟨h1, h2⟩ := hz
    cases q <;> simp [isFinite, val] at h1 h2
    · subst h2; rw [Real.exp_zero] at hv ev; exact ⟨v, hv, by rwa [Real.exp_zero]⟩
    · subst h2; exact ⟨v, hv, ev⟩
  refine ⟨c, hc, ?_⟩
  rw [Real.rpow_def_of_pos x0, mul_comm (Real.log x)]
  -- the exponential is Lipschitz
  have lip : |Real.exp z - Real.exp (y * Real.log x)| ≤ Real.exp (Z * Z + Z + 1) * ((Z + 1) * u) := by
    have key : ∀ {s t : ℝ}, s ≤ t → t ≤ Z * Z + Z + 1 → t - s ≤ (Z + 1) * u → Real.exp t - Real.exp s ≤ Real.exp (Z * Z + Z + 1) * ((Z + 1) * u) := fun {s t} h h1 h2 => by
      have e1 : Real.exp s = Real.exp t * Real.exp (s - t) := by rw [← Real.exp_add]; congr 1; ring
      have e2 := Real.add_one_le_exp (s - t)
      have e3 := Real.exp_le_exp.mpr h1
      have e4 := Real.exp_pos t
      calc Real.exp t - Real.exp s ≤ Real.exp t * (t - s) := by rw [e1]; nlinarith
        _ ≤ _ := mul_le_mul e3 h2 (by linarith) ep.le
    have mono : ∀ {s t : ℝ}, s ≤ t → Real.exp s ≤ Real.exp t := fun h => Real.exp_le_exp.mpr h
    rcases le_total z (y * Real.log x) with h | h
    · have := key h vW (by linarith [zv.1])
      rw [abs_le]; constructor <;> linarith [mono h, mul_nonneg ep.le (mul_nonneg (show 0 ≤ Z + 1 by linarith) u0)]
    · have := key h zW (by linarith [zv.2])
      rw [abs_le]; constructor <;> linarith [mono h, mul_nonneg ep.le (mul_nonneg (show 0 ≤ Z + 1 by linarith) u0)]
  rw [abs_le] at *
  constructor <;> nlinarith [lip.1, lip.2, ec.1, ec.2]
end main
end Intervals.Props.OverReal
