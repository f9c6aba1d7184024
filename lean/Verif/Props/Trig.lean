import Verif.Model.RealLibm
import Verif.Lemmas.Exact
import Verif.Spec.Real
import Mathlib.Analysis.Real.Pi.Bounds
/-!
# C38, C39: cos, sin, tan in exact real arithmetic
-/
set_option linter.unusedSectionVars false
namespace Intervals.Props
open Intervals CppVal Spec Fl

attribute [local instance] exactFmt

theorem is_cos {a : Fl ℝ} {k : ℝ} (h : Is a k) : Is (Libm.cos a) (Real.cos k) := by
  obtain ⟨h1, h2⟩ := h
  cases a <;> simp [isFinite, val] at h1 h2
  · subst h2; rw [Real.cos_zero]; exact Is.num 1
  · subst h2; exact Is.num _
theorem is_pi : Is (Libm.pi : Fl ℝ) Real.pi := Is.num _

/-- the real content of a result: bounds `m`, `M` are the exact range of `f` on `[l, h]` -/
def ExactOn (f : ℝ → ℝ) (l h m M : ℝ) : Prop :=
  (∀ x, l ≤ x → x ≤ h → m ≤ f x ∧ f x ≤ M) ∧ (∃ x, l ≤ x ∧ x ≤ h ∧ f x = m) ∧ (∃ x, l ≤ x ∧ x ≤ h ∧ f x = M)

theorem realRange_of {f : ℝ → ℝ} {X : Ivl (Fl ℝ)} {l h : ℝ} (hX : IsI X l h) {res : Outcome (Ivl (Fl ℝ))}
    (H : ∃ R m M, res = .ok R ∧ IsI R m M ∧ ExactOn f l h m M) : RealRange f X res := by
  obtain ⟨R, m, M, e, hR, h1, ⟨x, a1, a2, a3⟩, ⟨y, b1, b2, b3⟩⟩ := H
  refine ⟨R, e, fun x hx => ?_, ⟨x, hX.mem_num.mpr ⟨a1, a2⟩, ?_⟩, ⟨y, hX.mem_num.mpr ⟨b1, b2⟩, ?_⟩⟩
  · obtain ⟨u, v⟩ := hX.mem_num.mp hx
    exact hR.mem_num.mpr (h1 x u v)
  · rw [hR.1.eq_iff (Is.num _)]; exact a3.symm
  · rw [hR.2.eq_iff (Is.num _)]; exact b3.symm

theorem cos_mono_neg {a b : ℝ} (h1 : -Real.pi ≤ a) (h : a ≤ b) (h2 : b ≤ 0) : Real.cos a ≤ Real.cos b := by
  rw [← Real.cos_neg a, ← Real.cos_neg b]
  exact Real.strictAntiOn_cos.antitoneOn ⟨by linarith, by linarith⟩ ⟨by linarith, by linarith⟩ (by linarith)
theorem cos_anti_pos {a b : ℝ} (h1 : 0 ≤ a) (h : a ≤ b) (h2 : b ≤ Real.pi) : Real.cos b ≤ Real.cos a :=
  Real.strictAntiOn_cos.antitoneOn ⟨h1, by linarith⟩ ⟨by linarith, h2⟩ h
theorem cos_mono_pi {a b : ℝ} (h1 : Real.pi ≤ a) (h : a ≤ b) (h2 : b ≤ 2 * Real.pi) : Real.cos a ≤ Real.cos b := by
  rw [← Real.cos_two_pi_sub a, ← Real.cos_two_pi_sub b]
  exact Real.strictAntiOn_cos.antitoneOn ⟨by linarith, by linarith⟩ ⟨by linarith, by linarith⟩ (by linarith)

/-- shifting by a period -/
theorem ExactOn.shift {l h m M : ℝ} (n : ℤ) (H : ExactOn Real.cos (l + n * (2 * Real.pi)) (h + n * (2 * Real.pi)) m M) : ExactOn Real.cos l h m M := by
  obtain ⟨h1, ⟨x, a1, a2, a3⟩, ⟨y, b1, b2, b3⟩⟩ := H
  refine ⟨fun x hl hh => ?_, ⟨x - n * (2 * Real.pi), by linarith, by linarith, ?_⟩, ⟨y - n * (2 * Real.pi), by linarith, by linarith, ?_⟩⟩
  · have := h1 (x + n * (2 * Real.pi)) (by linarith) (by linarith)
    rwa [Real.cos_add_int_mul_two_pi] at this
  · rw [Real.cos_sub_int_mul_two_pi, a3]
  · rw [Real.cos_sub_int_mul_two_pi, b3]

theorem cos_core (dbg : Bool) {X : Ivl (Fl ℝ)} {l h : ℝ} (hX : IsI X l h) (hlh : l ≤ h) :
    ∃ R m M, cosI dbg X = .ok R ∧ IsI R m M ∧ ExactOn Real.cos l h m M := by
  have hpi := Real.pi_pos
  obtain ⟨lo, L, ew, hL, hL1, hL2, n, hn⟩ := Is.wraparound hX.1 is_pi.neg is_pi (by linarith)
  have hH := hX.2.add (hL.sub hX.1)
  have eL : L = l + n * (2 * Real.pi) := by rw [hn]; ring
  have eH : h + (L - l) = h + n * (2 * Real.pi) := by rw [eL]; ring
  rw [eH] at hH
  set H := h + n * (2 * Real.pi) with hHd
  have hLH : L ≤ H := by rw [eL]; linarith
  suffices S : ∃ R m M, cosI dbg X = .ok R ∧ IsI R m M ∧ ExactOn Real.cos L H m M by
    obtain ⟨R, m, M, e, hR, hE⟩ := S
    exact ⟨R, m, M, e, hR, ExactOn.shift n (by rw [← eL]; exact hE)⟩
  have two : Is (Fl.mul (.num 2) (Libm.pi : Fl ℝ)) (2 * Real.pi) := (Is.num 2).mul is_pi
  unfold cosI
  rw [show X.assigned = true from assigned_of_proper (X := .ivl X) (hX.proper.mpr hlh), expectsDebug_true, ok_bind]
  simp only [ew, ok_bind]
  rw [hL.le_eq (Is.num 0), hH.le_eq (Is.num 0), hH.le_eq is_pi, hH.le_eq two]
  simp only [decide_eq_true_eq]
  have c1 := is_cos hL; have c2 := is_cos hH
  have bd : ∀ x, -1 ≤ Real.cos x ∧ Real.cos x ≤ 1 := fun x => ⟨Real.neg_one_le_cos x, Real.cos_le_one x⟩
  by_cases h1 : L ≤ 0
  · rw [if_pos h1]
    by_cases h2 : H ≤ 0
    · rw [if_pos h2]
      obtain ⟨R, e, hR⟩ := c1.unordered c2
      have m := cos_mono_neg hL1 hLH h2
      rw [min_eq_left m, max_eq_right m] at hR
      exact ⟨R, _, _, e, hR, fun x a b => ⟨cos_mono_neg hL1 a (by linarith), cos_mono_neg (by linarith) b h2⟩, ⟨L, le_rfl, hLH, rfl⟩, ⟨H, hLH, le_rfl, rfl⟩⟩
    · rw [if_neg h2]
      push Not at h2
      by_cases h3 : H ≤ Real.pi
      · rw [if_pos h3]
        obtain ⟨R, e, hR⟩ := (c1.cmin c2).make (Is.num 1) (le_trans (min_le_left _ _) (bd _).2)
        refine ⟨R, _, _, e, hR, fun x a b => ⟨?_, (bd x).2⟩, ?_, ⟨0, h1, h2.le, Real.cos_zero⟩⟩
        · rcases le_total x 0 with hx | hx
          · exact (min_le_left _ _).trans (cos_mono_neg hL1 a hx)
          · exact (min_le_right _ _).trans (cos_anti_pos hx b h3)
        · rcases min_choice (Real.cos L) (Real.cos H) with hm | hm <;> rw [hm]
          exacts [⟨L, le_rfl, hLH, rfl⟩, ⟨H, hLH, le_rfl, rfl⟩]
      · rw [if_neg h3]
        push Not at h3
        obtain ⟨R, e, hR⟩ := (Is.num (-1:ℝ)).make (Is.num 1) (by norm_num)
        exact ⟨R, _, _, e, hR, fun x _ _ => bd x, ⟨Real.pi, by linarith, h3.le, Real.cos_pi⟩, ⟨0, h1, h2.le, Real.cos_zero⟩⟩
  · rw [if_neg h1]
    push Not at h1
    by_cases h2 : H ≤ Real.pi
    · rw [if_pos h2]
      obtain ⟨R, e, hR⟩ := c2.unordered c1
      have m := cos_anti_pos h1.le hLH h2
      rw [min_eq_left m, max_eq_right m] at hR
      exact ⟨R, _, _, e, hR, fun x a b => ⟨cos_anti_pos (by linarith) b h2, cos_anti_pos h1.le a (by linarith)⟩, ⟨H, hLH, le_rfl, rfl⟩, ⟨L, le_rfl, hLH, rfl⟩⟩
    · rw [if_neg h2]
      push Not at h2
      by_cases h3 : H ≤ 2 * Real.pi
      · rw [if_pos h3]
        obtain ⟨R, e, hR⟩ := (Is.num (-1:ℝ)).make (c1.cmax c2) (le_trans (bd _).1 (le_max_left _ _))
        refine ⟨R, _, _, e, hR, fun x a b => ⟨(bd x).1, ?_⟩, ⟨Real.pi, hL2.le, h2.le, Real.cos_pi⟩, ?_⟩
        · rcases le_total x Real.pi with hx | hx
          · exact (cos_anti_pos h1.le a hx).trans (le_max_left _ _)
          · exact (cos_mono_pi hx b h3).trans (le_max_right _ _)
        · rcases max_choice (Real.cos L) (Real.cos H) with hm | hm <;> rw [hm]
          exacts [⟨L, le_rfl, hLH, rfl⟩, ⟨H, hLH, le_rfl, rfl⟩]
      · rw [if_neg h3]
        push Not at h3
        obtain ⟨R, e, hR⟩ := (Is.num (-1:ℝ)).make (Is.num 1) (by norm_num)
        exact ⟨R, _, _, e, hR, fun x _ _ => bd x, ⟨Real.pi, hL2.le, h2.le, Real.cos_pi⟩, ⟨2 * Real.pi, by linarith, h3.le, Real.cos_two_pi⟩⟩

/-- C38: `cos(X)` is the exact range of the cosine over `X`, for every real interval -/
theorem C38_cos (dbg : Bool) (X : Ivl (Fl ℝ)) (hX : FiniteI X) : RealRange Real.cos X (cosI dbg X) :=
  have h := isI_of_finite hX.1 hX.2.1
  realRange_of h (cos_core dbg h (h.proper.mp hX.2.2))

/-- C38: `sin(X)` is the exact range of the sine over `X`, for every real interval -/
theorem C38_sin (dbg : Bool) (X : Ivl (Fl ℝ)) (hX : FiniteI X) : RealRange Real.sin X (sinI dbg X) := by
  have h := isI_of_finite hX.1 hX.2.1
  have hlh := h.proper.mp hX.2.2
  refine realRange_of h ?_
  have hp2 : Is (Fl.div (Libm.pi : Fl ℝ) (.num 2)) (Real.pi / 2) := is_pi.div (Is.num 2) (by norm_num)
  have hs : ∃ R, subI dbg (.ivl X) (.scalar (Fl.div (Libm.pi : Fl ℝ) (.num 2))) = .ok R ∧ IsI R (X.lo.val - Real.pi / 2) (X.hi.val - Real.pi / 2) := by
    obtain ⟨R, e, hR⟩ := (h.1.sub hp2).make (h.2.sub hp2) (by linarith)
    refine ⟨R, ?_, hR⟩
    unfold subI
    have ni : ∀ {a : Fl ℝ} {k : ℝ}, Is a k → isNegInf a = false ∧ isPosInf a = false := by
      intro a k ha
      constructor <;> rw [← Bool.not_eq_true]
      · rw [Fl.isNegInf_iff]; rintro rfl; simp [Is, isFinite] at ha
      · rw [Fl.isPosInf_iff]; rintro rfl; simp [Is, isFinite] at ha
    simp only [Arg.assigned, show X.assigned = true from assigned_of_proper (X := .ivl X) hX.2.2, Bool.and_self, expectsDebug_true, ok_bind,
      Arg.lo, Arg.hi, (ni h.1).1, (ni h.2).2, (ni hp2).1, (ni hp2).2, Bool.or_self, Bool.and_false, Bool.false_eq_true, if_false]
    exact e
  obtain ⟨S, eS, hS⟩ := hs
  obtain ⟨R, m, M, e, hR, h1, ⟨x, a1, a2, a3⟩, ⟨y, b1, b2, b3⟩⟩ := cos_core dbg hS (by linarith)
  refine ⟨R, m, M, ?_, hR, fun x u v => ?_, ⟨x + Real.pi / 2, by linarith, by linarith, ?_⟩, ⟨y + Real.pi / 2, by linarith, by linarith, ?_⟩⟩
  · unfold sinI; rw [eS]; exact e
  · have := h1 (x - Real.pi / 2) (by linarith) (by linarith)
    rwa [Real.cos_sub_pi_div_two] at this
  · rw [Real.sin_add_pi_div_two, a3]
  · rw [Real.sin_add_pi_div_two, b3]

/-- C38: the results lie in `[-1,1]` -/
theorem C38_range (dbg : Bool) (X : Ivl (Fl ℝ)) (hX : FiniteI X) :
    ∃ C S, cosI dbg X = .ok C ∧ sinI dbg X = .ok S ∧
      le (.num (-1)) C.lo = true ∧ le C.hi (.num 1) = true ∧ le (.num (-1)) S.lo = true ∧ le S.hi (.num 1) = true := by
  obtain ⟨C, eC, -, ⟨x, -, hx⟩, ⟨y, -, hy⟩⟩ := C38_cos dbg X hX
  obtain ⟨S, eS, -, ⟨u, -, hu⟩, ⟨v, -, hv⟩⟩ := C38_sin dbg X hX
  refine ⟨C, S, eC, eS, ?_, ?_, ?_, ?_⟩
  · exact CppOrder.le_trans _ (.num (Real.cos x)) _ (by simp [Real.neg_one_le_cos]) ((CppOrder.eq_iff _ _).mp hx).2
  · exact CppOrder.le_trans _ (.num (Real.cos y)) _ ((CppOrder.eq_iff _ _).mp hy).1 (by simp [Real.cos_le_one])
  · exact CppOrder.le_trans _ (.num (Real.sin u)) _ (by simp [Real.neg_one_le_sin]) ((CppOrder.eq_iff _ _).mp hu).2
  · exact CppOrder.le_trans _ (.num (Real.sin v)) _ ((CppOrder.eq_iff _ _).mp hv).1 (by simp [Real.sin_le_one])

theorem wrap_inf {x : Fl ℝ} {a b : ℝ} (hx : x = .ninf ∨ x = .pinf) (h : a < b) : Fl.wraparound x (.num a) (.num b) = .ok .nan := by
  have hs : ∀ y : Fl ℝ, Fl.sub x (.num a) = x := fun _ => by
    rcases hx with rfl | rfl <;> by_cases ha : a = 0 <;> simp [Fl.sub, Fl.add, Fl.neg, isNan, isInf, ha]
  have hf : ∀ r : Fl ℝ, Fl.fmod x r = .nan := fun r => by
    unfold Fl.fmod; rcases hx with rfl | rfl <;> simp [isInf]
  have ha : ∀ r : Fl ℝ, Fl.add r .nan = .nan := fun r => by simp [Fl.add, isNan]
  have hn : ∀ r : Fl ℝ, Fl.fmod .nan r = .nan := fun r => by simp [Fl.fmod, isNan]
  unfold Fl.wraparound
  rw [show lt (.num a) (.num b : Fl ℝ) = true from ((Is.num a).lt_iff (Is.num b)).mpr h]
  simp only [expects_true, ok_bind, hs x, hf, ha, hn]
  rfl

theorem cos_inf (dbg : Bool) {X : Ivl (Fl ℝ)} (hX : Proper X) (hi : ¬(X.lo.isFinite = true ∧ X.hi.isFinite = true)) :
    cosI dbg X = .ok ⟨.num (-1), .num 1⟩ := by
  have hp := Real.pi_pos
  have e0 : (Libm.pi : Fl ℝ) = .num Real.pi := rfl
  have en : Fl.neg (.num Real.pi : Fl ℝ) = .num (-Real.pi) := by simp [Fl.neg, hp.ne']
  have fin : Ivl.make (.num (-1) : Fl ℝ) (.num 1) = .ok ⟨.num (-1), .num 1⟩ := make_ok_of_le (by simp)
  unfold cosI
  rw [show X.assigned = true from assigned_of_proper (X := .ivl X) hX, expectsDebug_true, ok_bind]
  simp only [e0, en]
  by_cases hl : X.lo.isFinite = true
  · have hh : X.hi = .pinf := by
      have h2 : ¬ X.hi.isFinite = true := fun h => hi ⟨hl, h⟩
      unfold Proper at hX
      cases e1 : X.lo <;> cases e2 : X.hi <;> simp [e1, e2, isFinite] at *
    obtain ⟨lo, L, ew, hL, -⟩ := Is.wraparound (Is.of_finite hl) (Is.num (-Real.pi)) (Is.num Real.pi) (by linarith)
    have hadd : Fl.add X.hi (Fl.sub lo X.lo) = .pinf := by
      have := (hL.sub (Is.of_finite hl)).1
      rw [hh]; generalize Fl.sub lo X.lo = d at this
      cases d <;> simp [isFinite, Fl.add, isNan, isInf] at this ⊢
    have m2 : Fl.mul (.num 2) (.num Real.pi : Fl ℝ) = .num (2 * Real.pi) := by
      simp [Fl.mul, isNan, isInf, isZero, hp.ne', val]; rfl
    simp only [ew, ok_bind, hadd, m2, fin]
    simp
  · have hx : X.lo = .ninf ∨ X.lo = .pinf := by
      unfold Proper at hX
      cases e1 : X.lo <;> simp [e1, isFinite] at *
    have hadd : ∀ y : Fl ℝ, Fl.add y (Fl.sub .nan X.lo) = .nan := fun y => by simp [Fl.add, Fl.sub, isNan]
    simp only [wrap_inf hx (show -Real.pi < Real.pi by linarith), ok_bind, hadd, fin]
    simp

/-- C38: an interval with an infinite bound has the result `[-1,1]`, which contains `cos x` and `sin x` for every number `x`. -/
theorem C38_infinite (dbg : Bool) (X : Ivl (Fl ℝ)) (hX : Proper X) (hi : ¬(X.lo.isFinite = true ∧ X.hi.isFinite = true)) :
    cosI dbg X = .ok ⟨.num (-1), .num 1⟩ ∧ sinI dbg X = .ok ⟨.num (-1), .num 1⟩ := by
  have hp := Real.pi_pos
  refine ⟨cos_inf dbg hX hi, ?_⟩
  have hp2 : Fl.div (Libm.pi : Fl ℝ) (.num 2) = .num (Real.pi / 2) := by
    change Fl.div (.num Real.pi : Fl ℝ) (.num 2) = _
    simp [Fl.div, isNan, isInf, isZero, val, hp.ne']; rfl
  have hs : ∀ x : Fl ℝ, x ≠ .nan → (Fl.sub x (.num (Real.pi / 2))).isFinite = x.isFinite ∧ Fl.sub x (.num (Real.pi / 2)) ≠ .nan := by
    intro x hx
    have : ¬ Real.pi / 2 = 0 := by linarith
    by_cases hf : x.isFinite = true
    · have := (Is.of_finite hf).sub (Is.num (Real.pi / 2))
      exact ⟨this.1.trans hf.symm, this.ne_nan⟩
    · cases x <;> simp [isFinite, Fl.sub, Fl.neg, Fl.add, isNan, isInf, this] at hf hx ⊢
  have nl : X.lo ≠ .nan := ne_nan_of_le_left hX
  have nh : X.hi ≠ .nan := ne_nan_of_le_right hX
  have hle : le (Fl.sub X.lo (.num (Real.pi / 2))) (Fl.sub X.hi (.num (Real.pi / 2))) = true :=
    Fl.add_mono_left hX (hs _ nl).2 (hs _ nh).2
  have hsub : subI dbg (.ivl X) (.scalar (.num (Real.pi / 2))) = .ok ⟨Fl.sub X.lo (.num (Real.pi / 2)), Fl.sub X.hi (.num (Real.pi / 2))⟩ := by
    unfold subI
    have n1 : isNegInf (.num (Real.pi / 2) : Fl ℝ) = false := by rw [← Bool.not_eq_true, Fl.isNegInf_iff]; simp
    have n2 : isPosInf (.num (Real.pi / 2) : Fl ℝ) = false := by rw [← Bool.not_eq_true, Fl.isPosInf_iff]; simp
    simp only [Arg.assigned, show X.assigned = true from assigned_of_proper (X := .ivl X) hX, Bool.and_self, expectsDebug_true, ok_bind,
      Arg.lo, Arg.hi, n1, n2, Bool.false_and, Bool.or_self, Bool.and_false, Bool.false_eq_true, if_false]
    exact make_ok_of_le hle
  unfold sinI
  rw [hp2, hsub, ok_bind]
  exact cos_inf dbg hle (by rw [(hs _ nl).1, (hs _ nh).1]; exact hi)

-- the hypothesis is met by [-2, 7]; cos 0 = 1 and cos π = -1 are in the result
example : FiniteI (⟨.num (-2), .num 7⟩ : Ivl (Fl ℝ)) := ⟨rfl, rfl, by simp [Proper]; norm_num⟩
example : ∃ R, cosI true (⟨.num (-2), .num 7⟩ : Ivl (Fl ℝ)) = .ok R ∧ .num 1 ∈ᵢ R := by
  obtain ⟨R, e, h, -⟩ := C38_cos true ⟨.num (-2), .num 7⟩ ⟨rfl, rfl, by simp [Proper]; norm_num⟩
  exact ⟨R, e, by simpa using h 0 ⟨by simp, by simp⟩⟩
/-! ## tan -/
theorem is_tan {a : Fl ℝ} {k : ℝ} (h : Is a k) (hc : Real.cos k ≠ 0) : Is (Libm.tan a) (Real.tan k) := by
  obtain ⟨h1, h2⟩ := h
  cases a <;> simp [isFinite, val] at h1 h2
  · subst h2; rw [Real.tan_zero]; exact Is.nzero
  · subst h2; simp only [Libm.tan, hc, if_false]; exact Is.num _

/-- `tan` of an interval in exact arithmetic, after reduction by `n` periods -/
theorem tan_core (dbg : Bool) {X : Ivl (Fl ℝ)} {l h : ℝ} (hX : IsI X l h) (hlh : l ≤ h) :
    ∃ (n : ℤ) (lo hi : Fl ℝ), Is lo (l + n * Real.pi) ∧ Is hi (h + n * Real.pi) ∧ -(Real.pi/2) ≤ l + n * Real.pi ∧ l + n * Real.pi < Real.pi/2 ∧
      tanI dbg X = if Real.pi ≤ h - l then .ok ⟨.ninf, .pinf⟩ else Ivl.fromUnorderedBounds (Libm.tan lo) (Libm.tan hi) := by
  have hpi := Real.pi_pos
  have h2 : Is (Fl.div (Fl.neg (Libm.pi : Fl ℝ)) (.num 2)) (-Real.pi/2) := is_pi.neg.div (Is.num 2) (by norm_num)
  have h3 : Is (Fl.div (Libm.pi : Fl ℝ) (.num 2)) (Real.pi/2) := is_pi.div (Is.num 2) (by norm_num)
  obtain ⟨lo, L, ew, hL, hL1, hL2, n, hn⟩ := Is.wraparound hX.1 h2 h3 (by linarith)
  have eL : L = l + n * Real.pi := by rw [hn]; ring
  have hH := hX.2.add (hL.sub hX.1)
  have eH : h + (L - l) = h + n * Real.pi := by rw [eL]; ring
  have hd := hH.sub hL
  rw [show h + (L - l) - L = h - l by ring] at hd
  rw [eH] at hH
  rw [eL] at hL hL1 hL2
  refine ⟨n, lo, _, hL, hH, by linarith, hL2, ?_⟩
  unfold tanI
  rw [show X.assigned = true from assigned_of_proper (X := .ivl X) (hX.proper.mpr hlh), expectsDebug_true, ok_bind]
  simp only [ew, ok_bind, CppVal.ge, is_pi.le_eq hd, decide_eq_true_eq, Fl.infInterval_eq]

theorem tan_add_int_pi (x : ℝ) (n : ℤ) : Real.tan (x + n * Real.pi) = Real.tan x := Real.tan_periodic.int_mul n x
theorem cos_add_int_pi {x : ℝ} {n : ℤ} : Real.cos (x + n * Real.pi) = 0 ↔ Real.cos x = 0 := by
  rw [Real.cos_eq_zero_iff, Real.cos_eq_zero_iff]
  constructor
  · rintro ⟨k, hk⟩; exact ⟨k - n, by push_cast; linarith⟩
  · rintro ⟨k, hk⟩; exact ⟨k + n, by push_cast; linarith⟩

/-- C39 where it holds: if `X` contains no pole, `tan(X)` is the exact range of the tangent; if it is at least `π` wide, `tan(X)` is `[-inf,inf]`
and contains the tangent of every number.  Missing from the full statement: intervals narrower than `π` that contain a pole, where it is false
(`C39_violated`). -/
theorem C39_tan_partial (dbg : Bool) (X : Ivl (Fl ℝ)) (hX : FiniteI X) :
    ((∀ x : ℝ, .num x ∈ᵢ X → Real.cos x ≠ 0) → RealRange Real.tan X (tanI dbg X)) ∧
    (Real.pi ≤ X.hi.val - X.lo.val → tanI dbg X = .ok ⟨.ninf, .pinf⟩ ∧ ∀ x : ℝ, .num (Real.tan x) ∈ᵢ (⟨.ninf, .pinf⟩ : Ivl (Fl ℝ))) := by
  have h := isI_of_finite hX.1 hX.2.1
  have hlh := h.proper.mp hX.2.2
  set l := X.lo.val; set u := X.hi.val
  obtain ⟨n, lo, hi, hlo, hhi, h1, h2, e⟩ := tan_core dbg h hlh
  have hpi := Real.pi_pos
  constructor
  · intro hp
    have hw : ¬ Real.pi ≤ u - l := by
      intro hw
      -- a pole in [l, l + π]
      have h0 : Real.cos (Real.pi/2 - n * Real.pi) = 0 := by
        have := (cos_add_int_pi (x := Real.pi/2) (n := -n)).mpr Real.cos_pi_div_two
        rwa [show Real.pi/2 + ((-n : ℤ) : ℝ) * Real.pi = Real.pi/2 - n * Real.pi by push_cast; ring] at this
      exact hp _ (h.mem_num.mpr ⟨by linarith, by linarith⟩) h0
    rw [if_neg hw] at e
    have hp' : ∀ x, l + n * Real.pi ≤ x → x ≤ u + n * Real.pi → Real.cos x ≠ 0 := by
      intro x a b hc
      have : Real.cos (x - n * Real.pi) = 0 := by
        rw [← cos_add_int_pi (n := n)]; rwa [sub_add_cancel]
      exact hp _ (h.mem_num.mpr ⟨by linarith, by linarith⟩) this
    have g1 : -(Real.pi/2) < l + n * Real.pi := by
      refine lt_of_le_of_ne h1 fun heq => hp' _ le_rfl (by linarith) ?_
      rw [← heq, Real.cos_neg, Real.cos_pi_div_two]
    have g2 : u + n * Real.pi < Real.pi/2 := by
      by_contra hc
      push Not at hc
      exact hp' (Real.pi/2) h2.le hc Real.cos_pi_div_two
    have mono : ∀ a b, -(Real.pi/2) < a → a ≤ b → b < Real.pi/2 → Real.tan a ≤ Real.tan b := fun a b ha hab hb =>
      Real.strictMonoOn_tan.monotoneOn ⟨ha, by linarith⟩ ⟨by linarith, hb⟩ hab
    have c1 : Real.cos (l + n * Real.pi) ≠ 0 := hp' _ le_rfl (by linarith)
    have c2 : Real.cos (u + n * Real.pi) ≠ 0 := hp' _ (by linarith) le_rfl
    obtain ⟨R, eR, hR⟩ := (is_tan hlo c1).unordered (is_tan hhi c2)
    have m := mono _ _ g1 (by linarith : l + n * Real.pi ≤ u + n * Real.pi) g2
    rw [min_eq_left m, max_eq_right m, tan_add_int_pi, tan_add_int_pi] at hR
    refine realRange_of h ⟨R, _, _, e.trans eR, hR, fun x a b => ?_, ⟨l, le_rfl, hlh, rfl⟩, ⟨u, hlh, le_rfl, rfl⟩⟩
    rw [← tan_add_int_pi l n, ← tan_add_int_pi x n, ← tan_add_int_pi u n]
    exact ⟨mono _ _ g1 (by linarith) (by linarith), mono _ _ (by linarith) (by linarith) g2⟩
  · intro hw
    rw [if_pos hw] at e
    exact ⟨e, fun x => by simp [Pt]⟩

/-- C39 is false for *every* interval narrower than `π` with a pole of the tangent strictly inside: some point where the tangent is defined is
missing from the result. -/
theorem C39_violated_all (dbg : Bool) (X : Ivl (Fl ℝ)) (hX : FiniteI X) (hw : X.hi.val - X.lo.val < Real.pi)
    (p : ℝ) (hp : Real.cos p = 0) (h1 : X.lo.val < p) (h2 : p < X.hi.val) :
    ∃ R, tanI dbg X = .ok R ∧ ∃ x : ℝ, .num x ∈ᵢ X ∧ Real.cos x ≠ 0 ∧ ¬ .num (Real.tan x) ∈ᵢ R := by
  have h := isI_of_finite hX.1 hX.2.1
  have hlh := h.proper.mp hX.2.2
  set l := X.lo.val; set u := X.hi.val
  obtain ⟨n, lo, hi, hlo, hhi, g1, g2, e⟩ := tan_core dbg h hlh
  have hpi := Real.pi_pos
  rw [if_neg (not_le.mpr hw)] at e
  -- the pole is at π/2 after reduction
  obtain ⟨k, hk⟩ := Real.cos_eq_zero_iff.mp ((cos_add_int_pi (n := n)).mpr hp)
  have hk0 : k = 0 := by
    have a1 : -1 < k := by
      have : ((-1:ℤ):ℝ) < k := by push_cast; nlinarith
      exact_mod_cast this
    have a2 : k < 1 := by
      have : (k:ℝ) < ((1:ℤ):ℝ) := by push_cast; nlinarith
      exact_mod_cast this
    omega
  rw [hk0] at hk; push_cast at hk
  have hk' : p + n * Real.pi = Real.pi/2 := by linarith
  have L1 : -(Real.pi/2) < l + n * Real.pi := by linarith
  have c1 : Real.cos (l + n * Real.pi) ≠ 0 := (Real.cos_pos_of_mem_Ioo ⟨L1, g2⟩).ne'
  set L := l + n * Real.pi with hL
  have eH : Real.tan (u + n * Real.pi) = Real.tan (u + n * Real.pi - Real.pi) := (Real.tan_sub_pi _).symm
  have H1 : -(Real.pi/2) < u + n * Real.pi - Real.pi := by linarith
  have H2 : u + n * Real.pi - Real.pi < L := by linarith
  have c2 : Real.cos (u + n * Real.pi) ≠ 0 := by
    have := (Real.cos_pos_of_mem_Ioo ⟨H1, by linarith⟩).ne'
    rw [Real.cos_sub_pi] at this
    exact fun h => this (by rw [h, neg_zero])
  obtain ⟨R, eR, hR⟩ := (is_tan hlo c1).unordered (is_tan hhi c2)
  rw [eH] at hR
  have m : Real.tan (u + n * Real.pi - Real.pi) < Real.tan L := Real.strictMonoOn_tan ⟨H1, by linarith⟩ ⟨L1, g2⟩ H2
  rw [min_eq_right m.le, max_eq_left m.le] at hR
  set x := (L + Real.pi/2)/2 with hx
  have x1 : L < x := by linarith
  have x2 : x < Real.pi/2 := by linarith
  have mx : Real.tan L < Real.tan x := Real.strictMonoOn_tan ⟨L1, g2⟩ ⟨by linarith, x2⟩ x1
  have ex : x - n * Real.pi + n * Real.pi = x := by ring
  refine ⟨R, e.trans eR, x - n * Real.pi, h.mem_num.mpr ⟨by linarith, by linarith⟩, ?_, ?_⟩
  · intro hc
    rw [← cos_add_int_pi (n := n), ex] at hc
    exact (Real.cos_pos_of_mem_Ioo ⟨by linarith, x2⟩).ne' hc
  · rw [← tan_add_int_pi _ n, ex, hR.mem_num]
    rintro ⟨-, hle⟩
    linarith

/-- C39 is false: `tan([1,2])` does not contain the tangent of some number between 1 and `π/2`. -/
theorem C39_violated : ∃ X : Ivl (Fl ℝ), FiniteI X ∧ ∃ R, tanI true X = .ok R ∧
    ∃ x : ℝ, .num x ∈ᵢ X ∧ Real.cos x ≠ 0 ∧ ¬ .num (Real.tan x) ∈ᵢ R := by
  have h : FiniteI (⟨.num 1, .num 2⟩ : Ivl (Fl ℝ)) := ⟨rfl, rfl, by simp [Proper]⟩
  have a := Real.pi_gt_three; have b := Real.pi_le_four
  refine ⟨_, h, C39_violated_all true _ h ?_ (Real.pi/2) Real.cos_pi_div_two ?_ ?_⟩
  · simp only [val]; linarith
  · simp only [val]; linarith
  · simp only [val]
    have := Real.pi_lt_d2; linarith

-- [-1, 1] contains no pole
example : ∀ x : ℝ, .num x ∈ᵢ (⟨.num (-1), .num 1⟩ : Ivl (Fl ℝ)) → Real.cos x ≠ 0 := by
  intro x hx
  simp [Pt] at hx
  have := Real.pi_gt_three
  exact (Real.cos_pos_of_mem_Ioo ⟨by linarith [hx.1], by linarith [hx.2]⟩).ne'
end Intervals.Props
