import Verif.Props.WeightsFlt
/-!
# C77: the rounding error of `blend_linear`

`C77_error_partial` bounds the error of `blend_fractions`.  `blend_linear` first computes fractions of the weights, with quotients that may
overflow; the error of these fractions is bounded for all weights.
-/
set_option linter.unusedSectionVars false
namespace Intervals.Props
open Intervals CppVal Spec Fl

variable {K : Type} [Field K] [LinearOrder K] [IsStrictOrderedRing K]

section
variable [Fmt K]

/-- numbers up to `M` are rounded with the relative error `u` and, near zero, the absolute error `η` -/
def RelErr (M u η : K) : Prop := ∀ k : K, |k| ≤ M → ∃ v, Is (Fmt.rnd k : Fl K) v ∧ |v - k| ≤ u * |k| + η

theorem inv_one_add_diff {x w d : K} (hx : 0 ≤ x) (hw : 0 ≤ w) (h : |w - x| ≤ d * (1 + x)) : |1 / (1 + w) - 1 / (1 + x)| ≤ d := by
  have px : 0 < 1 + x := by linarith
  have pw : 0 < 1 + w := by linarith
  have eqn : 1 / (1 + w) - 1 / (1 + x) = (x - w) / (1 + x) * (1 / (1 + w)) := by field_simp; ring
  have k1 : |x - w| / (1 + x) ≤ d := by rw [div_le_iff₀ px, abs_sub_comm]; exact h
  have k0 : 0 ≤ |x - w| / (1 + x) := div_nonneg (abs_nonneg _) px.le
  have q1 : 1 / (1 + w) ≤ 1 := by rw [div_le_one pw]; linarith
  have q0 : 0 ≤ 1 / (1 + w) := by positivity
  rw [eqn, abs_mul, abs_div, abs_of_pos px, abs_of_nonneg q0]
  nlinarith

/-- the fraction `1/(1 + b/a)` is computed up to `3(u + η) + 2/M`, for all weights -/
theorem frac_err {M u η : K} (E : RelErr M u η) (u0 : 0 ≤ u) (η0 : 0 ≤ η) (M1 : 1 ≤ M) (rM : (Fmt.rnd M : Fl K) = .num M)
    (one : (Fmt.rnd (1 : K) : Fl K) = .num 1) {a b : Fl K} {k l : K} (ha : Is a k) (hb : Is b l) (hk : 0 ≤ k) (hl : 0 ≤ l)
    (h : 0 < k ∨ 0 < l) : ∃ v, Is (fracV a b) v ∧ |v - k / (k + l)| ≤ 3 * (u + η) + 2 / M := by
  have M0 : 0 < M := by linarith
  have iM : 0 < 1 / M := by positivity
  have i2 : 2 / M = 2 * (1 / M) := by ring
  obtain ⟨v, hv, v0, v1, cv⟩ := frac_cases one ha hb hk hl h
  refine ⟨v, hv, ?_⟩
  rcases hk.eq_or_lt with c | c
  · subst c
    rcases cv with rfl | ⟨c, -⟩
    · simp only [zero_div, sub_zero, abs_zero]; positivity
    · exact absurd c (lt_irrefl _)
  have fr : k / (k + l) = 1 / (1 + l / k) := by field_simp
  rw [fr]
  set x := l / k with hx
  have x0 : 0 ≤ x := div_nonneg hl c.le
  -- the last two operations
  have last : ∀ w, 0 ≤ w → Is (Fl.div b a) w → |v - 1 / (1 + w)| ≤ 2 * (u + η) + 1 / M := by
    intro w w0 hw
    rcases rnd_pinf_or (k := 1 + w) one (by linarith) with e | ⟨z, hz, z1⟩
    · have hs : Fl.add (.num 1) (Fl.div b a) = .pinf := ext_pinf ((ext_add (Is.num 1) hw).trans (by rw [e]))
      have : Is (fracV a b) (0 : K) := by unfold fracV; rw [hs]; exact div_pinf (Is.num 1).1
      obtain rfl := Is.unique hv this
      have big : M ≤ 1 + w := by
        by_contra c
        push Not at c
        obtain ⟨z, hz, -⟩ := E (1 + w) (by rw [abs_of_nonneg (by linarith)]; exact c.le)
        rw [e] at hz; exact absurd hz.1 (by simp [isFinite])
      have : 1 / (1 + w) ≤ 1 / M := one_div_le_one_div_of_le M0 big
      have : 0 ≤ 1 / (1 + w) := by positivity
      rw [abs_le]; constructor <;> linarith
    · have z0 : 0 < z := by linarith
      have hz' : Is (Fl.add (.num 1) (Fl.div b a)) z := Is.of_ext (ext_add (Is.num 1) hw) hz
      have iz1 : 1 / z ≤ 1 := (div_le_one z0).mpr z1
      have iz0 : 0 < 1 / z := by positivity
      obtain ⟨y, hy, ey⟩ := E (1 / z) (by rw [abs_of_pos iz0]; linarith)
      have : Is (fracV a b) y := Is.of_ext (ext_div (Is.num 1) hz' z0.ne') hy
      obtain rfl := Is.unique hv this
      have ey' : |v - 1 / z| ≤ u + η := by
        refine ey.trans ?_
        rw [abs_of_pos iz0]
        have := mul_le_mul_of_nonneg_left iz1 u0
        linarith
      rcases le_or_gt (1 + w) M with c | c
      · obtain ⟨z', hz'', ez⟩ := E (1 + w) (by rw [abs_of_nonneg (by linarith)]; exact c)
        obtain rfl := Is.unique hz hz''
        have d := inv_one_add_diff (x := w) (w := z - 1) (d := u + η) w0 (by linarith) (by
          rw [abs_of_nonneg (by linarith : 0 ≤ 1 + w)] at ez
          rw [show z - 1 - w = z - (1 + w) by ring]
          have := mul_le_mul_of_nonneg_left (show 1 ≤ 1 + w by linarith) η0
          linarith)
        rw [show 1 + (z - 1) = z by ring] at d
        rw [abs_le] at *
        constructor <;> linarith [ey'.1, ey'.2, d.1, d.2]
      · have zM : M ≤ z := by
          have := Fmt.rnd_mono M (1 + w) c.le
          rw [rM] at this
          exact ((Is.num M).le_iff hz).mp this
        have a1 : 1 / z ≤ 1 / M := one_div_le_one_div_of_le M0 zM
        have a2 : 1 / (1 + w) ≤ 1 / M := one_div_le_one_div_of_le M0 c.le
        have a3 : 0 ≤ 1 / (1 + w) := by positivity
        rw [abs_le] at *
        constructor <;> linarith [ey'.1, ey'.2]
  rcases rnd_pinf_or (k := x) Fmt.rnd_zero x0 with e | ⟨w, hw, w0⟩
  · have hq : Fl.div b a = .pinf := ext_pinf ((ext_div hb ha c.ne').trans (by rw [← hx, e]))
    have : Is (fracV a b) (0 : K) := by
      unfold fracV; rw [hq]
      simp [Fl.add, Fl.div, isNan, isInf, isZero, zeroS, signBit, not_lt.mpr (zero_le_one' K), Is.num]
    obtain rfl := Is.unique hv this
    have big : M ≤ x := by
      by_contra c
      push Not at c
      obtain ⟨z, hz, -⟩ := E x (by rw [abs_of_nonneg x0]; exact c.le)
      rw [e] at hz; exact absurd hz.1 (by simp [isFinite])
    have : 1 / (1 + x) ≤ 1 / M := one_div_le_one_div_of_le M0 (by linarith)
    have : 0 ≤ 1 / (1 + x) := by positivity
    rw [abs_le]; constructor <;> linarith
  · have hw' : Is (Fl.div b a) w := Is.of_ext (ext_div hb ha c.ne') hw
    have l1 := last w w0 hw'
    rcases le_or_gt x M with c | c
    · obtain ⟨w', hw'', ew⟩ := E x (by rw [abs_of_nonneg x0]; exact c)
      obtain rfl := Is.unique hw hw''
      have d := inv_one_add_diff (x := x) (w := w) (d := u + η) x0 w0 (by
        rw [abs_of_nonneg x0] at ew
        nlinarith)
      rw [abs_le] at *
      constructor <;> linarith [l1.1, l1.2, d.1, d.2]
    · have wM : M ≤ w := by
        have := Fmt.rnd_mono M x c.le
        rw [rM] at this
        exact ((Is.num M).le_iff hw).mp this
      have a2 : 1 / (1 + x) ≤ 1 / M := one_div_le_one_div_of_le M0 (by linarith)
      have a3 : 0 ≤ 1 / (1 + x) := by positivity
      have a4 : 1 / (1 + w) ≤ 1 / M := one_div_le_one_div_of_le M0 (by linarith)
      have a5 : 0 ≤ 1 / (1 + w) := by positivity
      have := last w w0 hw'
      rw [abs_le] at *
      constructor <;> linarith [l1.1, l1.2]

theorem point_is {Z : Arg (Fl K)} {z : Fl K} {k l : K} (h : IsA Z k l) (hz : z ∈ₐ Z) : ∃ v, Is z v ∧ k ≤ v ∧ v ≤ l := by
  rw [mem_bounds] at hz
  have f := Is.of_finite (finite_of_between h.1.1 h.2.1 hz.1 hz.2)
  exact ⟨_, f, (h.1.le_iff f).mp hz.1, (f.le_iff h.2).mp hz.2⟩

/-- the scalar `blend_linear` is accurate up to `3e + 2N(2u + e₁)` -/
theorem linearS_err {N S e e₁ u : K} (E : AbsErr (2 * N) e) (E₁ : AbsErr (1 : K) e₁) (Es : SumErr S u) (hu : u ≤ 1/2)
    (one : (Fmt.rnd (1 : K) : Fl K) = .num 1) (dbg : Bool) {a b x y : Fl K} {k l c d : K} (ra : Representable a) (rb : Representable b)
    (rx : Representable x) (ry : Representable y) (ha : Is a k) (hb : Is b l) (hx : Is x c) (hy : Is y d) (hk : 0 ≤ k) (hl : 0 ≤ l)
    (h : 0 < k ∨ 0 < l) (hS : k + l ≤ S) (hc : |c| ≤ N) (hd : |d| ≤ N) :
    ∃ r v, blendLinearS dbg a b x y = .ok r ∧ Is r v ∧ |v - (k * c + l * d) / (k + l)| ≤ 3 * e + 2 * N * (2 * u + e₁) := by
  have pos : 0 < k + l := by rcases h with c | c <;> linarith
  obtain ⟨⟨w, hw, ew⟩, ⟨z, hz, ez⟩⟩ := weight_err Es hu E₁ ra rb ha hb hk hl h hS
  obtain ⟨⟨w', hw', w0, w1⟩, ⟨z', hz', z0, z1⟩⟩ := weight_range one ra rb ha hb hk hl h
  obtain rfl := Is.unique hw hw'
  obtain rfl := Is.unique hz hz'
  have xr := rnd_rep rx hx; have yr := rnd_rep ry hy
  obtain ⟨p, hp, bp⟩ := prod_is hw hx w0 w1 xr xr le_rfl le_rfl
  obtain ⟨q, hq, bq⟩ := prod_is hz hy z0 z1 yr yr le_rfl le_rfl
  rw [abs_le] at hc hd
  have N0 : 0 ≤ N := by linarith [hc.1, hc.2]
  have p1 : -N ≤ p := (le_min (by linarith) hc.1).trans bp.1
  have p2 : p ≤ N := bp.2.trans (max_le N0 hc.2)
  have q1 : -N ≤ q := (le_min (by linarith) hd.1).trans bq.1
  have q2 : q ≤ N := bq.2.trans (max_le N0 hd.2)
  obtain ⟨p', hp', ep⟩ := E (w * c) (abs_le.mpr ⟨by nlinarith, by nlinarith⟩)
  obtain ⟨q', hq', eq'⟩ := E (z * d) (abs_le.mpr ⟨by nlinarith, by nlinarith⟩)
  obtain rfl := Is.unique hp (Is.of_ext (ext_mul hw hx) hp')
  obtain rfl := Is.unique hq (Is.of_ext (ext_mul hz hy) hq')
  obtain ⟨v, hv, ev⟩ := E (p + q) (abs_le.mpr ⟨by linarith, by linarith⟩)
  refine ⟨_, v, ?_, Is.of_ext (ext_add hp hq) hv, ?_⟩
  · unfold blendLinearS
    rw [fractionalWeightsS_ok dbg ra rb ha hb hk hl h]; rfl
  · have t0 : 0 ≤ 2 * u + e₁ := (abs_nonneg _).trans ew
    have split : (k * c + l * d) / (k + l) = k / (k + l) * c + l / (k + l) * d := by field_simp
    have m1 : |(w - k / (k + l)) * c| ≤ (2 * u + e₁) * N := by
      rw [abs_mul]; exact mul_le_mul ew (abs_le.mpr hc) (abs_nonneg _) t0
    have m2 : |(z - l / (k + l)) * d| ≤ (2 * u + e₁) * N := by
      rw [abs_mul]; exact mul_le_mul ez (abs_le.mpr hd) (abs_nonneg _) t0
    rw [split]
    rw [abs_le] at *
    constructor <;> linarith [ev.1, ev.2, ep.1, ep.2, eq'.1, eq'.2, m1.1, m1.2, m2.1, m2.2]

/-- C77, blend_linear: on operands `x`, `y` of magnitude at most `N`, for all finite weights, the result contains the real blend of any real points
up to `t = 3e + e₁N + 2N(3(u + η) + 2/M)`, and the scalar result for numbers of the format, if the sum of the weights does not overflow, up to
`t + 3e + 2N(2u + e₁)`.  (Missing: containment without this tolerance.) -/
theorem C77_linear_error_partial {N e e₁ M u η : K} (E : AbsErr (2 * N) e) (E₁ : AbsErr (1 : K) e₁) (Er : RelErr M u η) (Es : SumErr M u)
    (u0 : 0 ≤ u) (hu : u ≤ 1/2) (η0 : 0 ≤ η) (M1 : 1 ≤ M) (rM : (Fmt.rnd M : Fl K) = .num M)
    (one : (Fmt.rnd (1 : K) : Fl K) = .num 1) (dbg : Bool) (A B X Y : Arg (Fl K)) (hA : FiniteA A) (hB : FiniteA B)
    (hX : FiniteA X) (hY : FiniteA Y) (rA : RepA A) (rB : RepA B) (rX : RepA X) (rY : RepA Y) (h0 : le (.num 0) A.lo = true)
    (h1 : le (.num 0) B.lo = true) (h : lt (.num 0) A.lo = true ∨ lt (.num 0) B.lo = true)
    (bX : ∀ x : K, .num x ∈ₐ X → |x| ≤ N) (bY : ∀ y : K, .num y ∈ₐ Y → |y| ≤ N) :
    ∃ R m n, blendLinearI dbg A B X Y = .ok R ∧ Is R.lo m ∧ Is R.hi n ∧
      (∀ a b x y : K, .num a ∈ₐ A → .num b ∈ₐ B → .num x ∈ₐ X → .num y ∈ₐ Y →
        m - (3 * e + e₁ * N + 2 * N * (3 * (u + η) + 2 / M)) ≤ (a * x + b * y) / (a + b) ∧
        (a * x + b * y) / (a + b) ≤ n + (3 * e + e₁ * N + 2 * N * (3 * (u + η) + 2 / M))) ∧
      (∀ a b x y : Fl K, Representable a → Representable b → Representable x → Representable y →
        a ∈ₐ A → b ∈ₐ B → x ∈ₐ X → y ∈ₐ Y → a.val + b.val ≤ M → ∃ r v, blendLinearS dbg a b x y = .ok r ∧ Is r v ∧
          m - (3 * e + e₁ * N + 2 * N * (3 * (u + η) + 2 / M) + (3 * e + 2 * N * (2 * u + e₁))) ≤ v ∧
          v ≤ n + (3 * e + e₁ * N + 2 * N * (3 * (u + η) + 2 / M) + (3 * e + 2 * N * (2 * u + e₁)))) := by
  have iA := isA_of_finite hA; have iB := isA_of_finite hB; have iX := isA_of_finite hX; have iY := isA_of_finite hY
  have a0 : 0 ≤ A.lo.val := ((Is.num 0).le_iff iA.1).mp h0
  have b0 : 0 ≤ B.lo.val := ((Is.num 0).le_iff iB.1).mp h1
  have lA := iA.le hA.2.2; have lB := iB.le hB.2.2
  have hp : 0 < A.lo.val ∨ 0 < B.lo.val := h.imp ((Is.num 0).lt_iff iA.1).mp ((Is.num 0).lt_iff iB.1).mp
  have hp1 : 0 < A.lo.val ∨ 0 < B.hi.val := hp.imp id (fun c => c.trans_le lB)
  have hp2 : 0 < A.hi.val ∨ 0 < B.lo.val := hp.imp (fun c => c.trans_le lA) id
  obtain ⟨hQ, q0, q1, eI⟩ := blendLinearI_eq one dbg A B X Y hA hB hX hY rA rB h0 h1 h
  obtain ⟨R, m, n, eR, hm, hn, hR⟩ := C77_error_partial E E₁ one dbg (.ivl ⟨fracV A.lo B.hi, fracV A.hi B.lo⟩) X Y hQ hX hY rX rY q0 q1 bX bY
  obtain ⟨p, hpI, ep⟩ := frac_err Er u0 η0 M1 rM one iA.1 iB.2 a0 (b0.trans lB) hp1
  obtain ⟨q, hqI, eq'⟩ := frac_err Er u0 η0 M1 rM one iA.2 iB.1 (a0.trans lA) b0 hp2
  set t := 3 * (u + η) + 2 / M with ht
  have t0 : 0 ≤ t := (abs_nonneg _).trans ep
  have pq : p ≤ q := (hpI.le_iff hqI).mp hQ.2.2
  rw [abs_le] at ep eq'
  have s1 : 0 < A.lo.val + B.hi.val := by rcases hp1 with c | c <;> linarith
  have s2 : 0 < A.hi.val + B.lo.val := by rcases hp2 with c | c <;> linarith
  have real : ∀ a b x y : K, .num a ∈ₐ A → .num b ∈ₐ B → .num x ∈ₐ X → .num y ∈ₐ Y →
      m - (3 * e + e₁ * N + 2 * N * t) ≤ (a * x + b * y) / (a + b) ∧
      (a * x + b * y) / (a + b) ≤ n + (3 * e + e₁ * N + 2 * N * t) := by
    intro a b x y ha hb hx hy
    have bx := bX x hx; have bY' := bY y hy
    rw [iA.mem_num] at ha; rw [iB.mem_num] at hb
    have s : 0 < a + b := by rcases hp with c | c <;> linarith
    have f1 : A.lo.val / (A.lo.val + B.hi.val) ≤ a / (a + b) := weight_mono a0 ha.1 (b0.trans hb.1) hb.2 s1 s
    have f2 : a / (a + b) ≤ A.hi.val / (A.hi.val + B.lo.val) := weight_mono (a0.trans ha.1) ha.2 b0 hb.1 s s2
    have eqn : (a * x + b * y) / (a + b) = a / (a + b) * x + (1 - a / (a + b)) * y := by field_simp; ring
    rw [eqn]
    set f := a / (a + b)
    -- the nearest computed fraction
    obtain ⟨g, g1, g2, g3⟩ : ∃ g, p ≤ g ∧ g ≤ q ∧ |g - f| ≤ t := by
      rcases le_or_gt f p with c | c
      · exact ⟨p, le_rfl, pq, abs_le.mpr ⟨by linarith, by linarith⟩⟩
      · rcases le_or_gt f q with d | d
        · exact ⟨f, c.le, d, by rw [sub_self, abs_zero]; exact t0⟩
        · exact ⟨q, pq, le_rfl, abs_le.mpr ⟨by linarith, by linarith⟩⟩
    have hg : .num g ∈ₐ (.ivl ⟨fracV A.lo B.hi, fracV A.hi B.lo⟩ : Arg (Fl K)) := by
      have : IsA (.ivl ⟨fracV A.lo B.hi, fracV A.hi B.lo⟩ : Arg (Fl K)) p q := ⟨hpI, hqI⟩
      exact this.mem_num.mpr ⟨g1, g2⟩
    have k := (hR g x y hg hx hy).1
    have xy : |x - y| ≤ 2 * N := by rw [abs_le] at *; constructor <;> linarith [bx.1, bx.2, bY'.1, bY'.2]
    have d : |(g - f) * (x - y)| ≤ t * (2 * N) := by rw [abs_mul]; exact mul_le_mul g3 xy (abs_nonneg _) t0
    rw [abs_le] at d
    constructor <;> nlinarith [k.1, k.2, d.1, d.2]
  refine ⟨R, m, n, eI.trans eR, hm, hn, real, ?_⟩
  intro a b x y ra rb rx ry ha hb hx hy hS
  obtain ⟨k, hk, k1, k2⟩ := point_is iA ha
  obtain ⟨l, hl, l1, l2⟩ := point_is iB hb
  obtain ⟨c, hc, c1, c2⟩ := point_is iX hx
  obtain ⟨d, hd, d1, d2⟩ := point_is iY hy
  rw [hk.2, hl.2] at hS
  have mc : .num c ∈ₐ X := iX.mem_num.mpr ⟨c1, c2⟩
  have md : .num d ∈ₐ Y := iY.mem_num.mpr ⟨d1, d2⟩
  obtain ⟨r, v, er, hv, ev⟩ := linearS_err E E₁ Es hu one dbg ra rb rx ry hk hl hc hd (a0.trans k1) (b0.trans l1)
    (hp.imp (fun c => c.trans_le k1) (fun c => c.trans_le l1)) hS (bX c mc) (bY d md)
  have rr := real k l c d (iA.mem_num.mpr ⟨k1, k2⟩) (iB.mem_num.mpr ⟨l1, l2⟩) mc md
  rw [abs_le] at ev
  exact ⟨r, v, er, hv, by linarith [rr.1, ev.1], by linarith [rr.2, ev.2]⟩
end

/-- binary formats: relative error `2^-p`, near zero half the least number -/
theorem relErr_bin {p emin : ℤ} {Ω : ℚ} (hp : 1 ≤ p) (hΩ : 0 ≤ Ω) (n : ℤ) (hn : (2:ℚ)^n ≤ Ω) (he : emin ≤ n - p) :
    let := binFmt p emin Ω hp hΩ
    RelErr ((2:ℚ)^n) (2^(-p)) (2^emin / 2) := by
  intro _ k hk
  obtain ⟨h1, h2, -⟩ := rndBin_near hp n hn he hk
  refine ⟨_, ⟨h1, h2⟩, ?_⟩
  rcases eq_or_ne k 0 with rfl | z
  · rw [rndU_zero, sub_zero, abs_zero, mul_zero, zero_add]; exact (half_pos (zpow_pos (by norm_num) _)).le
  have pos : 0 < |k| := abs_pos.mpr z
  have up : (0:ℚ) < 2 ^ ulpExp p emin k := zpow_pos (by norm_num) _
  obtain ⟨q1, q2⟩ := roundNE_near (k / 2 ^ ulpExp p emin k)
  have ek : k / 2 ^ ulpExp p emin k * 2 ^ ulpExp p emin k = k := by field_simp
  have m1 := mul_le_mul_of_nonneg_right q1 up.le
  have m2 := mul_le_mul_of_nonneg_right q2 up.le
  have lg : (2:ℚ) ^ Int.log 2 |k| ≤ |k| := by exact_mod_cast Int.zpow_log_le_self (b := 2) (by norm_num) pos
  have mlg := mul_le_mul_of_nonneg_left lg (zpow_pos (by norm_num : (0:ℚ) < 2) (-p)).le
  have e0 : (0:ℚ) < 2 ^ emin := zpow_pos (by norm_num) _
  have half : (2:ℚ) ^ ulpExp p emin k / 2 ≤ 2 ^ (-p) * |k| + 2 ^ emin / 2 := by
    rcases max_cases (Int.log 2 |k| - (p - 1)) emin with ⟨c, -⟩ | ⟨c, -⟩
    · have ul : (2:ℚ) ^ ulpExp p emin k = 2 * (2 ^ (-p) * 2 ^ Int.log 2 |k|) := by
        rw [ulpExp, c, ← zpow_add₀ (by norm_num), ← zpow_one_add₀ (by norm_num)]; congr 1; ring
      linarith
    · rw [ulpExp, c]
      have : 0 ≤ 2 ^ (-p) * |k| := mul_nonneg (zpow_pos (by norm_num) _).le pos.le
      linarith
  rw [abs_le]
  unfold rndU
  constructor <;> nlinarith

/-- C77 for `double`: on operands of magnitude at most `2^n`, for all finite weights, blend_linear contains the real blend of any points up to
`5·2^(n-52)`, and the scalar result up to `9·2^(n-52)` if the sum of the weights does not overflow. -/
theorem C77_linear_double_partial (n : ℤ) (h1 : -1022 ≤ n) (h2 : n ≤ 1022) (dbg : Bool) (A B X Y : Arg (Fl ℚ)) (hA : FiniteA A) (hB : FiniteA B)
    (hX : FiniteA X) (hY : FiniteA Y) (rA : let := binary64Fmt; RepA A) (rB : let := binary64Fmt; RepA B) (rX : let := binary64Fmt; RepA X)
    (rY : let := binary64Fmt; RepA Y) (a0 : le (.num 0) A.lo = true) (b0 : le (.num 0) B.lo = true)
    (h : lt (.num 0) A.lo = true ∨ lt (.num 0) B.lo = true) (bX : ∀ x : ℚ, .num x ∈ₐ X → |x| ≤ 2^n) (bY : ∀ y : ℚ, .num y ∈ₐ Y → |y| ≤ 2^n) :
    let := binary64Fmt
    ∃ R m N, blendLinearI dbg A B X Y = .ok R ∧ Is R.lo m ∧ Is R.hi N ∧
      (∀ a b x y : ℚ, .num a ∈ₐ A → .num b ∈ₐ B → .num x ∈ₐ X → .num y ∈ₐ Y →
        m - 5 * 2^(n - 52) ≤ (a * x + b * y) / (a + b) ∧ (a * x + b * y) / (a + b) ≤ N + 5 * 2^(n - 52)) ∧
      (∀ a b x y : Fl ℚ, Representable a → Representable b → Representable x → Representable y →
        a ∈ₐ A → b ∈ₐ B → x ∈ₐ X → y ∈ₐ Y → a.val + b.val ≤ 2^1023 → ∃ r v, blendLinearS dbg a b x y = .ok r ∧ Is r v ∧
          m - 9 * 2^(n - 52) ≤ v ∧ v ≤ N + 9 * 2^(n - 52)) := by
  intro _
  have E := absErr_bin (p := 53) (emin := -1074) (Ω := (2^53 - 1) * 2^971) (by norm_num) (by norm_num) (n + 1) (two_zpow_le_max (by omega)) (by omega)
  have E₁ := absErr_bin (p := 53) (emin := -1074) (Ω := (2^53 - 1) * 2^971) (by norm_num) (by norm_num) 0 (two_zpow_le_max (by omega)) (by norm_num)
  have Es := sumErr_bin (p := 53) (emin := -1074) (Ω := (2^53 - 1) * 2^971) (by norm_num) (by norm_num) 1023 (two_zpow_le_max (by omega)) (by omega)
  have Er := relErr_bin (p := 53) (emin := -1074) (Ω := (2^53 - 1) * 2^971) (by norm_num) (by norm_num) 1023 (two_zpow_le_max (by omega)) (by omega)
  rw [show (2:ℚ)^(n + 1) = 2 * 2^n by rw [zpow_add₀ (by norm_num), zpow_one, mul_comm]] at E
  rw [zpow_zero] at E₁
  have pn : (0:ℚ) < 2^(n - 52) := zpow_pos (by norm_num) _
  have n2 : (2:ℚ)^n = 2^52 * 2^(n - 52) := by
    rw [show (2:ℚ)^52 = 2^(52:ℤ) by norm_cast, ← zpow_add₀ (by norm_num)]; congr 1; ring
  have e53 : (2:ℚ)^(n + 1 - 53) = 2^(n - 52) := by congr 1; ring
  have small : 3 * ((2:ℚ)^(-1074:ℤ) / 2) + 2 / 2^(1023:ℤ) ≤ 1 / 2^57 := by
    have a : (2:ℚ)^(-1074:ℤ) ≤ 2^(-60:ℤ) := zpow_le_zpow_right₀ (by norm_num) (by norm_num)
    have b : (2:ℚ)^(60:ℤ) ≤ 2^(1023:ℤ) := zpow_le_zpow_right₀ (by norm_num) (by norm_num)
    have c : 2 / (2:ℚ)^(1023:ℤ) ≤ 2 / 2^(60:ℤ) := div_le_div_of_nonneg_left (by norm_num) (zpow_pos (by norm_num) _) b
    have d : 3 * ((2:ℚ)^(-60:ℤ) / 2) + 2 / 2^(60:ℤ) ≤ 1 / 2^57 := by norm_num
    refine le_trans (add_le_add (mul_le_mul_of_nonneg_left (div_le_div_of_nonneg_right a (by norm_num)) (by norm_num)) c) d
  obtain ⟨R, m, N, eR, hm, hN, hr, hs⟩ := C77_linear_error_partial E E₁ Er Es (zpow_pos (by norm_num) _).le (by norm_num)
    (half_pos (zpow_pos (by norm_num) _)).le (one_le_zpow₀ (by norm_num) (by norm_num)) (by decide +kernel) (by decide +kernel)
    dbg A B X Y hA hB hX hY rA rB rX rY a0 b0 h bX bY
  have tol : 3 * ((2:ℚ)^(n + 1 - 53) / 2) + 2^((0:ℤ) - 53) / 2 * 2^n + 2 * 2^n * (3 * (2^(-53:ℤ) + 2^(-1074:ℤ) / 2) + 2 / 2^(1023:ℤ)) ≤ 5 * 2^(n - 52) := by
    rw [e53, n2]
    have k : 3 * ((2:ℚ)^(-53:ℤ) + 2^(-1074:ℤ) / 2) + 2 / 2^(1023:ℤ) ≤ 3 / 2^53 + 1 / 2^57 := by
      have : (2:ℚ)^(-53:ℤ) = 1 / 2^53 := by norm_num
      rw [this]; linarith
    have := mul_le_mul_of_nonneg_left k (show (0:ℚ) ≤ 2 * (2^52 * 2^(n - 52)) by positivity)
    refine (add_le_add le_rfl this).trans ?_
    norm_num
    linarith
  have tol2 : 3 * ((2:ℚ)^(n + 1 - 53) / 2) + 2 * 2^n * (2 * 2^(-53:ℤ) + 2^((0:ℤ) - 53) / 2) ≤ 4 * 2^(n - 52) := by
    rw [e53, n2]
    norm_num
    linarith
  refine ⟨R, m, N, eR, hm, hN, ?_, ?_⟩
  · intro a b x y ha hb hx hy
    have := hr a b x y ha hb hx hy
    exact ⟨by linarith [this.1], by linarith [this.2]⟩
  · intro a b x y ra rb rx ry ha hb hx hy hS
    obtain ⟨r, v, er, hv, v1, v2⟩ := hs a b x y ra rb rx ry ha hb hx hy (by exact_mod_cast hS)
    exact ⟨r, v, er, hv, by linarith, by linarith⟩

/-! Non-trivial operands in `double`: the weights `a ∈ [1, 3]` and `b ∈ [0, 2^1000]`, whose quotients are not exact, `x ∈ [-1, 1]` and `y = 3`. -/
example : let := binary64Fmt
    FiniteA (.ivl ⟨.num 1, .num 3⟩ : Arg (Fl ℚ)) ∧ RepA (.ivl ⟨.num 1, .num 3⟩ : Arg (Fl ℚ)) ∧
    FiniteA (.ivl ⟨.num 0, .num (2^1000)⟩ : Arg (Fl ℚ)) ∧ RepA (.ivl ⟨.num 0, .num (2^1000)⟩ : Arg (Fl ℚ)) ∧
    FiniteA (.ivl ⟨.num (-1), .num 1⟩ : Arg (Fl ℚ)) ∧ RepA (.ivl ⟨.num (-1), .num 1⟩ : Arg (Fl ℚ)) ∧
    (∀ x : ℚ, .num x ∈ₐ (.ivl ⟨.num (-1), .num 1⟩ : Arg (Fl ℚ)) → |x| ≤ 2^(2:ℤ)) ∧
    blendLinearI true (.ivl ⟨.num 1, .num 3⟩) (.ivl ⟨.num 0, .num (2^1000)⟩) (.ivl ⟨.num (-1), .num 1⟩) (.scalar (.num (3:ℚ))) =
      .ok ⟨.num (-1), .num 3⟩ := by
  refine ⟨⟨rfl, rfl, by decide +kernel⟩, ⟨by decide +kernel, by decide +kernel⟩, ⟨rfl, rfl, by decide +kernel⟩,
    ⟨by decide +kernel, by decide +kernel⟩, ⟨rfl, rfl, by decide +kernel⟩, ⟨by decide +kernel, by decide +kernel⟩, ?_, by decide +kernel⟩
  intro x hx
  have h : IsA (.ivl ⟨.num (-1), .num 1⟩ : Arg (Fl ℚ)) (-1) 1 := ⟨Is.num _, Is.num _⟩
  have := h.mem_num.mp hx
  rw [abs_le]; constructor <;> norm_num <;> linarith
end Intervals.Props
