import Verif.Model.RealLibm
import Verif.Lemmas.Exact
import Verif.Spec.Real
/-!
# C40: atan2 of intervals
-/
set_option linter.unusedSectionVars false
namespace Intervals.Props
open Intervals CppVal Spec Fl

/-! ## The angle as a function of two real variables -/
/-- the angle of the point `(x, y)` -/
noncomputable def angle (y x : ℝ) : ℝ := Complex.arg ⟨x, y⟩

theorem angle_pos {y x : ℝ} (h : 0 < y) : angle y x = Real.pi/2 - Real.arctan (x/y) := by
  set t := x/y with ht
  have hs : 0 < √(1 + t^2) := Real.sqrt_pos.mpr (by positivity)
  have h1 := Real.neg_pi_div_two_lt_arctan t
  have h2 := Real.arctan_lt_pi_div_two t
  have e := Complex.arg_mul_cos_add_sin_mul_I (r := y * √(1 + t^2)) (θ := Real.pi/2 - Real.arctan t) (mul_pos h hs)
    ⟨by linarith [Real.pi_pos], by linarith [Real.pi_pos]⟩
  rw [← e]
  unfold angle
  congr 1
  rw [← Complex.ofReal_cos, ← Complex.ofReal_sin, Real.cos_pi_div_two_sub, Real.sin_pi_div_two_sub, Real.sin_arctan, Real.cos_arctan]
  apply Complex.ext
  · simp [-Complex.ofReal_cos, -Complex.ofReal_sin, -Complex.ofReal_div]
    rw [ht]; field_simp
  · simp [-Complex.ofReal_cos, -Complex.ofReal_sin, -Complex.ofReal_div]
    field_simp

theorem angle_neg {y x : ℝ} (h : y < 0) : angle y x = -angle (-y) x := by
  unfold angle
  rw [Complex.arg_of_im_neg (by exact h), Complex.arg_of_im_pos (by simpa using h)]
  congr 3
  simp [Complex.norm_def, Complex.normSq]

theorem angle_zero {x : ℝ} (h : 0 < x) : angle 0 x = 0 := by
  unfold angle
  have : (⟨x, 0⟩ : ℂ) = (x : ℂ) := rfl
  rw [this, Complex.arg_ofReal_of_nonneg h.le]

theorem angle_pos_lt {y x : ℝ} (h : 0 < y) : 0 < angle y x ∧ angle y x < Real.pi := by
  rw [angle_pos h]
  have h1 := Real.neg_pi_div_two_lt_arctan (x/y)
  have h2 := Real.arctan_lt_pi_div_two (x/y)
  constructor <;> linarith

/-- antitone in `x` above the axis -/
theorem angle_anti_x {y x x' : ℝ} (h : 0 < y) (hx : x ≤ x') : angle y x' ≤ angle y x := by
  rw [angle_pos h, angle_pos h]
  have := Real.arctan_strictMono.monotone (div_le_div_of_nonneg_right hx h.le)
  linarith
theorem angle_mono_x {y x x' : ℝ} (h : y < 0) (hx : x ≤ x') : angle y x ≤ angle y x' := by
  rw [angle_neg h, angle_neg h]
  exact neg_le_neg (angle_anti_x (by linarith) hx)
/-- above the axis: monotone in `y` to the right, antitone to the left -/
theorem angle_mono_y {y y' x : ℝ} (h : 0 < y) (hy : y ≤ y') (hx : 0 ≤ x) : angle y x ≤ angle y' x := by
  rw [angle_pos h, angle_pos (h.trans_le hy)]
  have := Real.arctan_strictMono.monotone (div_le_div_of_nonneg_left hx h hy)
  linarith
theorem angle_anti_y {y y' x : ℝ} (h : 0 < y) (hy : y ≤ y') (hx : x ≤ 0) : angle y' x ≤ angle y x := by
  rw [angle_pos h, angle_pos (h.trans_le hy)]
  have h1 := div_le_div_of_nonneg_left (neg_nonneg.mpr hx) h hy
  have : x/y ≤ x/y' := by rw [neg_div, neg_div] at h1; linarith
  have := Real.arctan_strictMono.monotone this
  linarith
theorem angle_mono_y_neg {y y' x : ℝ} (h : y' < 0) (hy : y ≤ y') (hx : 0 ≤ x) : angle y x ≤ angle y' x := by
  rw [angle_neg h, angle_neg (hy.trans_lt h)]
  exact neg_le_neg (angle_mono_y (by linarith) (by linarith) hx)
theorem angle_anti_y_neg {y y' x : ℝ} (h : y' < 0) (hy : y ≤ y') (hx : x ≤ 0) : angle y' x ≤ angle y x := by
  rw [angle_neg h, angle_neg (hy.trans_lt h)]
  exact neg_le_neg (angle_anti_y (by linarith) (by linarith) hx)
theorem angle_sign {y x : ℝ} (hx : 0 < x) : (0 ≤ y → 0 ≤ angle y x) ∧ (y ≤ 0 → angle y x ≤ 0) := by
  constructor
  · intro h
    rcases h.eq_or_lt with rfl | h
    · rw [angle_zero hx]
    · exact (angle_pos_lt h).1.le
  · intro h
    rcases h.eq_or_lt with rfl | h
    · rw [angle_zero hx]
    · rw [angle_neg h]; linarith [(angle_pos_lt (x := x) (neg_pos.mpr h)).1]
theorem angle_mono_right {y y' x : ℝ} (hy : y ≤ y') (hx : 0 < x) : angle y x ≤ angle y' x := by
  rcases lt_or_ge 0 y with h | h
  · exact angle_mono_y h hy hx.le
  · rcases lt_or_ge y' 0 with h' | h'
    · exact angle_mono_y_neg h' hy hx.le
    · exact ((angle_sign hx).2 h).trans ((angle_sign hx).1 h')

/-! ## With infinities -/
/-- the angle in the closed plane, with the conventions of C17 F.10.1.4 -/
noncomputable def angleE : Fl ℝ → Fl ℝ → ℝ
  | .pinf, .pinf => Real.pi/4
  | .pinf, .ninf => 3 * Real.pi/4
  | .pinf, _ => Real.pi/2
  | .ninf, .pinf => -(Real.pi/4)
  | .ninf, .ninf => -(3 * Real.pi/4)
  | .ninf, _ => -(Real.pi/2)
  | _, .pinf => 0
  | y, .ninf => if lt y (.num 0) then -Real.pi else Real.pi
  | y, x => angle y.val x.val

/-- off the branch cut -/
def OffCut (y x : Fl ℝ) : Prop := y ≠ .nan ∧ x ≠ .nan ∧ (ne y (.num 0) = true ∨ lt (.num 0) x = true)

theorem lt_num_num {a b : ℝ} : lt (Fl.num a) (.num b) = true ↔ a < b := (Is.num a).lt_iff (Is.num b)
theorem ne_num_zero {a : ℝ} : ne (Fl.num a) (.num 0) = true ↔ a ≠ 0 := by
  unfold CppVal.ne; rw [(Is.num a).eq_eq (Is.num 0)]; simp
theorem ne_nzero_zero : ne (Fl.nzero : Fl ℝ) (.num 0) = false := by
  unfold CppVal.ne; rw [(Is.nzero (K := ℝ)).eq_eq (Is.num 0)]; simp
theorem lt_zero_nzero : lt (Fl.num (0:ℝ)) .nzero = false := by
  rw [(Is.num (0:ℝ)).lt_eq Is.nzero]; simp
theorem lt_zero_ninf : lt (Fl.num (0:ℝ)) .ninf = false := by simp [lt, ext]

theorem lt_nzero_zero : lt (Fl.nzero : Fl ℝ) (.num 0) = false := by
  rw [(Is.nzero (K := ℝ)).lt_eq (Is.num 0)]; simp
theorem lt_zero_pinf : lt (Fl.num (0:ℝ)) .pinf = true := by
  rw [CppOrder.lt_iff]; simp
theorem lt_pinf_zero : lt (Fl.pinf : Fl ℝ) (.num 0) = false := by simp [lt, ext]
theorem lt_ninf_zero : lt (Fl.ninf : Fl ℝ) (.num 0) = true := by simp [lt, ext]
theorem lt_zero_nan : lt (Fl.num (0:ℝ)) .nan = false := by simp [lt, ext]
theorem lt_nan_zero : lt (Fl.nan : Fl ℝ) (.num 0) = false := by simp [lt, ext]

theorem angleE_anti_x {y x x' : Fl ℝ} (hy : lt (.num 0) y = true) (hx : le x x' = true) : angleE y x' ≤ angleE y x := by
  have hpi := Real.pi_pos
  cases y with
  | nan => rw [lt_zero_nan] at hy; cases hy
  | ninf => rw [lt_zero_ninf] at hy; cases hy
  | nzero => rw [lt_zero_nzero] at hy; cases hy
  | pinf => cases x <;> cases x' <;> simp at hx <;> simp only [angleE] <;> linarith
  | num k =>
    rw [lt_num_num] at hy
    have hn : lt (Fl.num k) (.num 0) = false := by rw [(Is.num k).lt_eq (Is.num 0)]; simp [hy.le]
    cases x <;> cases x' <;> simp at hx <;> simp only [angleE, hn, Bool.false_eq_true, if_false, val] <;>
      first
      | linarith
      | exact (angle_pos_lt hy).2.le
      | exact (angle_pos_lt hy).1.le
      | exact angle_anti_x hy hx

theorem angleE_mono_x {y x x' : Fl ℝ} (hy : lt y (.num 0) = true) (hx : le x x' = true) : angleE y x ≤ angleE y x' := by
  have hpi := Real.pi_pos
  cases y with
  | nan => rw [lt_nan_zero] at hy; cases hy
  | pinf => rw [lt_pinf_zero] at hy; cases hy
  | nzero => rw [lt_nzero_zero] at hy; cases hy
  | ninf => cases x <;> cases x' <;> simp at hx <;> simp only [angleE] <;> linarith
  | num k =>
    have hn := hy
    rw [lt_num_num] at hy
    have b : ∀ x, -Real.pi ≤ angle k x ∧ angle k x ≤ 0 := fun x => by
      have := angle_pos_lt (x := x) (neg_pos.mpr hy)
      rw [angle_neg hy]; constructor <;> linarith
    cases x <;> cases x' <;> simp at hx <;> simp only [angleE, hn, if_true, val] <;>
      first
      | linarith
      | exact (b _).1
      | exact (b _).2
      | exact angle_mono_x hy hx

theorem angleE_zero_x {y x : Fl ℝ} (hy : eq y (.num 0) = true) (hx : lt (.num 0) x = true) : angleE y x = 0 := by
  have e : y = .num 0 ∨ y = .nzero := by
    rw [CppOrder.eq_iff] at hy
    cases y <;> simp at hy ⊢
    exact le_antisymm hy.1 hy.2
  cases x with
  | nan => rw [lt_zero_nan] at hx; cases hx
  | ninf => rw [lt_zero_ninf] at hx; cases hx
  | nzero => rw [lt_zero_nzero] at hx; cases hx
  | pinf => rcases e with rfl | rfl <;> rfl
  | num k =>
    rw [lt_num_num] at hx
    rcases e with rfl | rfl <;> exact angle_zero hx

theorem angleE_mono_y {y y' x : Fl ℝ} (hx : lt (.num 0) x = true) (hy : le y y' = true) : angleE y x ≤ angleE y' x := by
  have hpi := Real.pi_pos
  cases x with
  | nan => rw [lt_zero_nan] at hx; cases hx
  | ninf => rw [lt_zero_ninf] at hx; cases hx
  | nzero => rw [lt_zero_nzero] at hx; cases hx
  | pinf => cases y <;> cases y' <;> simp at hy <;> simp only [angleE] <;> linarith
  | num k =>
    rw [lt_num_num] at hx
    have b : ∀ y, -(Real.pi/2) ≤ angle y k ∧ angle y k ≤ Real.pi/2 := fun y => by
      unfold angle
      have : |Complex.arg ⟨k, y⟩| ≤ Real.pi/2 := Complex.abs_arg_le_pi_div_two_iff.mpr hx.le
      exact abs_le.mp this
    cases y <;> cases y' <;> simp at hy <;> simp only [angleE, val] <;>
      first
      | linarith
      | exact (b _).1
      | exact (b _).2
      | exact angle_mono_right hy hx

theorem angleE_anti_y {y y' x : Fl ℝ} (hx : le x (.num 0) = true) (hy : le y y' = true)
    (h : lt (.num 0) y = true ∨ lt y' (.num 0) = true) : angleE y' x ≤ angleE y x := by
  have hpi := Real.pi_pos
  -- bounds in the left half plane
  have b1 : ∀ {y k : ℝ}, 0 < y → k ≤ 0 → Real.pi/2 ≤ angle y k := fun {y k} hy hk => by
    rw [angle_pos hy]
    have := Real.arctan_strictMono.monotone (div_nonpos_of_nonpos_of_nonneg hk hy.le)
    rw [Real.arctan_zero] at this
    linarith
  have b2 : ∀ {y k : ℝ}, y < 0 → k ≤ 0 → angle y k ≤ -(Real.pi/2) := fun {y k} hy hk => by
    rw [angle_neg hy]; have := b1 (neg_pos.mpr hy) hk; linarith
  rcases h with h | h
  · cases y with
    | nan => rw [lt_zero_nan] at h; cases h
    | ninf => rw [lt_zero_ninf] at h; cases h
    | nzero => rw [lt_zero_nzero] at h; cases h
    | pinf => cases y' <;> simp at hy; exact le_rfl
    | num k =>
      rw [lt_num_num] at h
      have hn : ∀ k : ℝ, 0 < k → lt (Fl.num k) (.num 0) = false := fun k hk => by rw [(Is.num k).lt_eq (Is.num 0)]; simp [hk.le]
      cases y' with
      | nan => simp at hy
      | ninf => simp at hy
      | nzero => simp at hy; linarith
      | pinf =>
        cases x <;> simp at hx <;> simp only [angleE, hn k h, Bool.false_eq_true, if_false, val] <;>
          first
          | linarith
          | exact b1 h le_rfl
          | exact b1 h hx
      | num k' =>
        simp at hy
        cases x <;> simp at hx <;> simp only [angleE, hn k h, hn k' (h.trans_le hy), Bool.false_eq_true, if_false, val] <;>
          first
          | exact le_rfl
          | exact angle_anti_y h hy le_rfl
          | exact angle_anti_y h hy hx
  · cases y' with
    | nan => rw [lt_nan_zero] at h; cases h
    | pinf => rw [lt_pinf_zero] at h; cases h
    | nzero => rw [lt_nzero_zero] at h; cases h
    | ninf => cases y <;> simp at hy; exact le_rfl
    | num k' =>
      have hn' := h
      rw [lt_num_num] at h
      cases y with
      | nan => simp at hy
      | pinf => simp at hy
      | nzero => simp at hy; linarith
      | ninf =>
        cases x <;> simp at hx <;> simp only [angleE, hn', if_true, val] <;>
          first
          | linarith
          | exact b2 h le_rfl
          | exact b2 h hx
      | num k =>
        simp at hy
        have hn : lt (Fl.num k) (.num 0) = true := lt_num_num.mpr (hy.trans_lt h)
        cases x <;> simp at hx <;> simp only [angleE, hn, hn', if_true, val] <;>
          first
          | exact le_rfl
          | exact angle_anti_y_neg h hy le_rfl
          | exact angle_anti_y_neg h hy hx

section
variable [Fmt ℝ]
theorem ext_atan2 {y x : Fl ℝ} (h : OffCut y x) : ext (Libm.atan2 y x) = ext (Fmt.rnd (angleE y x)) := by
  obtain ⟨h1, h2, h3⟩ := h
  change ext (atan2R y x) = _
  have hz : Fmt.rnd (0:ℝ) = .num 0 := Fmt.rnd_zero
  cases y with
  | nan => exact absurd rfl h1
  | pinf => cases x <;> simp_all [atan2R, isNan, isInf, signBit, rndS, angleE]
  | ninf => cases x <;> simp_all [atan2R, isNan, isInf, signBit, rndS, angleE]
  | nzero =>
    cases x with
    | nan => exact absurd rfl h2
    | pinf => simp [atan2R, isNan, isInf, signBit, angleE, hz, zeroS, ext]
    | ninf => rw [ne_nzero_zero, lt_zero_ninf] at h3; simp at h3
    | nzero => rw [ne_nzero_zero, lt_zero_nzero] at h3; simp at h3
    | num k =>
      rw [ne_nzero_zero, lt_num_num] at h3
      have hk : 0 < k := by simpa using h3
      simp [atan2R, isNan, isInf, isZero, signBit, angleE, val, angle_zero hk, hz, not_lt.mpr hk.le, zeroS, ext]
  | num ky =>
    by_cases h0 : ky = 0
    · subst h0
      cases x with
      | nan => exact absurd rfl h2
      | pinf => simp [atan2R, isNan, isInf, signBit, angleE, hz, zeroS, ext]
      | ninf => rw [ne_num_zero, lt_zero_ninf] at h3; simp at h3
      | nzero => rw [ne_num_zero, lt_zero_nzero] at h3; simp at h3
      | num k =>
        rw [ne_num_zero, lt_num_num] at h3
        have hk : 0 < k := by simpa using h3
        simp [atan2R, isNan, isInf, isZero, signBit, angleE, val, angle_zero hk, hz, not_lt.mpr hk.le, zeroS, ext]
    · cases x with
      | nan => exact absurd rfl h2
      | pinf => cases hs : decide (ky < 0) <;> simp [atan2R, isNan, isInf, signBit, angleE, hz, zeroS, ext, hs]
      | ninf =>
        by_cases hs : ky < 0 <;> simp [atan2R, isNan, isInf, signBit, angleE, rndS, hs, lt_num_num]
      | nzero => simp [atan2R, isNan, isInf, isZero, h0, angleE, angle, val]
      | num k => simp [atan2R, isNan, isInf, isZero, h0, angleE, angle, val]

theorem atan2_le {y x y' x' : Fl ℝ} (h : OffCut y x) (h' : OffCut y' x') (hle : angleE y x ≤ angleE y' x') :
    le (Libm.atan2 y x) (Libm.atan2 y' x') = true := by
  rw [le_of_ext (ext_atan2 h) (ext_atan2 h')]; exact Fmt.rnd_mono _ _ hle

theorem betw_of_mono {u v w u' : Fl ℝ} (h : (le u w = true ∧ le w v = true) ∨ (le v w = true ∧ le w u = true)) (_ : u' = u) : Betw u v w := by
  unfold Betw; rcases h with h | h <;> grind

/-- some point of the operands lies on the branch cut: `y = 0`, `x <= 0` -/
def MeetsCut (Y X : Arg (Fl ℝ)) : Prop := ∃ y x, y ∈ₐ Y ∧ x ∈ₐ X ∧ eq y (.num 0) = true ∧ le x (.num 0) = true

theorem meetsCut_iff {Y X : Arg (Fl ℝ)} (hY : ProperA Y) (hX : ProperA X) :
    MeetsCut Y X ↔ (le X.lo (.num 0) && Y.contains (.num 0)) = true := by
  have hY' := proper_le hY
  have hc : Y.contains (.num 0) = true ↔ le Y.lo (.num 0) = true ∧ le (.num 0) Y.hi = true := by
    cases Y with
    | scalar v => exact CppOrder.eq_iff v (.num 0)
    | ivl x => simp only [Arg.contains, Ivl.containsVal, Bool.and_eq_true, Arg.lo, Arg.hi]
  rw [Bool.and_eq_true, hc]
  constructor
  · rintro ⟨y, x, hy, hx, h1, h2⟩
    rw [mem_bounds] at hy hx
    rw [CppOrder.eq_iff] at h1
    exact ⟨CppOrder.le_trans _ _ _ hx.1 h2, CppOrder.le_trans _ _ _ hy.1 h1.1, CppOrder.le_trans _ _ _ h1.2 hy.2⟩
  · rintro ⟨h1, h2, h3⟩
    exact ⟨.num 0, X.lo, mem_bounds.mpr ⟨h2, h3⟩, lo_mem hX, by rw [CppOrder.eq_iff]; simp, h1⟩

theorem atan2S_ok (dbg : Bool) {y x : Fl ℝ} (h : OffCut y x) : atan2S dbg y x = .ok (Libm.atan2 y x) := by
  unfold atan2S
  have : (ne y (.num 0) || gt x (.num 0)) = true := by rw [Bool.or_eq_true]; exact h.2.2
  rw [this, expectsDebug_true]; rfl

/-- C40, for the correctly rounded `atan2` of any format, and operands with any (also infinite) bounds: the result is the NaN interval iff the operands
meet the branch cut; otherwise it contains all point results, and its bounds are point results. -/
theorem C40_atan2 (dbg : Bool) (Y X : Arg (Fl ℝ)) (hY : ProperA Y) (hX : ProperA X) :
    (MeetsCut Y X → atan2I dbg Y X = .ok ⟨.nan, .nan⟩) ∧
    (¬ MeetsCut Y X → ∃ R, atan2I dbg Y X = .ok R ∧ (∀ y x, y ∈ₐ Y → x ∈ₐ X → Libm.atan2 y x ∈ᵢ R) ∧
      (∃ y x, y ∈ₐ Y ∧ x ∈ₐ X ∧ Libm.atan2 y x = R.lo) ∧ (∃ y x, y ∈ₐ Y ∧ x ∈ₐ X ∧ Libm.atan2 y x = R.hi)) := by
  constructor
  · intro h
    rw [meetsCut_iff hY hX] at h
    unfold atan2I
    rw [assigned_of_proper hY, assigned_of_proper hX, if_pos h]
    simp only [Bool.and_self, expectsDebug_true, ok_bind]
    rfl
  · intro h
    have hcut := h
    have z0 : le (Fl.num (0:ℝ)) (.num 0) = true := by simp
    rw [meetsCut_iff hY hX] at h
    have nn : ∀ {Z : Arg (Fl ℝ)} {z}, z ∈ₐ Z → z ≠ .nan := by
      rintro Z z hz rfl
      rw [mem_bounds] at hz; simp at hz
    have off : ∀ {y x}, y ∈ₐ Y → x ∈ₐ X → OffCut y x := fun {y x} hy hx => by
      refine ⟨nn hy, nn hx, ?_⟩
      by_contra hc
      push Not at hc
      obtain ⟨h1, h2⟩ := hc
      refine hcut ⟨y, x, hy, hx, by simpa [CppVal.ne] using h1, ?_⟩
      have := notNan_iff.mpr (nn hx)
      grind
    have yl := lo_mem hY; have yh := hi_mem hY; have xl := lo_mem hX; have xh := hi_mem hX
    have nnan : ∀ {y x}, y ∈ₐ Y → x ∈ₐ X → NotNan (Libm.atan2 y x) := fun hy hx => atan2_le (off hy hx) (off hy hx) le_rfl
    -- position of Y
    have hpos : lt (.num 0) X.lo = true ∨ (lt (.num 0) Y.lo = true ∨ lt Y.hi (.num 0) = true) := by
      by_contra hc
      push Not at hc
      obtain ⟨c1, c2, c3⟩ := hc
      have n1 := notNan_iff.mpr (nn xl); have n2 := notNan_iff.mpr (nn yl); have n3 := notNan_iff.mpr (nn yh)
      refine hcut ⟨.num 0, X.lo, mem_bounds.mpr ⟨?_, ?_⟩, xl, by rw [CppOrder.eq_iff]; simp, ?_⟩ <;> grind
    have betwX : ∀ y x, y ∈ₐ Y → x ∈ₐ X → Betw (Libm.atan2 y X.lo) (Libm.atan2 y X.hi) (Libm.atan2 y x) := by
      intro y x hy hx
      have hx' := mem_bounds.mp hx
      refine betw_of_mono ?_ rfl
      by_cases c1 : lt (.num 0) y = true
      · exact .inr ⟨atan2_le (off hy xh) (off hy hx) (angleE_anti_x c1 hx'.2), atan2_le (off hy hx) (off hy xl) (angleE_anti_x c1 hx'.1)⟩
      · by_cases c2 : lt y (.num 0) = true
        · exact .inl ⟨atan2_le (off hy xl) (off hy hx) (angleE_mono_x c2 hx'.1), atan2_le (off hy hx) (off hy xh) (angleE_mono_x c2 hx'.2)⟩
        · have e0 : eq y (.num 0) = true := by
            have := notNan_iff.mpr (nn hy); grind
          have z : ∀ {x}, x ∈ₐ X → angleE y x = 0 := fun {x} hx => by
            refine angleE_zero_x e0 ?_
            obtain ⟨-, -, h | h⟩ := off hy hx
            · simp [CppVal.ne, e0] at h
            · exact h
          exact .inl ⟨atan2_le (off hy xl) (off hy hx) (by rw [z xl, z hx]), atan2_le (off hy hx) (off hy xh) (by rw [z hx, z xh])⟩
    have betwY : ∀ y x, y ∈ₐ Y → x ∈ₐ X → Betw (Libm.atan2 Y.lo x) (Libm.atan2 Y.hi x) (Libm.atan2 y x) := by
      intro y x hy hx
      have hy' := mem_bounds.mp hy
      have hx' := mem_bounds.mp hx
      refine betw_of_mono ?_ rfl
      by_cases c1 : lt (.num 0) x = true
      · exact .inl ⟨atan2_le (off yl hx) (off hy hx) (angleE_mono_y c1 hy'.1), atan2_le (off hy hx) (off yh hx) (angleE_mono_y c1 hy'.2)⟩
      · have c1' : le x (.num 0) = true := by have := notNan_iff.mpr (nn hx); grind
        have hs : lt (.num 0) Y.lo = true ∨ lt Y.hi (.num 0) = true := by
          rcases hpos with hh | hh
          · exfalso; grind
          · exact hh
        have s1 : lt (.num 0) y = true ∨ lt Y.hi (.num 0) = true := by grind
        have s2 : lt (.num 0) Y.lo = true ∨ lt y (.num 0) = true := by grind
        exact .inr ⟨atan2_le (off yh hx) (off hy hx) (angleE_anti_y c1' hy'.2 s1), atan2_le (off hy hx) (off yl hx) (angleE_anti_y c1' hy'.1 s2)⟩
    have incl : ∀ {R}, HullOf (corners Libm.atan2 Y X) R → (∀ y x, y ∈ₐ Y → x ∈ₐ X → Libm.atan2 y x ∈ᵢ R) ∧
        (∃ y x, y ∈ₐ Y ∧ x ∈ₐ X ∧ Libm.atan2 y x = R.lo) ∧ (∃ y x, y ∈ₐ Y ∧ x ∈ₐ X ∧ Libm.atan2 y x = R.hi) := by
      intro R hR
      refine ⟨fun y x hy hx => corner_incl hR (betwY y x hy hx) (betwX _ x yl hx) (betwX _ x yh hx), ?_, ?_⟩
      · have := hR.1
        simp only [corners, List.mem_cons, List.not_mem_nil, or_false] at this
        rcases this with h | h | h | h
        exacts [⟨_, _, yl, xl, h.symm⟩, ⟨_, _, yl, xh, h.symm⟩, ⟨_, _, yh, xl, h.symm⟩, ⟨_, _, yh, xh, h.symm⟩]
      · have := hR.2.1
        simp only [corners, List.mem_cons, List.not_mem_nil, or_false] at this
        rcases this with h | h | h | h
        exacts [⟨_, _, yl, xl, h.symm⟩, ⟨_, _, yl, xh, h.symm⟩, ⟨_, _, yh, xl, h.symm⟩, ⟨_, _, yh, xh, h.symm⟩]
    unfold atan2I
    rw [assigned_of_proper hY, assigned_of_proper hX, if_neg h]
    simp only [Bool.and_self, expectsDebug_true, ok_bind]
    cases Y with
    | scalar s =>
      obtain ⟨R, e, hR⟩ := hull2_ok (nnan yl xl) (nnan yl xh)
      refine ⟨R, ?_, incl (hR.congr ?_)⟩
      · dsimp only
        rw [show atan2S dbg s X.lo = _ from atan2S_ok dbg (off yl xl), ok_bind, show atan2S dbg s X.hi = _ from atan2S_ok dbg (off yl xh), ok_bind]; exact e
      · intro c; simp [corners, Arg.lo, Arg.hi]; tauto
    | ivl y =>
      cases X with
      | scalar s =>
        obtain ⟨R, e, hR⟩ := hull2_ok (nnan yl xl) (nnan yh xl)
        refine ⟨R, ?_, incl (hR.congr ?_)⟩
        · dsimp only
          rw [show atan2S dbg (Arg.ivl y).lo s = _ from atan2S_ok dbg (off yl xl), ok_bind, show atan2S dbg (Arg.ivl y).hi s = _ from atan2S_ok dbg (off yh xl), ok_bind]; exact e
        · intro c; simp [corners, Arg.lo, Arg.hi]
      | ivl x =>
        obtain ⟨R, e, hR⟩ := hull4_ok (nnan yl xl) (nnan yl xh) (nnan yh xl) (nnan yh xh)
        refine ⟨R, ?_, incl hR⟩
        dsimp only
        rw [show atan2S dbg y.lo x.lo = _ from atan2S_ok dbg (off yl xl), ok_bind, show atan2S dbg y.lo x.hi = _ from atan2S_ok dbg (off yl xh), ok_bind,
          show atan2S dbg y.hi x.lo = _ from atan2S_ok dbg (off yh xl), ok_bind, show atan2S dbg y.hi x.hi = _ from atan2S_ok dbg (off yh xh), ok_bind]
        exact e
end

/-- C40 in exact real arithmetic: the exact range of the angle of the point `(x, y)`. -/
theorem C40_real (dbg : Bool) (Y X : Arg (Fl ℝ)) (hY : FiniteA Y) (hX : FiniteA X)
    (off : ∀ y x : ℝ, .num y ∈ₐ Y → .num x ∈ₐ X → y = 0 → 0 < x) :
    let := exactFmt ℝ
    ∃ R, atan2I dbg Y X = .ok R ∧ ExactRange (fun v => ∃ y x : ℝ, .num y ∈ₐ Y ∧ .num x ∈ₐ X ∧ v = Complex.arg ⟨x, y⟩) R := by
  intro _
  have fin : ∀ {Z : Arg (Fl ℝ)} {z}, FiniteA Z → z ∈ₐ Z → Is z z.val ∧ .num z.val ∈ₐ Z := by
    intro Z z hZ hz
    rw [mem_bounds] at hz
    have f := Is.of_finite (finite_of_between hZ.1 hZ.2.1 hz.1 hz.2)
    refine ⟨f, mem_bounds.mpr ⟨?_, ?_⟩⟩
    · rw [le_of_ext rfl (ext_of_finite f.1).symm]; exact hz.1
    · rw [le_of_ext (ext_of_finite f.1).symm rfl]; exact hz.2
  have hcut : ¬ MeetsCut Y X := by
    rintro ⟨y, x, hy, hx, h1, h2⟩
    obtain ⟨fy, my⟩ := fin hY hy
    obtain ⟨fx, mx⟩ := fin hX hx
    have h1' := (fy.eq_iff (Is.num 0)).mp h1
    have h2' := (fx.le_iff (Is.num 0)).mp h2
    exact absurd (off _ _ my mx h1') (not_lt.mpr h2')
  obtain ⟨R, e, hin, ⟨y1, x1, hy1, hx1, e1⟩, ⟨y2, x2, hy2, hx2, e2⟩⟩ := (C40_atan2 dbg Y X hY.2.2 hX.2.2).2 hcut
  have key : ∀ {y x}, y ∈ₐ Y → x ∈ₐ X → Is (Libm.atan2 y x) (Complex.arg ⟨x.val, y.val⟩) := by
    intro y x hy hx
    obtain ⟨fy, my⟩ := fin hY hy
    obtain ⟨fx, mx⟩ := fin hX hx
    have hoff : OffCut y x := by
      refine ⟨fy.ne_nan, fx.ne_nan, ?_⟩
      by_cases h0 : y.val = 0
      · exact .inr (((Is.num 0).lt_iff fx).mpr (off _ _ my mx h0))
      · refine .inl ?_
        unfold CppVal.ne; rw [fy.eq_eq (Is.num 0)]; simp [h0]
    rw [is_iff_ext, ext_atan2 hoff]
    obtain ⟨fy, -⟩ := fy; obtain ⟨fx, -⟩ := fx
    cases y <;> simp [isFinite] at fy <;> cases x <;> simp [isFinite] at fx <;> rfl
  refine ⟨R, e, ?_, ⟨_, ⟨_, _, (fin hY hy1).2, (fin hX hx1).2, rfl⟩, ?_⟩, ⟨_, ⟨_, _, (fin hY hy2).2, (fin hX hx2).2, rfl⟩, ?_⟩⟩
  · rintro v ⟨y, x, hy, hx, rfl⟩
    have h := hin _ _ hy hx
    have k : Is (Libm.atan2 (Fl.num y) (Fl.num x)) (Complex.arg ⟨x, y⟩) := key hy hx
    rw [is_iff_ext] at k
    refine ⟨?_, ?_⟩
    · rw [le_of_ext rfl k.symm]; exact h.1
    · rw [le_of_ext k.symm rfl]; exact h.2
  · rw [← e1]; exact ((key hy1 hx1).eq_iff (Is.num _)).mpr rfl
  · rw [← e2]; exact ((key hy2 hx2).eq_iff (Is.num _)).mpr rfl

/-! Non-trivial operands: `y ∈ [1,2]`, `x ∈ [-1,1]` (off the cut); `y ∈ [-1,1]`, `x ∈ [-1,1]` (on the cut). -/
example : FiniteA (.ivl ⟨.num (-1), .num 1⟩ : Arg (Fl ℝ)) := ⟨rfl, rfl, by simp [ProperA, Proper]⟩
example : ∀ y x : ℝ, .num y ∈ₐ (.ivl ⟨.num 1, .num 2⟩ : Arg (Fl ℝ)) → .num x ∈ₐ (.ivl ⟨.num (-1), .num 1⟩ : Arg (Fl ℝ)) → y = 0 → 0 < x := by
  rintro y x hy - rfl
  simp [PtA, Pt] at hy
  linarith
example : MeetsCut (.ivl ⟨.num (-1), .num 1⟩) (.ivl ⟨.num (-1), .num 1⟩) :=
  ⟨.num 0, .num 0, by simp [PtA, Pt], by simp [PtA, Pt], by rw [CppOrder.eq_iff]; simp, by simp⟩
end Intervals.Props
