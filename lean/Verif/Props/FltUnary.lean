import Verif.Props.FltArith
import Verif.Lemmas.Accum
/-!
# C33: floating-point square, cube, abs, sgn and products with signs
-/
set_option linter.unusedSectionVars false
set_option linter.unusedSimpArgs false
namespace Intervals.Props
open Intervals CppVal Spec CppNum

variable {K : Type} [Field K] [LinearOrder K] [IsStrictOrderedRing K] [Fmt K]

theorem sq_ne_nan {a : Fl K} (h : a ≠ .nan) : Fl.mul a a ≠ .nan := by
  intro h'
  rw [Fl.mul_eq_nan h h] at h'
  cases a <;> simp_all [Fl.isInf, Fl.isZero]

theorem le_tot {a b : Fl K} (ha : a ≠ .nan) (hb : b ≠ .nan) : le a b = true ∨ le b a = true :=
  CppOrder.le_total _ _ (Fl.notNan_iff.mpr ha) (Fl.notNan_iff.mpr hb)

theorem mul_pos' {a b : Fl K} (ha : le (.num 0) a = true) (hb : le (.num 0) b = true) (h : Fl.mul a b ≠ .nan) :
    le (.num 0) (Fl.mul a b) = true := by
  cases a <;> cases b <;> simp_all [Fl.mul, Fl.isNan, Fl.isInf, Fl.isZero, Fl.signBit, Fl.val, Fl.infS, Fl.zeroS]
  all_goals (repeat' split) <;> simp_all
  all_goals first
    | (exfalso; order)
    | exact Fl.zero_le_rnd (by nlinarith)
theorem mul_neg' {a b : Fl K} (ha : le (.num 0) a = true) (hb : le b (.num 0) = true) (h : Fl.mul a b ≠ .nan) :
    le (Fl.mul a b) (.num 0) = true := by
  cases a <;> cases b <;> simp_all [Fl.mul, Fl.isNan, Fl.isInf, Fl.isZero, Fl.signBit, Fl.val, Fl.infS, Fl.zeroS]
  all_goals (repeat' split) <;> simp_all
  all_goals first
    | (exfalso; order)
    | exact Fl.rnd_le_zero (by nlinarith)

theorem sq_nonneg' {a : Fl K} (h : a ≠ .nan) : le (.num 0) (Fl.mul a a) = true := by
  cases a <;> simp_all [Fl.mul, Fl.isNan, Fl.isInf, Fl.isZero, Fl.signBit, Fl.val, Fl.infS, Fl.zeroS]
  split
  · simp
  · exact Fl.zero_le_rnd (mul_self_nonneg _)
theorem sq_mono {a b : Fl K} (h0 : le (.num 0) a = true) (h : le a b = true) : le (Fl.mul a a) (Fl.mul b b) = true := by
  have ha := Fl.ne_nan_of_le_left h; have hb := Fl.ne_nan_of_le_right h
  by_cases hn : Fl.mul a b = .nan
  · rw [Fl.mul_eq_nan ha hb] at hn
    cases a <;> cases b <;> simp_all [Fl.mul, Fl.isNan, Fl.isInf, Fl.isZero, Fl.signBit, Fl.val, Fl.infS, Fl.zeroS]
  · refine CppOrder.le_trans _ (Fl.mul a b) _ ?_ (Fl.mul_mono (CppOrder.le_trans _ _ _ h0 h) h hn (sq_ne_nan hb))
    rw [Fl.mul_comm' a b]
    exact Fl.mul_mono h0 h (sq_ne_nan ha) (by rw [Fl.mul_comm']; exact hn)
theorem sq_anti {a b : Fl K} (h0 : le b (.num 0) = true) (h : le a b = true) : le (Fl.mul b b) (Fl.mul a a) = true := by
  have ha := Fl.ne_nan_of_le_left h; have hb := Fl.ne_nan_of_le_right h
  by_cases hn : Fl.mul a b = .nan
  · rw [Fl.mul_eq_nan ha hb] at hn
    cases a <;> cases b <;> simp_all [Fl.mul, Fl.isNan, Fl.isInf, Fl.isZero, Fl.signBit, Fl.val, Fl.infS, Fl.zeroS]
  · refine CppOrder.le_trans _ (Fl.mul a b) _ (Fl.mul_anti h0 h hn (sq_ne_nan hb)) ?_
    rw [Fl.mul_comm' a b]
    exact Fl.mul_anti (CppOrder.le_trans _ _ _ h h0) h (sq_ne_nan ha) (by rw [Fl.mul_comm']; exact hn)

theorem proper_pts {X : Ivl (Fl K)} (hX : Proper X) : X.assigned = true ∧ X.lo ∈ᵢ X ∧ X.hi ∈ᵢ X ∧ X.lo ≠ .nan ∧ X.hi ≠ .nan :=
  ⟨assigned_of_proper (X := .ivl X) hX, lo_mem (X := .ivl X) hX, hi_mem (X := .ivl X) hX, Fl.ne_nan_of_le_left hX, Fl.ne_nan_of_le_right hX⟩

/-- C33 square: exact, and never negative -/
theorem C33_square (dbg : Bool) (X : Ivl (Fl K)) (hX : Proper X) :
    FloatExact1 (fun a => Fl.mul a a) X (squareI dbg X) ∧ ∀ R, squareI dbg X = .ok R → le (.num 0) R.lo = true := by
  obtain ⟨has, hx, hx', nl, nh⟩ := proper_pts hX
  have nls := Fl.notNan_iff.mpr (sq_ne_nan nl); have nhs := Fl.notNan_iff.mpr (sq_ne_nan nh)
  have hmin := cmin_le nls nhs; have hmax := le_cmax nls nhs
  have up : ∀ a, a ∈ᵢ X → le (Fl.mul a a) (cmax (Fl.mul X.lo X.lo) (Fl.mul X.hi X.hi)) = true := by
    intro a ha
    rcases le_tot (a := .num 0) (b := a) (by simp) (Fl.ne_nan_of_le_left ha.2) with h | h
    · exact CppOrder.le_trans _ _ _ (sq_mono h ha.2) hmax.2
    · exact CppOrder.le_trans _ _ _ (sq_anti h ha.1) hmax.1
  have upat : ∃ a, a ∈ᵢ X ∧ Fl.mul a a = cmax (Fl.mul X.lo X.lo) (Fl.mul X.hi X.hi) := by
    rcases cmax_or (Fl.mul X.lo X.lo) (Fl.mul X.hi X.hi) with h | h <;> rw [h]
    · exact ⟨_, hx, rfl⟩
    · exact ⟨_, hx', rfl⟩
  unfold squareI
  simp only [has, expectsDebug_true, ok_bind, CppNum.mul, pure, Except.pure]
  by_cases hc : (le X.lo zero && ge X.hi zero) = true
  · rw [if_pos hc]
    simp only [Bool.and_eq_true, zero_fl, CppVal.ge] at hc
    try simp only [zero_fl]
    have hz : Fl.mul (.num 0 : Fl K) (.num 0) = .num 0 := by simp [Fl.mul, Fl.isNan, Fl.isInf, Fl.isZero, Fl.zeroS, Fl.signBit]
    have h0 : le (.num 0) (cmax (Fl.mul X.lo X.lo) (Fl.mul X.hi X.hi)) = true := by
      have := up (.num 0) hc; rwa [hz] at this
    simp only [ok_bind, make_ok_of_le h0]
    refine ⟨⟨_, rfl, fun a ha => ⟨sq_nonneg' (Fl.ne_nan_of_le_left ha.2), up a ha⟩, ⟨.num 0, hc, hz⟩, upat⟩, ?_⟩
    rintro R ⟨⟩; simp
  · rw [if_neg hc]
    simp only [Bool.and_eq_true, not_and, zero_fl, CppVal.ge] at hc
    try simp only [zero_fl]
    have hle := CppOrder.le_trans _ _ _ hmin.1 hmax.1
    simp only [ok_bind, make_ok_of_le hle]
    refine ⟨⟨_, rfl, fun a ha => ⟨?_, up a ha⟩, ?_, upat⟩, ?_⟩
    · rcases le_tot (a := .num 0) (b := X.lo) (by simp) nl with h | h
      · exact CppOrder.le_trans _ _ _ hmin.1 (sq_mono h ha.1)
      · rcases le_tot (a := X.hi) (b := .num 0) nh (by simp) with h' | h'
        · exact CppOrder.le_trans _ _ _ hmin.2 (sq_anti h' ha.2)
        · exact absurd h' (hc h)
    · rcases cmin_or (Fl.mul X.lo X.lo) (Fl.mul X.hi X.hi) with h | h <;> rw [h]
      · exact ⟨_, hx, rfl⟩
      · exact ⟨_, hx', rfl⟩
    · rintro R ⟨⟩
      simp only
      rcases cmin_or (Fl.mul X.lo X.lo) (Fl.mul X.hi X.hi) with h | h <;> rw [h]
      · exact sq_nonneg' nl
      · exact sq_nonneg' nh

/-- the point function `cube`: `x*x*x` with two roundings -/
def cubeFl (a : Fl K) : Fl K := Fl.mul (Fl.mul a a) a

theorem cube_ne_nan {a : Fl K} (h : a ≠ .nan) : cubeFl a ≠ .nan := by
  intro h'
  unfold cubeFl at h'
  rw [Fl.mul_eq_nan (sq_ne_nan h) h] at h'
  cases a <;> simp_all [Fl.mul, Fl.isNan, Fl.isInf, Fl.isZero, Fl.signBit, Fl.val, Fl.infS, Fl.zeroS]
  obtain ⟨h1, h2⟩ := h'
  simp [h2] at h1

theorem fl_cube_mono {a b : Fl K} (h : le a b = true) : le (cubeFl a) (cubeFl b) = true := by
  have ha := Fl.ne_nan_of_le_left h; have hb := Fl.ne_nan_of_le_right h
  have ca := cube_ne_nan ha; have cb := cube_ne_nan hb
  have pa := sq_nonneg' ha; have pb := sq_nonneg' hb
  rcases le_tot (a := .num 0) (b := a) (by simp) ha with h0 | h0
  · have h1 := CppOrder.le_trans _ _ _ h0 h
    by_cases hn : Fl.mul (Fl.mul b b) a = .nan
    · rw [Fl.mul_eq_nan (sq_ne_nan hb) ha] at hn
      rcases hn with ⟨hi, hz⟩ | ⟨hz, hi⟩
      · have : le (cubeFl a) (.num 0) = true := mul_neg' pa (Fl.isZero_iff.mp hz).1 ca
        exact CppOrder.le_trans _ _ _ this (mul_pos' pb h1 cb)
      · have : a = .pinf := by cases a <;> simp_all [Fl.isInf]
        subst this
        have := Fl.pinf_le_iff.mp h
        subst this
        exact Fl.le_refl_of_ne ca
    · refine CppOrder.le_trans _ (Fl.mul (Fl.mul b b) a) _ (Fl.mul_mono h0 (sq_mono h0 h) ca hn) ?_
      unfold cubeFl
      rw [Fl.mul_comm' (Fl.mul b b) a, Fl.mul_comm' (Fl.mul b b) b]
      exact Fl.mul_mono pb h (by rw [Fl.mul_comm']; exact hn) (by rw [Fl.mul_comm']; exact cb)
  · rcases le_tot (a := .num 0) (b := b) (by simp) hb with h1 | h1
    · exact CppOrder.le_trans _ _ _ (mul_neg' pa h0 ca) (mul_pos' pb h1 cb)
    · by_cases hn : Fl.mul (Fl.mul b b) a = .nan
      · rw [Fl.mul_eq_nan (sq_ne_nan hb) ha] at hn
        rcases hn with ⟨hi, hz⟩ | ⟨hz, hi⟩
        · exfalso
          have h2 : le (.num 0) b = true := CppOrder.le_trans _ _ _ (Fl.isZero_iff.mp hz).2 h
          cases b <;> simp_all [Fl.mul, Fl.isNan, Fl.isInf, Fl.isZero, Fl.signBit, Fl.val, Fl.infS, Fl.zeroS]
          have := le_antisymm h1 h2
          simp [this] at hi
        · have : a = .ninf := by cases a <;> simp_all [Fl.isInf]
          subst this
          have : cubeFl (.ninf : Fl K) = .ninf := by simp [cubeFl, Fl.mul, Fl.isNan, Fl.isInf, Fl.isZero, Fl.signBit, Fl.infS]
          rw [this]
          exact Fl.ninf_le cb
      · refine CppOrder.le_trans _ (Fl.mul (Fl.mul b b) a) _ (Fl.mul_anti h0 (sq_anti h1 h) hn ca) ?_
        unfold cubeFl
        rw [Fl.mul_comm' (Fl.mul b b) a, Fl.mul_comm' (Fl.mul b b) b]
        exact Fl.mul_mono pb h (by rw [Fl.mul_comm']; exact hn) (by rw [Fl.mul_comm']; exact cb)

/-- C33 cube -/
theorem C33_cube (dbg : Bool) (X : Ivl (Fl K)) (hX : Proper X) :
    FloatExact1 (fun a => Fl.mul (Fl.mul a a) a) X (cubeI dbg X) := by
  obtain ⟨has, hx, hx', nl, nh⟩ := proper_pts hX
  unfold cubeI
  rw [has, expectsDebug_true]
  exact ⟨_, make_ok_of_le (fl_cube_mono hX), fun a ha => ⟨fl_cube_mono ha.1, fl_cube_mono ha.2⟩, ⟨_, hx, rfl⟩, ⟨_, hx', rfl⟩⟩

theorem abs_eq_pos {a : Fl K} (h : le (.num 0) a = true) : eq (Fl.abs a) a = true := by
  rw [CppOrder.eq_iff]
  cases a <;> simp_all [Fl.abs, Fl.signBit, Fl.neg]
  split
  · order
  · simp
theorem abs_eq_neg {a : Fl K} (h : le a (.num 0) = true) : eq (Fl.abs a) (Fl.neg a) = true := by
  rw [CppOrder.eq_iff]
  cases a <;> simp_all [Fl.abs, Fl.signBit, Fl.neg]
  repeat' split
  all_goals simp_all
theorem abs_nonneg' {a : Fl K} (h : a ≠ .nan) : le (.num 0) (Fl.abs a) = true := by
  cases a <;> simp_all [Fl.abs, Fl.signBit, Fl.neg]
  repeat' split
  all_goals simp_all
  all_goals order

theorem cong_l {a b c : Fl K} (h : eq a b = true) (h' : le b c = true) : le a c = true := by
  rw [CppOrder.eq_iff] at h; exact CppOrder.le_trans _ _ _ h.1 h'
theorem cong_r {a b c : Fl K} (h : eq a b = true) (h' : le c b = true) : le c a = true := by
  rw [CppOrder.eq_iff] at h; exact CppOrder.le_trans _ _ _ h' h.2

/-- C33 abs: exact in value (a zero bound may come out as `-0`), and never negative -/
theorem C33_abs (dbg : Bool) (X : Ivl (Fl K)) (hX : Proper X) :
    FloatExactV1 Fl.abs X (absI dbg X) ∧ ∀ R, absI dbg X = .ok R → le (.num 0) R.lo = true := by
  obtain ⟨has, hx, hx', nl, nh⟩ := proper_pts hX
  unfold absI
  simp only [has, expectsDebug_true, ok_bind, CppNum.neg, pure, Except.pure]
  have z : Fl.abs (.num 0 : Fl K) = .num 0 := by simp [Fl.abs, Fl.signBit]
  by_cases hc : (le X.lo zero && ge X.hi zero) = true
  · rw [if_pos hc]
    simp only [Bool.and_eq_true, zero_fl, CppVal.ge] at hc
    try simp only [zero_fl]
    have nn : NotNan (Fl.neg X.lo) := Fl.notNan_iff.mpr (mt Fl.neg_ne_nan.mp nl)
    have hmax := le_cmax nn (Fl.notNan_iff.mpr nh)
    have h0 := CppOrder.le_trans _ _ _ hc.2 hmax.2
    simp only [ok_bind, make_ok_of_le h0]
    refine ⟨⟨_, rfl, fun a ha => ⟨abs_nonneg' (Fl.ne_nan_of_le_left ha.2), ?_⟩, ⟨.num 0, hc, by rw [z, CppOrder.eq_iff]; simp⟩, ?_⟩, ?_⟩
    · rcases le_tot (a := .num 0) (b := a) (by simp) (Fl.ne_nan_of_le_left ha.2) with h | h
      · exact cong_l (abs_eq_pos h) (CppOrder.le_trans _ _ _ ha.2 hmax.2)
      · exact cong_l (abs_eq_neg h) (CppOrder.le_trans _ _ _ (Fl.neg_anti ha.1) hmax.1)
    · rcases cmax_or (Fl.neg X.lo) X.hi with h | h <;> simp only [h]
      · exact ⟨_, hx, abs_eq_neg hc.1⟩
      · exact ⟨_, hx', abs_eq_pos hc.2⟩
    · rintro R ⟨⟩; simp
  · rw [if_neg hc]
    simp only [Bool.and_eq_true, not_and, zero_fl, CppVal.ge] at hc
    rcases le_tot (a := .num 0) (b := X.lo) (by simp) nl with h | h
    · have : ¬ lt X.lo zero = true := by rw [zero_fl]; grind
      rw [if_neg this]
      refine ⟨⟨_, rfl, fun a ha => ?_, ⟨_, hx, abs_eq_pos h⟩, ⟨_, hx', abs_eq_pos (CppOrder.le_trans _ _ _ h hX)⟩⟩, ?_⟩
      · have := abs_eq_pos (CppOrder.le_trans _ _ _ h ha.1)
        exact ⟨cong_r this ha.1, cong_l this ha.2⟩
      · rintro R ⟨⟩; exact h
    · have h' : le X.hi (.num 0) = true := by
        rcases le_tot (a := X.hi) (b := .num 0) nh (by simp) with h' | h'
        · exact h'
        · exact absurd h' (hc h)
      have : lt X.lo zero = true := by
        rw [zero_fl]
        have := hc h
        have z0 : le (.num 0 : Fl K) (.num 0) = true := by simp
        have : le (.num 0) X.lo = false := by
          rw [Bool.eq_false_iff]; intro hh; exact this (CppOrder.le_trans _ _ _ hh hX)
        rw [CppOrder.lt_iff]; exact ⟨Fl.notNan_iff.mpr nl, z0, this⟩
      rw [if_pos this]
      simp only [ok_bind, make_ok_of_le (Fl.neg_anti hX)]
      refine ⟨⟨_, rfl, fun a ha => ?_, ⟨_, hx', abs_eq_neg h'⟩, ⟨_, hx, abs_eq_neg h⟩⟩, ?_⟩
      · have := abs_eq_neg (CppOrder.le_trans _ _ _ ha.2 h')
        exact ⟨cong_r this (Fl.neg_anti ha.2), cong_l this (Fl.neg_anti ha.1)⟩
      · rintro R ⟨⟩
        exact CppOrder.le_trans _ _ _ (abs_nonneg' nh) ((CppOrder.eq_iff _ _).mp (abs_eq_neg h')).1

/-- C33 sgn: exactly the signs of the points -/
theorem C33_sgn (dbg : Bool) (X : Ivl (Fl K)) (hX : Proper X) :
    ∃ R, sgnI dbg X = .ok R ∧ ∀ s, SMem s R ↔ ∃ a, a ∈ᵢ X ∧ sgnFl a = s := by
  obtain ⟨has, hx, hx', nl, nh⟩ := proper_pts hX
  obtain ⟨R, hR, hp, hn, hz⟩ := sgnI_spec dbg X has
  have sp : ∀ a : Fl K, sgnFl a = .pos ↔ lt (.num 0) a = true := by
    intro a; rw [CppOrder.lt_iff]; cases a <;> simp [sgnFl]
    split_ifs <;> simp <;> order
  have sn : ∀ a : Fl K, sgnFl a = .neg ↔ lt a (.num 0) = true := by
    intro a; rw [CppOrder.lt_iff]; cases a <;> simp [sgnFl]
    split_ifs <;> simp
  have tr : ∀ {a b c : Fl K}, le a b = true → lt b c = true → lt a c = true := by intro a b c h h'; grind
  have tr' : ∀ {a b c : Fl K}, lt a b = true → le b c = true → lt a c = true := by intro a b c h h'; grind
  refine ⟨R, hR, fun s => ?_⟩
  cases s
  · rw [hn, zero_fl]
    constructor
    · intro h; exact ⟨_, hx, (sn _).mpr h⟩
    · rintro ⟨a, ha, h⟩; exact tr ha.1 ((sn _).mp h)
  · rw [hz, zero_fl]
    simp only [Bool.and_eq_true, CppVal.ge]
    constructor
    · intro h; exact ⟨.num 0, h, by simp [sgnFl]⟩
    · rintro ⟨a, ha, h⟩
      have hza : Fl.isZero a = true := by
        rcases fl_tri (Fl.ne_nan_of_le_left ha.2) with h' | h' | h'
        · rw [(sn a).mpr h'] at h; cases h
        · exact h'
        · rw [(sp a).mpr h'] at h; cases h
      exact mem_bounds.mp (zero_mem_of (X := .ivl X) ha hza)
  · rw [hp, zero_fl]
    constructor
    · intro h; exact ⟨_, hx', (sp _).mpr h⟩
    · rintro ⟨a, ha, h⟩; exact tr' ((sp _).mp h) ha.2


theorem fl_attained {P : Fl K → Prop} {R : Ivl (Fl K)} (h : Acc P R) {v : Fl K} (hv : P v) : P R.lo ∧ P R.hi := by
  have := h.mem v hv
  constructor
  · rcases h.lo with e | e
    · have this := this.1; rw [e] at this ⊢
      rw [show (CppLimits.top : Fl K) = v from (Fl.pinf_le_iff.mp this).symm]; exact hv
    · exact e
  · rcases h.hi with e | e
    · have this := this.2; rw [e] at this ⊢
      rw [show (CppLimits.bot : Fl K) = v from (Fl.le_ninf_iff.mp this).symm]; exact hv
    · exact e

theorem neg_neg' (a : Fl K) : Fl.neg (Fl.neg a) = a := by
  cases a <;> simp [Fl.neg]
  next k => by_cases h : k = 0 <;> simp [h]

theorem neg_le_swap {a b : Fl K} : le (Fl.neg a) b = true ↔ le (Fl.neg b) a = true := by
  constructor
  · intro h; have := Fl.neg_anti h; rwa [neg_neg'] at this
  · intro h; have := Fl.neg_anti h; rwa [neg_neg'] at this
theorem le_neg_swap {a b : Fl K} : le a (Fl.neg b) = true ↔ le b (Fl.neg a) = true := by
  constructor
  · intro h; have := Fl.neg_anti h; rwa [neg_neg'] at this
  · intro h; have := Fl.neg_anti h; rwa [neg_neg'] at this

theorem signset_acc (dbg : Bool) (S : SignSet) (X : Ivl (Fl K)) (hX : Proper X) :
    ∃ R, signSetMulI dbg S X = .ok R ∧ Acc (fun v => ∃ s a, SMem s S ∧ a ∈ᵢ X ∧ eq v (signMulFl s a) = true) R := by
  obtain ⟨has, hx, hx', nl, nh⟩ := proper_pts hX
  rw [signSetMulI_spec]
  obtain ⟨R1, e1, h1⟩ := Acc.empty (T := Fl K) |>.ite (SMem .pos S) (fun _ => Acc.assign Acc.empty hX)
  have hN : ∃ N, negI dbg X = .ok N ∧ N = ⟨Fl.neg X.hi, Fl.neg X.lo⟩ ∧ Proper N := by
    refine ⟨_, ?_, rfl, Fl.neg_anti hX⟩
    unfold negI
    rw [has, expectsDebug_true]
    exact make_ok_of_le (Fl.neg_anti hX)
  obtain ⟨N, eN, hN, pN⟩ := hN
  obtain ⟨R2, e2, h2⟩ := h1.ite (SMem .neg S) (m := negI dbg X >>= fun m => Ivl.assign R1 m) (fun _ => by
    rw [eN]; exact h1.assign pN)
  have nz : NotNan (.num 0 : Fl K) := by simp [NotNan]
  obtain ⟨R3, e3, h3⟩ := h2.ite (SMem .zero S) (m := pure (Ivl.assignVal R2 (.num 0))) (fun _ => ⟨_, rfl, h2.assignVal nz⟩)
  refine ⟨R3, ?_, h3.congr ?_⟩
  · rw [e1, ok_bind, e2, ok_bind]; exact e3
  intro v
  simp only [CppOrder.eq_iff]
  constructor
  · rintro (((h | ⟨hs, h⟩) | ⟨hs, h⟩) | ⟨hs, h⟩)
    · exact h.elim
    · exact ⟨.pos, v, hs, h, by simp only [signMulFl]; exact ⟨CppOrder.le_left _ _ h.2, CppOrder.le_left _ _ h.2⟩⟩
    · refine ⟨.neg, Fl.neg v, hs, ?_, ?_⟩
      · rw [hN] at h
        exact ⟨by rw [le_neg_swap]; exact h.2, by rw [neg_le_swap]; exact h.1⟩
      · simp only [signMulFl, neg_neg']; exact ⟨CppOrder.le_left _ _ h.2, CppOrder.le_left _ _ h.2⟩
    · exact ⟨.zero, X.lo, hs, hx, h.2, h.1⟩
  · rintro ⟨s, a, hs, ha, h⟩
    cases s
    · left; right
      refine ⟨hs, ?_⟩
      rw [hN]
      exact ⟨CppOrder.le_trans _ _ _ (Fl.neg_anti ha.2) h.2, CppOrder.le_trans _ _ _ h.1 (Fl.neg_anti ha.1)⟩
    · right; exact ⟨hs, h.2, h.1⟩
    · left; left; right
      exact ⟨hs, CppOrder.le_trans _ _ _ ha.1 h.2, CppOrder.le_trans _ _ _ h.1 ha.2⟩

/-- C33: the product of a set of signs and an interval is the hull of all products with the mathematical convention `0 * inf = 0`
(unassigned if the set is empty); bounds are attained in value. -/
theorem C33_signset_mul (dbg : Bool) (S : SignSet) (X : Ivl (Fl K)) (hX : Proper X) (res : Outcome (Ivl (Fl K)))
    (hres : res = signSetMulI dbg S X ∨ res = mulSignSetI dbg X S) :
    ∃ R, res = .ok R ∧ ((∀ s, ¬ SMem s S) → R.assigned = false) ∧
      (∀ s a, SMem s S → a ∈ᵢ X → signMulFl s a ∈ᵢ R) ∧
      ((∃ s, SMem s S) →
        (∃ s a, SMem s S ∧ a ∈ᵢ X ∧ eq R.lo (signMulFl s a) = true) ∧ (∃ s a, SMem s S ∧ a ∈ᵢ X ∧ eq R.hi (signMulFl s a) = true)) := by
  have hr : res = signSetMulI dbg S X := by rcases hres with h | h <;> exact h
  subst hr
  obtain ⟨has, hx, hx', nl, nh⟩ := proper_pts hX
  obtain ⟨R, e, h⟩ := signset_acc dbg S X hX
  have nn : ∀ s a, a ∈ᵢ X → le (signMulFl s a) (signMulFl s a) = true := by
    intro s a ha
    cases s <;> simp only [signMulFl]
    · exact Fl.notNan_iff.mpr (mt Fl.neg_ne_nan.mp (Fl.ne_nan_of_le_left ha.2))
    · simp
    · exact CppOrder.le_left _ _ ha.2
  have hp : ∀ s a, SMem s S → a ∈ᵢ X → ∃ t b, SMem t S ∧ b ∈ᵢ X ∧ eq (signMulFl s a) (signMulFl t b) = true :=
    fun s a hs ha => ⟨s, a, hs, ha, by rw [CppOrder.eq_iff]; exact ⟨nn s a ha, nn s a ha⟩⟩
  refine ⟨R, e, fun hS => ?_, fun s a hs ha => h.mem _ (hp s a hs ha), ?_⟩
  · rcases h.lo with e1 | ⟨s, _, hs, _⟩
    · rcases h.hi with e2 | ⟨s, _, hs, _⟩
      · simp only [Ivl.assigned, e1, e2, CppVal.gt, CppLawfulLimits.bot_lt_top]; rfl
      · exact absurd hs (hS s)
    · exact absurd hs (hS s)
  · rintro ⟨s, hs⟩
    exact fl_attained h (v := signMulFl s X.lo) (hp s _ hs hx)

/-- the library's own product of a sign and a number agrees with the mathematical one, except for `0 * inf` -/
theorem sign_point (s : Sign) (a : Fl K) (ha : a ≠ .nan) (hr : Fl.Representable a) (hz : s = .zero → Fl.isFinite a = true) :
    ∃ v, signMulVal s a = .ok v ∧ valMulSign a s = .ok v ∧ eq v (signMulFl s a) = true := by
  have hr' : ∀ k : K, Fmt.rnd k = .num k → Fmt.rnd (-k) = .num (-k) := Fmt.rnd_symm
  unfold signMulVal valMulSign
  cases s <;> simp only [signVal, CppNum.one, CppNum.zero, CppNum.neg, CppNum.mul, ok_bind, signMulFl]
  · refine ⟨_, rfl, by rw [Fl.mul_comm'], ?_⟩
    rw [CppOrder.eq_iff]
    cases a <;> simp_all [Fl.mul, Fl.neg, Fl.isNan, Fl.isInf, Fl.isZero, Fl.signBit, Fl.val, Fl.infS, Fl.zeroS, Fl.Representable]
    split <;> simp_all
  · refine ⟨_, rfl, by rw [Fl.mul_comm'], ?_⟩
    rw [CppOrder.eq_iff]
    cases a <;> simp_all [Fl.mul, Fl.neg, Fl.isNan, Fl.isInf, Fl.isZero, Fl.signBit, Fl.val, Fl.infS, Fl.zeroS, Fl.Representable, Fl.isFinite]
    split <;> simp_all
  · refine ⟨_, rfl, by rw [Fl.mul_comm'], ?_⟩
    rw [CppOrder.eq_iff]
    have h10 : ¬ (1:K) < 0 := not_lt.mpr zero_le_one
    cases a
    case num k =>
      simp only [Fl.Representable] at hr
      by_cases hk : k = 0
      · simp [hk, Fl.mul, Fl.isNan, Fl.isInf, Fl.isZero, Fl.signBit, Fl.zeroS, h10]
      · simp [hk, Fl.mul, Fl.isNan, Fl.isInf, Fl.isZero, Fl.signBit, Fl.zeroS, h10, Fl.val, hr]
    all_goals simp [h10, Fl.mul, Fl.isNan, Fl.isInf, Fl.isZero, Fl.signBit, Fl.val, Fl.infS, Fl.zeroS] at ha ⊢

/-- C33: `S * X` contains the floating-point product `s * x` for every sign of the set and every representable point.
Missing: the product of the zero sign and an infinite point, which is NaN (`C33_signset_violated`). -/
theorem C33_signset_incl_partial (dbg : Bool) (S : SignSet) (X : Ivl (Fl K)) (hX : Proper X) (s : Sign) (a : Fl K)
    (hs : SMem s S) (ha : a ∈ᵢ X) (hr : Fl.Representable a) (hz : s = .zero → Fl.isFinite a = true) :
    ∃ R v, signSetMulI dbg S X = .ok R ∧ mulSignSetI dbg X S = .ok R ∧ signMulVal s a = .ok v ∧ v ∈ᵢ R := by
  obtain ⟨R, e, h⟩ := signset_acc dbg S X hX
  obtain ⟨v, hv, _, he⟩ := sign_point s a (Fl.ne_nan_of_le_left ha.2) hr hz
  exact ⟨R, v, e, e, hv, h.mem v ⟨s, a, hs, ha, he⟩⟩

/-- C33 is violated for the zero sign and infinite points: `set{zero} * [0, inf]` is `[0, 0]`, but `sign::zero * inf` is NaN
(and `sign::zero * [0, inf]` is the NaN interval). -/
theorem C33_signset_violated : letI := exactFmt ℚ
    signSetMulI (T := Fl ℚ) false (2#3) ⟨.num 0, .pinf⟩ = .ok ⟨.num 0, .num 0⟩ ∧
    signMulVal (T := Fl ℚ) .zero .pinf = .ok .nan ∧ ¬ (Fl.nan : Fl ℚ) ∈ᵢ ⟨.num 0, .num 0⟩ ∧
    signMulI (T := Fl ℚ) false .zero ⟨.num 0, .pinf⟩ = .ok ⟨.nan, .nan⟩ := by
  decide +kernel

/-- C33: product of a sign and an interval -/
theorem C33_sign_mul (dbg : Bool) (s : Sign) (X : Ivl (Fl K)) (hX : Proper X) :
    ∃ c, signVal s = .ok c ∧ FloatExact2 Fl.mul (.scalar c) (.ivl X) (signMulI dbg s X) ∧
      FloatExact2 Fl.mul (.ivl X) (.scalar c) (mulSignI dbg X s) := by
  have key : ∀ c : Fl K, c ≠ .nan → signVal s = .ok c → ∃ c, signVal s = .ok c ∧
      FloatExact2 Fl.mul (.scalar c) (.ivl X) (signMulI dbg s X) ∧ FloatExact2 Fl.mul (.ivl X) (.scalar c) (mulSignI dbg X s) := by
    intro c hc e
    refine ⟨c, e, ?_, ?_⟩
    · unfold signMulI; rw [e]; exact C31_mul dbg _ _ (Fl.notNan_iff.mpr hc) hX
    · unfold mulSignI; rw [e]; exact C31_mul dbg _ _ hX (Fl.notNan_iff.mpr hc)
  cases s
  · refine key (Fl.neg (.num 1)) ?_ rfl
    rw [Ne, Fl.neg_ne_nan]; simp
  · exact key (.num 0) (by simp) rfl
  · exact key (.num 1) (by simp) rfl

/-- The missing part is false throughout: for every set that contains zero and every interval with an infinite point, the product with the set returns an interval
without NaN, though zero times that point is NaN, and the product of zero and the interval is the NaN interval. -/
theorem C33_signset_fails (dbg : Bool) (S : SignSet) (X : Ivl (Fl K)) (hX : Proper X) (a : Fl K) (hs : SMem .zero S) (ha : a ∈ᵢ X) (hi : Fl.isInf a = true) :
    ∃ R, signSetMulI dbg S X = .ok R ∧ mulSignSetI dbg X S = .ok R ∧ Proper R ∧ signMulVal .zero a = .ok .nan ∧
      ¬ (Fl.nan : Fl K) ∈ᵢ R ∧ signMulI dbg .zero X = .ok ⟨.nan, .nan⟩ := by
  obtain ⟨R, e, h⟩ := signset_acc dbg S X hX
  have hn : Fl.mul (.num 0) a = (.nan : Fl K) := by
    cases a <;> simp [Fl.isInf] at hi <;> simp [Fl.mul, Fl.isNan, Fl.isInf, Fl.isZero]
  obtain ⟨c, e1, h2, -⟩ := C33_sign_mul dbg .zero X hX
  have hc : c = .num 0 := by cases e1; rfl
  subst hc
  have hm := h.mem (.num 0) ⟨.zero, a, hs, ha, by simp [signMulFl, CppOrder.eq_iff]⟩
  refine ⟨R, e, e, CppOrder.le_trans _ _ _ hm.1 hm.2, by simp only [signMulVal, e1, ok_bind, CppNum.mul, hn], fun h' => Fl.ne_nan_of_le_right h'.1 rfl, ?_⟩
  rcases h2 with ⟨-, h2⟩ | ⟨h2, -⟩
  · exact h2
  · exact absurd hn (h2 _ _ ⟨by simp, by simp⟩ ha)

/-- C33: product of a scalar and a set of signs: the hull of all products (unassigned if the set is empty). -/
theorem C33_signset_mul_scalar (S : SignSet) (x : Fl K) (hx : x ≠ .nan) (res : Outcome (Ivl (Fl K)))
    (hres : res = valMulSignSet x S ∨ res = signSetMulVal S x) :
    ∃ R, res = .ok R ∧ ((∀ s, ¬ SMem s S) → R.assigned = false) ∧
      (∀ s, SMem s S → signMulFl s x ∈ᵢ R) ∧
      ((∃ s, SMem s S) → (∃ s, SMem s S ∧ eq R.lo (signMulFl s x) = true) ∧ (∃ s, SMem s S ∧ eq R.hi (signMulFl s x) = true)) := by
  have hr : res = valMulSignSet x S := by rcases hres with h | h <;> exact h
  subst hr
  rw [valMulSignSet_spec]
  have nx : NotNan x := Fl.notNan_iff.mpr hx
  have nz : NotNan (.num 0 : Fl K) := by simp [NotNan]
  have nm : NotNan (Fl.neg x) := Fl.notNan_iff.mpr (mt Fl.neg_ne_nan.mp hx)
  obtain ⟨R1, e1, h1⟩ := Acc.empty (T := Fl K) |>.ite (SMem .pos S) (m := pure (Ivl.assignVal Ivl.unassigned x)) (fun _ => ⟨_, rfl, Acc.assignVal Acc.empty nx⟩)
  obtain ⟨R2, e2, h2⟩ := h1.ite (SMem .zero S) (m := pure (Ivl.assignVal R1 (.num 0))) (fun _ => ⟨_, rfl, h1.assignVal nz⟩)
  obtain ⟨R3, e3, h3⟩ := h2.ite (SMem .neg S) (m := pure (Ivl.assignVal R2 (Fl.neg x))) (fun _ => ⟨_, rfl, h2.assignVal nm⟩)
  have h3' : Acc (fun v => ∃ s, SMem s S ∧ eq v (signMulFl s x) = true) R3 := by
    refine h3.congr fun v => ?_
    simp only [CppOrder.eq_iff]
    constructor
    · rintro (((h | ⟨hs, h⟩) | ⟨hs, h⟩) | ⟨hs, h⟩)
      · exact h.elim
      · exact ⟨.pos, hs, h.2, h.1⟩
      · exact ⟨.zero, hs, h.2, h.1⟩
      · exact ⟨.neg, hs, h.2, h.1⟩
    · rintro ⟨s, hs, h⟩
      cases s
      · right; exact ⟨hs, h.2, h.1⟩
      · left; right; exact ⟨hs, h.2, h.1⟩
      · left; left; right; exact ⟨hs, h.2, h.1⟩
  have nn : ∀ s, le (signMulFl s x) (signMulFl s x) = true := by
    intro s
    cases s <;> simp only [signMulFl]
    · exact nm
    · simp
    · exact nx
  have hp : ∀ s, SMem s S → ∃ t, SMem t S ∧ eq (signMulFl s x) (signMulFl t x) = true :=
    fun s hs => ⟨s, hs, by rw [CppOrder.eq_iff]; exact ⟨nn s, nn s⟩⟩
  refine ⟨R3, ?_, fun hS => ?_, fun s hs => h3'.mem _ (hp s hs), ?_⟩
  · have f1 : (if SMem .pos S then Ivl.assignVal Ivl.unassigned x else Ivl.unassigned) = R1 := by
      revert e1; split <;> rintro ⟨⟩ <;> rfl
    have f2 : (if SMem .zero S then Ivl.assignVal R1 CppNum.zero else R1) = R2 := by
      rw [zero_fl]; revert e2; split <;> rintro ⟨⟩ <;> rfl
    simp only [f1, f2]
    exact e3
  · rcases h3'.lo with e1 | ⟨s, hs, _⟩
    · rcases h3'.hi with e2 | ⟨s, hs, _⟩
      · simp only [Ivl.assigned, e1, e2, CppVal.gt, CppLawfulLimits.bot_lt_top]; rfl
      · exact absurd hs (hS s)
    · exact absurd hs (hS s)
  · rintro ⟨s, hs⟩
    exact fl_attained h3' (v := signMulFl s x) (hp s hs)

section examples
attribute [local instance] exactFmt
/-- 4/9 in `[-2/3, 2]^2 = [0, 4]` -/
example : Fl.mul (.num (-2/3 : ℚ)) (.num (-2/3)) = .num (4/9) ∧ (Fl.num (-2/3 : ℚ)) ∈ᵢ (iq (.num (-2/3)) (.num 2)) ∧
    squareI true (iq (.num (-2/3)) (.num 2)) = .ok (iq (.num 0) (.num 4)) := by decide +kernel
example : cubeI true (iq .ninf (.num 2)) = .ok (iq .ninf (.num 8)) := by decide +kernel
example : absI true (iq (.num (-3)) (.num 2)) = .ok (iq (.num 0) (.num 3)) ∧ Proper (iq (.num (-3)) (.num 2)) := by decide +kernel
/-- a zero bound can come out as `-0`: `abs([0,0]) = [0,-0]` -/
example : absI true (iq (.num 0) (.num 0)) = .ok (iq (.num 0) .nzero) := by decide +kernel
example : ∃ R, sgnI true (⟨.num (-3), .nzero⟩ : Ivl (Fl ℚ)) = .ok R ∧ SMem .neg R ∧ SMem .zero R ∧ ¬ SMem .pos R := ⟨_, rfl, by decide +kernel⟩
example : signSetMulI (T := Fl ℚ) true (1#3) ⟨.num 1, .pinf⟩ = .ok ⟨.ninf, .num (-1)⟩ ∧
    (.num 5 : Fl ℚ) ∈ᵢ ⟨.num 1, .pinf⟩ := by decide +kernel
example : ∃ S, CSet.ofVal Sign.vals .neg = .ok S ∧ S = 1#3 ∧ SMem .neg S := ⟨_, rfl, rfl, by decide⟩
end examples

end Intervals.Props
