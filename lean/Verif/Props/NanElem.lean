import Verif.Props.FltClass
import Verif.Props.Compare
import Verif.Props.Basic
import Verif.Props.Monotone
import Verif.Model.Elem
/-!
# C73: what the elementary functions make of a NaN interval
-/
set_option linter.unusedSectionVars false
set_option linter.unusedSimpArgs false
namespace Intervals.Props
open Intervals CppVal Spec CppNum

variable {K : Type} [Field K] [LinearOrder K] [IsStrictOrderedRing K] [Fmt K] [FloorRing K] [Libm K]

theorem fub_nan : Ivl.fromUnorderedBounds (.nan : Fl K) .nan = .ok nanIvl := by
  unfold Ivl.fromUnorderedBounds; rw [cmin_nan, cmax_nan, make_nan]
theorem le_nan_r (a : Fl K) : le a .nan = false := by cases a <;> rfl
theorem le_nan_l (a : Fl K) : le .nan a = false := by cases a <;> rfl
theorem fmod_nan (a : Fl K) : Fl.fmod .nan a = .nan ∧ Fl.fmod a .nan = .nan := by simp [Fl.fmod, Fl.isNan]
theorem wrap_nan {a b : Fl K} (h : lt a b = true) : Fl.wraparound .nan a b = .ok .nan := by
  simp [Fl.wraparound, h, sub_nan, fmod_nan, add_nan, pure, Except.pure]

theorem compareLeq_nan_r (a : Arg (Fl K)) : compareLeq a (.ivl nanIvl) = BoolSet.empty := by
  simp [compareLeq, nanIvl, Arg.lo, Arg.hi, le_nan_r, CppVal.gt, lt_nan_l]
theorem compareLt_nan_l (a : Arg (Fl K)) : compareLt (.ivl nanIvl) a = BoolSet.empty := by
  simp [compareLt, nanIvl, Arg.lo, Arg.hi, lt_nan_l, CppVal.ge, le_nan_r]

/-- the functions of `<cmath>` return NaN for a NaN argument (C17 F.10) -/
def LibmNan (K : Type) [Libm K] : Prop :=
  Libm.sqrt (.nan : Fl K) = .nan ∧ Libm.cbrt (.nan : Fl K) = .nan ∧ Libm.log (.nan : Fl K) = .nan ∧ Libm.exp (.nan : Fl K) = .nan ∧
  Libm.cos (.nan : Fl K) = .nan ∧ Libm.tan (.nan : Fl K) = .nan ∧ Libm.asin (.nan : Fl K) = .nan ∧ Libm.acos (.nan : Fl K) = .nan ∧
  Libm.atan (.nan : Fl K) = .nan ∧ ∀ x : Fl K, Libm.atan2 .nan x = .nan ∧ Libm.atan2 x .nan = .nan

/-- the constant `pi` is positive, also after halving -/
def PiPos (K : Type) [Field K] [LinearOrder K] [Fmt K] [Libm K] : Prop :=
  lt (Fl.neg Libm.pi) (Libm.pi : Fl K) = true ∧ lt (Fl.div (Fl.neg Libm.pi) (.num 2)) (Fl.div Libm.pi (.num 2) : Fl K) = true

/-- C73: functions that keep the NaN interval.  Full statement: every elementary function.  False for `cos`, `sin`, `frac` (`C73_cos_violated`)
and `pow` (`C73_pow_violated`). -/
theorem C73_unary_partial (hL : LibmNan K) (hp : PiPos K) (dbg : Bool) :
    cbrtI dbg (nanIvl : Ivl (Fl K)) = .ok nanIvl ∧ expI dbg (nanIvl : Ivl (Fl K)) = .ok nanIvl ∧ atanI dbg (nanIvl : Ivl (Fl K)) = .ok nanIvl ∧
    tanI dbg (nanIvl : Ivl (Fl K)) = .ok nanIvl ∧ floorI dbg (nanIvl : Ivl (Fl K)) = .ok nanIvl ∧ ceilI dbg (nanIvl : Ivl (Fl K)) = .ok nanIvl ∧
    roundI dbg (nanIvl : Ivl (Fl K)) = .ok nanIvl := by
  obtain ⟨-, h1, -, h2, -, h3, -, -, h4, -⟩ := hL
  have e3 : (nanIvl : Ivl (Fl K)).lo = .nan := rfl
  have e4 : (nanIvl : Ivl (Fl K)).hi = .nan := rfl
  refine ⟨?_, ?_, ?_, ?_, ?_, ?_, ?_⟩
  · simp [cbrtI, nan_assigned, e3, e4, h1, fub_nan]
  · simp [expI, nan_assigned, e3, e4, h2, make_nan]
  · simp [atanI, nan_assigned, e3, e4, h4, fub_nan]
  · simp [tanI, nan_assigned, e3, e4, h3, wrap_nan hp.2, sub_nan, add_nan, CppVal.ge, le_nan_r, fub_nan]
  · simp [floorI, nan_assigned, e3, e4, Fl.floor, make_nan]
  · simp [ceilI, nan_assigned, e3, e4, Fl.ceil, make_nan]
  · simp [roundI, nan_assigned, e3, e4, Fl.round, make_nan]

/-- C73: functions with a restricted domain report a NaN argument: as a contract violation in debug builds, as the NaN interval otherwise. -/
theorem C73_domain (hL : LibmNan K) :
    (sqrtI true (nanIvl : Ivl (Fl K)) = .error .contract ∧ sqrtI false (nanIvl : Ivl (Fl K)) = .ok nanIvl) ∧
    (logI true (nanIvl : Ivl (Fl K)) = .error .contract ∧ logI false (nanIvl : Ivl (Fl K)) = .ok nanIvl) ∧
    (asinI true (nanIvl : Ivl (Fl K)) = .error .contract ∧ asinI false (nanIvl : Ivl (Fl K)) = .ok nanIvl) ∧
    (acosI true (nanIvl : Ivl (Fl K)) = .error .contract ∧ acosI false (nanIvl : Ivl (Fl K)) = .ok nanIvl) := by
  obtain ⟨h1, -, h2, -, -, -, h3, h4, -, -⟩ := hL
  have e3 : (nanIvl : Ivl (Fl K)).lo = .nan := rfl
  have e4 : (nanIvl : Ivl (Fl K)).hi = .nan := rfl
  refine ⟨⟨?_, ?_⟩, ⟨?_, ?_⟩, ⟨?_, ?_⟩, ?_, ?_⟩ <;>
    simp [sqrtI, logI, asinI, acosI, sqrtS, logS, asinS, acosS, nan_assigned, e3, e4, CppVal.ge, le_nan_r, h1, h2, h3, h4, fub_nan, make_nan, expectsDebug,
      expects, pure, Except.pure, bind, Except.bind]

/-- C73 for `atan2`: a NaN first operand gives NaN; a NaN second operand gives NaN unless (in debug builds) a bound of the first operand is
zero, which is a contract violation. -/
theorem C73_atan2 (hL : LibmNan K) (dbg : Bool) (A : Arg (Fl K)) (hA : ProperA A) :
    atan2I dbg (.ivl nanIvl) A = .ok nanIvl ∧
    atan2I false A (.ivl nanIvl) = .ok nanIvl ∧
    (¬ eq A.lo (.num 0) = true → ¬ eq A.hi (.num 0) = true → atan2I dbg A (.ivl nanIvl) = .ok nanIvl) ∧
    (eq A.lo (.num 0) = true ∨ eq A.hi (.num 0) = true → atan2I true A (.ivl nanIvl) = .error .contract) := by
  have h := hL.2.2.2.2.2.2.2.2.2
  have e3 : (nanIvl : Ivl (Fl K)).lo = .nan := rfl
  have e4 : (nanIvl : Ivl (Fl K)).hi = .nan := rfl
  have e5 : (nanIvl : Ivl (Fl K)).containsVal (.num 0) = false := contains_nan
  have aA : A.assigned = true := Intervals.assigned_of_proper hA
  cases A with
  | scalar s =>
    simp only [Arg.lo, Arg.hi]
    refine ⟨?_, ?_, ?_, ?_⟩
    · simp [atan2I, atan2S, nan_assigned, Arg.assigned, Arg.lo, Arg.hi, Arg.contains, e3, e4, e5, h, CppVal.ne, eq_nan_l, hull2_nan, le_nan_l]
    · simp [atan2I, atan2S, nan_assigned, Arg.assigned, Arg.lo, Arg.hi, Arg.contains, e3, e4, e5, h, hull2_nan, le_nan_l, expectsDebug, pure, Except.pure, bind, Except.bind]
    · intro h1 _
      simp [atan2I, atan2S, nan_assigned, Arg.assigned, Arg.lo, Arg.hi, Arg.contains, e3, e4, e5, h, CppVal.ne, h1, hull2_nan, le_nan_l]
    · intro h1
      simp only [or_self] at h1
      simp [atan2I, atan2S, nan_assigned, Arg.assigned, Arg.lo, Arg.hi, Arg.contains, e3, e4, e5, h, CppVal.ne, CppVal.gt, lt_nan_r, h1, hull2_nan, le_nan_l, expectsDebug, expects,
        bind, Except.bind, throw, throwThe, MonadExceptOf.throw]
  | ivl x =>
    have aA : x.assigned = true := aA
    simp only [Arg.lo, Arg.hi]
    refine ⟨?_, ?_, ?_, ?_⟩
    · simp [atan2I, atan2S, nan_assigned, aA, Arg.assigned, Arg.lo, Arg.hi, Arg.contains, e3, e4, e5, h, CppVal.ne, eq_nan_l, hull4_nan, le_nan_l]
    · simp [atan2I, atan2S, nan_assigned, aA, Arg.assigned, Arg.lo, Arg.hi, Arg.contains, e3, e4, e5, h, hull4_nan, le_nan_l, expectsDebug, pure, Except.pure, bind, Except.bind]
    · intro h1 h2
      simp [atan2I, atan2S, nan_assigned, aA, Arg.assigned, Arg.lo, Arg.hi, Arg.contains, e3, e4, e5, h, CppVal.ne, h1, h2, hull4_nan, le_nan_l]
    · intro h1
      by_cases h2 : eq x.lo (.num 0) = true
      · simp [atan2I, atan2S, nan_assigned, aA, Arg.assigned, Arg.lo, Arg.hi, Arg.contains, e3, e4, e5, h, CppVal.ne, CppVal.gt, lt_nan_r, h2, le_nan_l, expectsDebug, expects,
          bind, Except.bind, throw, throwThe, MonadExceptOf.throw]
      · have h1 := h1.resolve_left h2
        simp [atan2I, atan2S, nan_assigned, aA, Arg.assigned, Arg.lo, Arg.hi, Arg.contains, e3, e4, e5, h, CppVal.ne, CppVal.gt, lt_nan_r, h1, h2, le_nan_l, expectsDebug, expects,
          bind, Except.bind, throw, throwThe, MonadExceptOf.throw, pure, Except.pure]

/-- C73 is false for the trigonometric functions: the cosine and sine of the NaN interval are `[-1,1]`. -/
theorem C73_cos_violated (hp : PiPos K) (dbg : Bool) :
    cosI dbg (nanIvl : Ivl (Fl K)) = .ok ⟨.num (-1), .num 1⟩ ∧ sinI dbg (nanIvl : Ivl (Fl K)) = .ok ⟨.num (-1), .num 1⟩ ∧
    fracI dbg (nanIvl : Ivl (Fl K)) = .ok ⟨.num 0, .num 1⟩ := by
  have e3 : (nanIvl : Ivl (Fl K)).lo = .nan := rfl
  have e4 : (nanIvl : Ivl (Fl K)).hi = .nan := rfl
  have hc : cosI dbg (nanIvl : Ivl (Fl K)) = .ok ⟨.num (-1), .num 1⟩ := by
    have : lt (Fl.num 1 : Fl K) (.num (-1)) = false := by
      rw [Bool.eq_false_iff, Ne, CppOrder.lt_iff]; simp
    simp [cosI, nan_assigned, e3, e4, wrap_nan hp.1, sub_nan, add_nan, le_nan_l, Ivl.make, CppVal.gt, this, pure, Except.pure]
  refine ⟨hc, ?_, ?_⟩
  · unfold sinI
    rw [(C34_add_sub dbg (.scalar (Fl.div Libm.pi (.num 2))) rfl).2.2.1, ok_bind, hc]
  · have : lt (Fl.num 1 : Fl K) (.num 0) = false := by
      rw [Bool.eq_false_iff, Ne, CppOrder.lt_iff]; simp
    simp [fracI, nan_assigned, e3, e4, Fl.floor, CppVal.ne, eq_nan_l, Ivl.make, CppVal.gt, this, pure, Except.pure]

/-- C73 is false for `pow`: a NaN base gives an *unassigned* interval. -/
theorem C73_pow_violated (dbg : Bool) (Y : Arg (Fl K)) (hY : Y.assigned = true) : powI dbg (.ivl nanIvl) Y = .ok Ivl.unassigned := by
  have p : BoolSet.possibly BoolSet.empty = false := by decide
  unfold powI geA ltA opGe opLt zeroA
  simp only [compareLeq_nan_r, compareLt_nan_l, hY, show (Arg.ivl (nanIvl : Ivl (Fl K))).assigned = true from nan_assigned,
    show (Arg.scalar (Fl.num 0 : Fl K)).assigned = true from rfl, Bool.and_self, expectsDebug_true, ok_bind, p,
    pure_bind, Bool.false_eq_true, if_false]
  rfl

theorem multiply0_nan (x : Fl K) : multiply0 .nan x = .nan := by
  simp [multiply0, mul_nan, Fl.isNan, Fl.isInf, eq_nan_l]

/-- C73 for `pow` with a NaN exponent: also unassigned if the base is not negative, and undefined behaviour (conversion of NaN to an
integer) if the base can be negative. -/
theorem C73_pow_exponent_violated (hL : LibmNan K) (mono : MonoOnFl (Libm.log : Fl K → Fl K) Nonneg) (dbg : Bool) (X : Ivl (Fl K)) (hX : Proper X) :
    (le (.num 0) X.lo = true → powI dbg (.ivl X) (.ivl nanIvl) = .ok Ivl.unassigned) ∧
    (lt X.lo (.num 0) = true → powI dbg (.ivl X) (.ivl nanIvl) = .error .ub) := by
  have pe : BoolSet.possibly BoolSet.empty = false := by decide
  have pt : BoolSet.possibly (BoolSet.assign BoolSet.empty true) = true := by decide
  have pf : BoolSet.possibly (BoolSet.assign BoolSet.empty false) = false := by decide
  have ptf : BoolSet.possibly (BoolSet.assign (BoolSet.assign BoolSet.empty true) false) = true := by decide
  have aX : (Arg.ivl X).assigned = true := Intervals.assigned_of_proper (X := .ivl X) hX
  have aN : (Arg.ivl (nanIvl : Ivl (Fl K))).assigned = true := nan_assigned
  have a0 : (Arg.scalar (Fl.num 0 : Fl K)).assigned = true := rfl
  have hge : BoolSet.possibly (compareLeq (.scalar (.num 0)) (.ivl X)) = le (.num 0) X.hi := by
    unfold compareLeq
    simp only [Arg.lo, Arg.hi]
    rcases Bool.eq_false_or_eq_true (le (.num 0 : Fl K) X.hi) with h | h <;> rcases Bool.eq_false_or_eq_true (CppVal.gt (.num 0) X.lo) with h' | h' <;>
      simp [h, h', pe, pt, pf, ptf]
  have hlt : BoolSet.possibly (compareLt (.ivl X) (.scalar (.num 0))) = lt X.lo (.num 0) := by
    unfold compareLt
    simp only [Arg.lo, Arg.hi]
    rcases Bool.eq_false_or_eq_true (lt X.lo (.num 0 : Fl K)) with h | h <;> rcases Bool.eq_false_or_eq_true (CppVal.ge X.hi (.num 0)) with h' | h' <;>
      simp [h, h', pe, pt, pf, ptf]
  obtain ⟨M, eM, pM, hM⟩ := C16_max dbg (.scalar (.num 0)) (.ivl X) (show le _ _ = true by simp) hX
  have nM : Nonneg M.lo := by
    obtain ⟨a, b, ha, hb, h⟩ := (hM M.lo).mp ⟨CppOrder.le_left _ _ pM, pM⟩
    have h1 : le (.num 0) (cmax a b) = true := by
      have := (le_cmax (a := a) (b := b) (Fl.le_refl_of_ne (ptA_ne_nan ha)) (Fl.le_refl_of_ne (ptA_ne_nan hb))).1
      exact CppOrder.le_trans _ _ _ (mem_bounds.mp ha).1 this
    exact h ▸ h1
  obtain ⟨L, eL, -⟩ := C37_log mono dbg M pM nM
  have e1 : multiply0A (.ivl nanIvl) (.ivl L) = .ok (.ivl (nanIvl : Ivl (Fl K))) := by
    simp only [multiply0A, show (nanIvl : Ivl (Fl K)).lo = .nan from rfl, show (nanIvl : Ivl (Fl K)).hi = .nan from rfl, multiply0_nan, hull4_nan, ok_bind]
    rfl
  have e2 : expI dbg (nanIvl : Ivl (Fl K)) = .ok nanIvl := by
    simp [expI, nan_assigned, show (nanIvl : Ivl (Fl K)).lo = .nan from rfl, show (nanIvl : Ivl (Fl K)).hi = .nan from rfl, hL.2.2.2.1, make_nan]
  have key : powI dbg (.ivl X) (.ivl nanIvl) = if lt X.lo (.num 0) = true then .error .ub else .ok Ivl.unassigned := by
    unfold powI geA ltA opGe opLt zeroA
    simp only [aX, aN, a0, Bool.and_self, expectsDebug_true, ok_bind, pure_bind, hge, hlt, max0A, eM, logA, eL, e1, expA, e2, assignA, (C34_assign_violated _).1]
    have tl : toLongLong (Arg.ivl (nanIvl : Ivl (Fl K))).lo = .error .ub := rfl
    rw [tl]
    cases le (.num 0 : Fl K) X.hi <;> simp only [Bool.false_eq_true, if_false, if_true, ok_bind, pure_bind] <;> rfl
  rw [key]
  refine ⟨fun h => if_neg ?_, fun h => if_pos h⟩
  rw [CppOrder.lt_iff]
  simp [h]

/-! The hypotheses hold for the correctly rounded `<cmath>` in exact arithmetic; the bases `[1/2, 2]` and `[-1, 2]`. -/
section examples
attribute [local instance] exactFmt
example : LibmNan ℝ := by refine ⟨?_, ?_, ?_, ?_, ?_, ?_, ?_, ?_, ?_, fun x => ⟨?_, ?_⟩⟩ <;> simp [Libm.sqrt, Libm.cbrt, Libm.log, Libm.exp, Libm.cos, Libm.tan,
  Libm.asin, Libm.acos, Libm.atan, Libm.atan2, atan2R, Fl.isNan]
example : PiPos ℝ := by
  have hp := Real.pi_pos
  have e : (Libm.pi : Fl ℝ) = .num Real.pi := rfl
  have n : Fl.neg (.num Real.pi : Fl ℝ) = .num (-Real.pi) := by simp [Fl.neg, hp.ne']
  have d : ∀ x : ℝ, x ≠ 0 → Fl.div (.num x : Fl ℝ) (.num 2) = .num (x / 2) := fun x hx => by
    simp [Fl.div, Fl.isNan, Fl.isInf, Fl.isZero, Fl.val, hx]; rfl
  constructor
  · rw [e, n, CppOrder.lt_iff]; simp; linarith
  · rw [e, n, d _ hp.ne', d _ (neg_ne_zero.mpr hp.ne'), CppOrder.lt_iff]; simp; linarith
example : MonoOnFl (Libm.log : Fl ℝ → Fl ℝ) Nonneg := log_mono
example : Proper (⟨.num (1/2), .num 2⟩ : Ivl (Fl ℝ)) ∧ le (.num 0) (.num (1/2) : Fl ℝ) = true ∧
    Proper (⟨.num (-1), .num 2⟩ : Ivl (Fl ℝ)) ∧ lt (.num (-1)) (.num 0 : Fl ℝ) = true := by
  refine ⟨?_, ?_, ?_, ?_⟩ <;> simp [Proper, CppOrder.lt_iff] <;> norm_num
end examples
end Intervals.Props
