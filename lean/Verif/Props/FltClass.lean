import Verif.Props.FltUnary
import Verif.Model.FltClass
import Verif.Spec.Logic
/-!
# C34, C35: NaN propagation and classification of floating-point intervals
-/
set_option linter.unusedSectionVars false
set_option linter.unusedSimpArgs false
namespace Intervals.Props
open Intervals CppVal Spec CppNum

variable {K : Type} [Field K] [LinearOrder K] [IsStrictOrderedRing K] [Fmt K]

/-- the NaN interval -/
def nanIvl : Ivl (Fl K) := ⟨.nan, .nan⟩

theorem lt_nan_l (a : Fl K) : lt .nan a = false := by rw [Bool.eq_false_iff, Ne, CppOrder.lt_iff]; simp
theorem lt_nan_r (a : Fl K) : lt a .nan = false := by rw [Bool.eq_false_iff, Ne, CppOrder.lt_iff]; simp
theorem eq_nan_l (a : Fl K) : eq .nan a = false := by rw [Bool.eq_false_iff, Ne, CppOrder.eq_iff]; simp
theorem make_nan : Ivl.make (.nan : Fl K) .nan = .ok nanIvl := by simp [Ivl.make, CppVal.gt, lt_nan_l, pure, Except.pure, nanIvl]
theorem nan_assigned : (nanIvl : Ivl (Fl K)).assigned = true := by simp [nanIvl, Ivl.assigned, CppVal.gt, lt_nan_l]
theorem cmin_nan : cmin (.nan : Fl K) .nan = .nan := by simp [cmin]
theorem cmax_nan : cmax (.nan : Fl K) .nan = .nan := by simp [cmax]
theorem hull2_nan : hull2 (.nan : Fl K) .nan = .ok nanIvl := by unfold hull2; rw [cmin_nan, cmax_nan, make_nan]
theorem hull4_nan : hull4 (.nan : Fl K) .nan .nan .nan = .ok nanIvl := by unfold hull4; rw [cmin_nan, cmin_nan, cmax_nan, cmax_nan, make_nan]
theorem inf_nan : isNegInf (.nan : Fl K) = false ∧ isPosInf (.nan : Fl K) = false := by
  simp [isNegInf, isPosInf, eq_nan_l]
theorem add_nan (a : Fl K) : Fl.add .nan a = .nan ∧ Fl.add a .nan = .nan := by simp [Fl.add, Fl.isNan]
theorem sub_nan (a : Fl K) : Fl.sub .nan a = .nan ∧ Fl.sub a .nan = .nan := by simp [Fl.sub, Fl.neg, Fl.add, Fl.isNan]
theorem mul_nan (a : Fl K) : Fl.mul .nan a = .nan ∧ Fl.mul a .nan = .nan := by simp [Fl.mul, Fl.isNan]
theorem div_nan (a : Fl K) : Fl.div .nan a = .nan ∧ Fl.div a .nan = .nan := by simp [Fl.div, Fl.isNan]
theorem contains_nan : (nanIvl : Ivl (Fl K)).containsVal zero = false := by simp [nanIvl, Ivl.containsVal]

/-- C34 for `+` and `-`: a NaN interval on either side gives the NaN interval. -/
theorem C34_add_sub (dbg : Bool) (Y : Arg (Fl K)) (hY : Y.assigned = true) :
    addI dbg (.ivl nanIvl) Y = .ok nanIvl ∧ addI dbg Y (.ivl nanIvl) = .ok nanIvl ∧
    subI dbg (.ivl nanIvl) Y = .ok nanIvl ∧ subI dbg Y (.ivl nanIvl) = .ok nanIvl := by
  have hn : (Arg.ivl (nanIvl : Ivl (Fl K))).assigned = true := nan_assigned
  have e1 : (Arg.ivl (nanIvl : Ivl (Fl K))).lo = .nan := rfl
  have e2 : (Arg.ivl (nanIvl : Ivl (Fl K))).hi = .nan := rfl
  simp [addI, subI, hn, hY, isFloat_fl, e1, e2, inf_nan, CppNum.add, CppNum.sub, add_nan, sub_nan, make_nan]

/-- C34 for `*` -/
theorem C34_mul (dbg : Bool) (Y : Arg (Fl K)) (hY : Y.assigned = true) :
    mulI dbg (.ivl nanIvl) Y = .ok nanIvl ∧ mulI dbg Y (.ivl nanIvl) = .ok nanIvl := by
  have hn : (Arg.ivl (nanIvl : Ivl (Fl K))).assigned = true := nan_assigned
  have e1 : (Arg.ivl (nanIvl : Ivl (Fl K))).lo = .nan := rfl
  have e2 : (Arg.ivl (nanIvl : Ivl (Fl K))).hi = .nan := rfl
  have e3 : (nanIvl : Ivl (Fl K)).lo = .nan := rfl
  have e4 : (nanIvl : Ivl (Fl K)).hi = .nan := rfl
  have e5 : (Arg.ivl (nanIvl : Ivl (Fl K))).contains zero = false := contains_nan
  constructor
  · simp only [mulI, hn, hY, isFloat_fl, e1, e2, e3, e4, e5, inf_nan, Bool.and_self, expectsDebug_true, ok_bind, Bool.or_self, Bool.false_and, Bool.and_false, Bool.false_eq_true, if_false]
    cases Y <;> simp [CppNum.mul, mul_nan, hull2_nan, hull4_nan, e1, e2, e3, e4]
  · simp only [mulI, hn, hY, isFloat_fl, e1, e2, e3, e4, e5, inf_nan, Bool.and_self, expectsDebug_true, ok_bind, Bool.or_self, Bool.false_and, Bool.and_false, Bool.false_eq_true, if_false]
    cases Y <;> simp [CppNum.mul, mul_nan, hull2_nan, hull4_nan, e1, e2, e3, e4]

/-- C34 for `/` -/
theorem C34_div (dbg : Bool) (Y : Arg (Fl K)) (hY : Y.assigned = true) :
    divI dbg (.ivl nanIvl) Y = .ok nanIvl ∧ divI dbg Y (.ivl nanIvl) = .ok nanIvl := by
  have hn : (nanIvl : Ivl (Fl K)).assigned = true := nan_assigned
  have e3 : (nanIvl : Ivl (Fl K)).lo = .nan := rfl
  have e4 : (nanIvl : Ivl (Fl K)).hi = .nan := rfl
  cases Y with
  | scalar s =>
    simp [divI, hn, isFloat_fl, Arg.assigned, Arg.lo, Arg.hi, e3, e4, inf_nan, lt_nan_l, lt_nan_r, CppNum.div, div_nan, hull2_nan, hull4_nan]
  | ivl y =>
    have hY' : y.assigned = true := hY
    simp [divI, hn, hY', isFloat_fl, Arg.assigned, Arg.lo, Arg.hi, e3, e4, inf_nan, lt_nan_l, lt_nan_r, CppNum.div, div_nan, hull2_nan, hull4_nan]

/-- C34 for unary `-`, `square`, `cube`, `abs` -/
theorem C34_unary (dbg : Bool) : negI dbg (nanIvl : Ivl (Fl K)) = .ok nanIvl ∧ squareI dbg (nanIvl : Ivl (Fl K)) = .ok nanIvl ∧
    cubeI dbg (nanIvl : Ivl (Fl K)) = .ok nanIvl ∧ absI dbg (nanIvl : Ivl (Fl K)) = .ok nanIvl := by
  have hn : (nanIvl : Ivl (Fl K)).assigned = true := nan_assigned
  have e3 : (nanIvl : Ivl (Fl K)).lo = .nan := rfl
  have e4 : (nanIvl : Ivl (Fl K)).hi = .nan := rfl
  have e5 : Fl.neg (.nan : Fl K) = .nan := rfl
  refine ⟨?_, ?_, ?_, ?_⟩
  · simp [negI, hn, e3, e4, e5, CppNum.neg, make_nan]
  · simp [squareI, hn, e3, e4, CppNum.mul, mul_nan, cmin_nan, cmax_nan, make_nan]
  · simp [cubeI, hn, e3, e4, CppNum.mul, mul_nan, make_nan]
  · simp [absI, hn, e3, e4, lt_nan_l, pure, Except.pure]

/-- C34 for a NaN *scalar* operand: holds for `+`, `-`, `*`, and as a divisor. -/
theorem C34_scalar (dbg : Bool) (Y : Ivl (Fl K)) (hY : Y.assigned = true) :
    addI dbg (.scalar .nan) (.ivl Y) = .ok nanIvl ∧ addI dbg (.ivl Y) (.scalar .nan) = .ok nanIvl ∧
    subI dbg (.scalar .nan) (.ivl Y) = .ok nanIvl ∧ subI dbg (.ivl Y) (.scalar .nan) = .ok nanIvl ∧
    mulI dbg (.scalar .nan) (.ivl Y) = .ok nanIvl ∧ mulI dbg (.ivl Y) (.scalar .nan) = .ok nanIvl ∧
    divI dbg (.ivl Y) (.scalar .nan) = .ok nanIvl := by
  simp [addI, subI, mulI, divI, isFloat_fl, Arg.assigned, Arg.lo, Arg.hi, Arg.contains, hY, inf_nan, eq_nan_l, CppNum.add, CppNum.sub, CppNum.mul, CppNum.div,
    add_nan, sub_nan, mul_nan, div_nan, hull2_nan, make_nan]

/-- C34 for a NaN scalar dividend, if the divisor does not straddle zero.
Missing: divisors with points on both sides of zero, where the NaN is lost (`C34_scalar_div_violated`). -/
theorem C34_scalar_div_partial (dbg : Bool) (Y : Ivl (Fl K)) (hY : Y.assigned = true) (h : ¬ (lt Y.lo (.num 0) = true ∧ lt (.num 0) Y.hi = true)) :
    divI dbg (.scalar .nan) (.ivl Y) = .ok nanIvl := by
  have h' : (lt Y.lo (.num 0) && lt (.num 0) Y.hi) = false := by rw [Bool.eq_false_iff]; simpa using h
  have h'' : (ne (.nan : Fl K) (.num 0) && lt Y.lo (.num 0) && lt (.num 0) Y.hi) = false := by
    rw [Bool.and_assoc, h', Bool.and_false]
  simp only [divI, isFloat_fl, Arg.assigned, Arg.lo, Arg.hi, hY, zero_fl, h'', inf_nan, eq_nan_l, CppNum.div, div_nan, Bool.and_self, expectsDebug_true, ok_bind,
    Bool.or_self, Bool.false_and, Bool.and_false, Bool.false_eq_true, if_false, hull2_nan, Bool.not_true]

/-- `NaN / [-1, 1]` is `[-inf, inf]`: the NaN is hidden. -/
theorem C34_scalar_div_violated (dbg : Bool) (Y : Ivl (Fl K)) (h1 : lt Y.lo (.num 0) = true) (h2 : lt (.num 0) Y.hi = true) :
    divI dbg (.scalar .nan) (.ivl Y) = .ok ⟨.ninf, .pinf⟩ := by
  have hY : Y.assigned = true := by
    simp only [Ivl.assigned, CppVal.gt]
    have h1' := (CppOrder.lt_iff _ _).mp h1
    have h2' := (CppOrder.lt_iff _ _).mp h2
    grind
  have e : ne (.nan : Fl K) (.num 0) = true := by simp [CppVal.ne, eq_nan_l]
  simp only [divI, isFloat_fl, Arg.assigned, Arg.lo, Arg.hi, hY, zero_fl, h1, h2, e, inf_nan, eq_nan_l, Bool.and_self, expectsDebug_true, ok_bind,
    Bool.or_self, Bool.false_and, Bool.and_false, Bool.false_eq_true, if_false, if_true, Fl.infInterval_eq]

/-- C34 for `min`, `max` and the accumulating functions, the part that holds: a NaN *first* operand (or accumulator) is kept.
Missing: a NaN in any later operand, which is hidden (`C34_min_violated`, `C34_assign_violated`, `C34_if_else_violated`). -/
theorem C34_min_max_partial (dbg : Bool) (Y : Arg (Fl K)) (hY : Y.assigned = true) :
    minI dbg (.ivl nanIvl) Y = .ok nanIvl ∧ maxI dbg (.ivl nanIvl) Y = .ok nanIvl := by
  have hn : (Arg.ivl (nanIvl : Ivl (Fl K))).assigned = true := nan_assigned
  have e1 : (Arg.ivl (nanIvl : Ivl (Fl K))).lo = .nan := rfl
  have e2 : (Arg.ivl (nanIvl : Ivl (Fl K))).hi = .nan := rfl
  simp [minI, maxI, hn, hY, e1, e2, cmin, cmax, lt_nan_l, lt_nan_r, make_nan]
theorem C34_merge_partial (args : List (Ivl (Fl K))) (h : ∀ a ∈ args, a.assigned = true) :
    Ivl.merge nanIvl args = .ok nanIvl := by
  unfold Ivl.merge
  induction args with
  | nil => rfl
  | cons a as ih =>
    have e : Ivl.assign nanIvl a = .ok nanIvl := by
      unfold Ivl.assign
      rw [h a (by simp)]
      simp [Ivl.assignCore, nanIvl, cmin, cmax, lt_nan_l, lt_nan_r, pure, Except.pure]
    unfold Ivl.mergeLoop
    rw [e, ok_bind]
    exact ih (fun b hb => h b (by simp [hb]))

/-- a NaN second operand of `min`, `max` is *always* hidden: the result is the first operand -/
theorem C34_min_violated (dbg : Bool) (X : Ivl (Fl K)) (hX : Proper X) :
    minI dbg (.ivl X) (.ivl nanIvl) = .ok X ∧ maxI dbg (.ivl X) (.ivl nanIvl) = .ok X := by
  have hn : (Arg.ivl (nanIvl : Ivl (Fl K))).assigned = true := nan_assigned
  have e1 : (Arg.ivl (nanIvl : Ivl (Fl K))).lo = .nan := rfl
  have e2 : (Arg.ivl (nanIvl : Ivl (Fl K))).hi = .nan := rfl
  have hX' : (Arg.ivl X).assigned = true := assigned_of_proper (X := .ivl X) hX
  have l : (Arg.ivl X).lo = X.lo := rfl
  have u : (Arg.ivl X).hi = X.hi := rfl
  simp [minI, maxI, hn, hX', e1, e2, l, u, cmin, cmax, lt_nan_l, lt_nan_r, make_ok_of_le hX]

/-- assigning a NaN interval leaves the accumulator unchanged; `merge` ignores NaN arguments after the first -/
theorem C34_assign_violated (X : Ivl (Fl K)) : Ivl.assign X nanIvl = .ok X ∧ Ivl.merge X [nanIvl] = .ok X := by
  have e : Ivl.assign X nanIvl = .ok X := by
    unfold Ivl.assign
    rw [nan_assigned]
    simp [Ivl.assignCore, nanIvl, cmin, cmax, lt_nan_l, lt_nan_r, pure, Except.pure]
  exact ⟨e, by unfold Ivl.merge Ivl.mergeLoop; rw [e, ok_bind]; rfl⟩

/-- `merge` ignores every NaN argument after the first, whatever the other arguments are -/
theorem C34_merge_violated (X : Ivl (Fl K)) (as bs : List (Ivl (Fl K))) : Ivl.merge X (as ++ nanIvl :: bs) = Ivl.merge X (as ++ bs) := by
  unfold Ivl.merge
  induction as generalizing X with
  | nil => show Ivl.mergeLoop (nanIvl :: bs) X = _; rw [Ivl.mergeLoop, (C34_assign_violated X).1, ok_bind]; rfl
  | cons a as ih =>
    rw [List.cons_append, List.cons_append, Ivl.mergeLoop, Ivl.mergeLoop]
    cases Ivl.assign X a with
    | error e => rfl
    | ok R => rw [ok_bind, ok_bind, ih]

/-- `if_else` hides every NaN: choosing the NaN branch yields an *unassigned* interval, and a contingent choice yields the other branch -/
theorem C34_if_else_violated (F : Ivl (Fl K)) (hF : Proper F) :
    Ivl.ifElse (BoolSet.single true) nanIvl F = .ok Ivl.unassigned ∧ (Ivl.unassigned : Ivl (Fl K)).assigned = false ∧
    ∃ R, Ivl.ifElse BoolSet.both nanIvl F = .ok R ∧ eq R.lo F.lo = true ∧ eq R.hi F.hi = true := by
  have p1 : BoolSet.possibly (BoolSet.single true) = true := by decide
  have p2 : BoolSet.possiblyNot (BoolSet.single true) = false := by decide
  have p3 : BoolSet.possibly BoolSet.both = true := by decide
  have p4 : BoolSet.possiblyNot BoolSet.both = true := by decide
  have hF' : F.assigned = true := assigned_of_proper (X := .ivl F) hF
  refine ⟨?_, ?_, ?_⟩
  · simp only [Ivl.ifElse, p1, p2, if_true, (C34_assign_violated _).1, ok_bind, Bool.false_eq_true, if_false]; rfl
  · simp only [Ivl.assigned, CppVal.gt, Ivl.unassigned, CppLawfulLimits.bot_lt_top]; rfl
  · simp only [Ivl.ifElse, p3, p4, if_true, (C34_assign_violated _).1, ok_bind]
    obtain ⟨R, e, h⟩ := Acc.assign (T := Fl K) Acc.empty hF
    refine ⟨R, by rw [e]; rfl, ?_⟩
    obtain ⟨has, hx, hx', nl, nh⟩ := proper_pts hF
    have h' : Acc (fun v => v ∈ᵢ F) R := h.congr (by simp)
    have a := fl_attained h' hx
    have m1 := h'.mem _ hx; have m2 := h'.mem _ hx'
    exact ⟨(CppOrder.eq_iff _ _).mpr ⟨m1.1, a.1.1⟩, (CppOrder.eq_iff _ _).mpr ⟨a.2.2, m2.2⟩⟩

/-! ## C35 -/

theorem boolset_two (b1 b2 : Bool) (r : Bool) :
    BMem r (let s := BoolSet.empty
            let s := if b1 then BoolSet.assign s true else s
            if b2 then BoolSet.assign s false else s) ↔ (r = true ∧ b1 = true) ∨ (r = false ∧ b2 = true) := by
  revert b1 b2 r; decide
theorem boolset_two_not (dbg : Bool) (b1 b2 : Bool) (h : b1 = true ∨ b2 = true) : ∃ R, BoolSet.not dbg
      (let s := BoolSet.empty
       let s := if b1 then BoolSet.assign s true else s
       if b2 then BoolSet.assign s false else s) = .ok R ∧
    ∀ r, BMem r R ↔ (r = false ∧ b1 = true) ∨ (r = true ∧ b2 = true) := by
  revert dbg b1 b2
  decide

theorem inf_pts {X : Ivl (Fl K)} (hX : Proper X) :
    ((isNegInf X.lo || isPosInf X.hi) = true ↔ ∃ a, a ∈ᵢ X ∧ Fl.isInf a = true) ∧
    ((!isNegInf X.hi && !isPosInf X.lo) = true ↔ ∃ a, a ∈ᵢ X ∧ Fl.isInf a = false) := by
  obtain ⟨has, hx, hx', nl, nh⟩ := proper_pts hX
  simp only [Bool.or_eq_true, Bool.and_eq_true, Bool.not_eq_true', Fl.isNegInf_iff, Fl.isPosInf_iff, Bool.eq_false_iff, Ne]
  refine ⟨⟨?_, ?_⟩, ⟨?_, ?_⟩⟩
  · rintro (h | h)
    · exact ⟨_, hx, by rw [h]; rfl⟩
    · exact ⟨_, hx', by rw [h]; rfl⟩
  · rintro ⟨a, ha, h⟩; exact inf_mem_of (X := .ivl X) ha h
  · rintro ⟨h1, h2⟩
    by_cases hl : X.lo = .ninf
    · by_cases hh : X.hi = .pinf
      · exact ⟨.num 0, ⟨by rw [hl]; simp, by rw [hh]; simp⟩, by simp [Fl.isInf]⟩
      · refine ⟨_, hx', ?_⟩; rw [Fl.isInf_iff]; tauto
    · refine ⟨_, hx, ?_⟩; rw [Fl.isInf_iff]; tauto
  · rintro ⟨a, ha, h⟩
    rw [Fl.isInf_iff] at h
    push Not at h
    constructor
    · intro he; have := ha.2; rw [he] at this; exact h.1 (Fl.le_ninf_iff.mp this)
    · intro he; have := ha.1; rw [he] at this; exact h.2 (Fl.pinf_le_iff.mp this)

/-- C35: `isinf(X)` is exactly the set of values of `isinf` on the points of `X`. -/
theorem C35_isinf (dbg : Bool) (X : Ivl (Fl K)) (hX : Proper X) :
    ∃ R, isInfI dbg X = .ok R ∧ ∀ r, BMem r R ↔ ∃ a, a ∈ᵢ X ∧ Fl.isInf a = r := by
  obtain ⟨has, -⟩ := proper_pts hX
  obtain ⟨h1, h2⟩ := inf_pts hX
  refine ⟨_, by unfold isInfI; rw [has, expectsDebug_true]; rfl, fun r => ?_⟩
  refine (boolset_two _ _ r).trans ?_
  rw [h1, h2]
  cases r <;> simp

/-- C35: `isfinite(X)` likewise, for NaN-free `X`.  Missing: the NaN interval (`C35_isfinite_violated`). -/
theorem C35_isfinite_partial (dbg : Bool) (X : Ivl (Fl K)) (hX : Proper X) :
    ∃ R, isFiniteI dbg X = .ok R ∧ ∀ r, BMem r R ↔ ∃ a, a ∈ᵢ X ∧ Fl.isFinite a = r := by
  obtain ⟨has, hx, hx', nl, nh⟩ := proper_pts hX
  obtain ⟨h1, h2⟩ := inf_pts hX
  have hb : (isNegInf X.lo || isPosInf X.hi) = true ∨ (!isNegInf X.hi && !isPosInf X.lo) = true := by
    rw [h1, h2]
    cases h : Fl.isInf X.lo
    · exact Or.inr ⟨_, hx, h⟩
    · exact Or.inl ⟨_, hx, h⟩
  obtain ⟨R, e, hR⟩ := boolset_two_not dbg _ _ hb
  have fin : ∀ a : Fl K, a ∈ᵢ X → Fl.isFinite a = !Fl.isInf a := by
    intro a ha
    have := Fl.ne_nan_of_le_left ha.2
    cases a <;> simp_all [Fl.isFinite, Fl.isInf]
  refine ⟨R, ?_, fun r => ?_⟩
  · unfold isFiniteI isInfI
    rw [has, expectsDebug_true]
    exact e
  · rw [hR, h1, h2]
    constructor
    · rintro (⟨rfl, a, ha, h⟩ | ⟨rfl, a, ha, h⟩)
      · exact ⟨a, ha, by rw [fin a ha, h]; rfl⟩
      · exact ⟨a, ha, by rw [fin a ha, h]; rfl⟩
    · rintro ⟨a, ha, h⟩
      rw [fin a ha] at h
      cases r
      · exact Or.inl ⟨rfl, a, ha, by simpa using h⟩
      · exact Or.inr ⟨rfl, a, ha, by simpa using h⟩

/-- `isfinite` of the NaN interval is `{true}`, although NaN is not finite. -/
theorem C35_isfinite_violated (dbg : Bool) : isFiniteI dbg (nanIvl : Ivl (Fl K)) = .ok (BoolSet.single true) ∧
    Fl.isFinite (.nan : Fl K) = false := by
  refine ⟨?_, rfl⟩
  have e3 : (nanIvl : Ivl (Fl K)).lo = .nan := rfl
  have e4 : (nanIvl : Ivl (Fl K)).hi = .nan := rfl
  have : isInfI dbg (nanIvl : Ivl (Fl K)) = .ok (BoolSet.single false) := by
    unfold isInfI
    rw [nan_assigned, expectsDebug_true]
    simp only [e3, e4, inf_nan]
    rfl
  unfold isFiniteI
  rw [this, ok_bind]
  cases dbg <;> rfl

/-- C35: `isinf` of the NaN interval is what `isinf` is on NaN. -/
theorem C35_isinf_nan (dbg : Bool) : ∃ R, isInfI dbg (nanIvl : Ivl (Fl K)) = .ok R ∧ ∀ r, BMem r R ↔ Fl.isInf (.nan : Fl K) = r := by
  have hr : ∀ r, BMem r (BoolSet.single false) ↔ false = r := by decide
  refine ⟨BoolSet.single false, ?_, hr⟩
  have e3 : (nanIvl : Ivl (Fl K)).lo = .nan := rfl
  have e4 : (nanIvl : Ivl (Fl K)).hi = .nan := rfl
  unfold isInfI
  rw [nan_assigned, expectsDebug_true]
  simp only [e3, e4, inf_nan]
  rfl

/-- C35: `isnan(X)` is `{false}` iff no bound is NaN, and `{false, true}` otherwise; it always agrees with `isnan` of the bounds. -/
theorem C35_isnan (dbg : Bool) (X : Ivl (Fl K)) (hX : X.assigned = true) :
    ∃ R, isNanI dbg X = .ok R ∧ BMem false R ∧ (¬ BMem true R ↔ X.lo ≠ .nan ∧ X.hi ≠ .nan) := by
  have hn : ∀ a : Fl K, Fl.isNan a = true ↔ a = .nan := by intro a; cases a <;> simp [Fl.isNan]
  unfold isNanI
  rw [hX, expectsDebug_true]
  simp only [ok_bind]
  by_cases h : (Fl.isNan X.lo || Fl.isNan X.hi) = true
  · rw [if_pos h]
    refine ⟨_, rfl, by decide, ?_⟩
    simp only [Bool.or_eq_true, hn] at h
    have : BMem true BoolSet.both := by decide
    tauto
  · rw [if_neg h]
    refine ⟨_, rfl, by decide, ?_⟩
    simp only [Bool.or_eq_true, hn] at h
    have : ¬ BMem true (BoolSet.single false) := by decide
    tauto

section examples
attribute [local instance] exactFmt
example : isInfI true (⟨.num 1, .pinf⟩ : Ivl (Fl ℚ)) = .ok BoolSet.both ∧ isFiniteI true (⟨.num 1, .pinf⟩ : Ivl (Fl ℚ)) = .ok BoolSet.both ∧
    isInfI true (⟨.ninf, .ninf⟩ : Ivl (Fl ℚ)) = .ok (BoolSet.single true) ∧ isNanI true (⟨.num 1, .pinf⟩ : Ivl (Fl ℚ)) = .ok (BoolSet.single false) := by
  decide +kernel
example : divI true (.scalar .nan) (.ivl ⟨.num 1, .num (2:ℚ)⟩) = .ok nanIvl ∧ mulI true (.ivl nanIvl) (.ivl ⟨.num 0, .num (2:ℚ)⟩) = .ok nanIvl := by
  decide +kernel
example : (⟨.num 1, .num 2⟩ : Ivl (Fl ℚ)).assigned = true ∧ minI true (.ivl ⟨.num 1, .num (2:ℚ)⟩) (.ivl nanIvl) = .ok ⟨.num 1, .num (2:ℚ)⟩ := by decide +kernel
end examples
end Intervals.Props
