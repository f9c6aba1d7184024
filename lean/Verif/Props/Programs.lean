import Verif.Lemmas.Tight
import Verif.Model.Programs
import Verif.Model.IntVal
import Verif.Model.Flt
/-!
# C17: programs that branch both ways

The value type is arbitrary (integers with `d = true`, floats with `d = false`).
-/
set_option linter.unusedSectionVars false
namespace Intervals.Props
open Intervals Intervals.Spec CppVal
variable {T : Type} [CppVal T] [CppOrder T] [CppLimits T] [CppLawfulLimits T] [CppStep T]

/-- `R` consists of exactly the maxima of a point of `A` and a point of `B`. -/
def ExactMax (A B R : Ivl T) : Prop := ∀ v, v ∈ᵢ R ↔ ∃ a b, a ∈ᵢ A ∧ b ∈ᵢ B ∧ (eq v a = true ∧ le b a = true ∨ eq v b = true ∧ le a b = true)

/-- the larger one is a point of `R`, for all points of `A` and `B` -/
def EnclosesMax (A B R : Ivl T) : Prop := ∀ a b, a ∈ᵢ A → b ∈ᵢ B → (le b a = true → a ∈ᵢ R) ∧ (le a b = true → b ∈ᵢ R)

theorem exactMax_of {A B R : Ivl T} (hA : Proper A) (hB : Proper B) (h1 : eq R.lo (cmax A.lo B.lo) = true)
    (h2 : eq R.hi (cmax A.hi B.hi) = true) : ExactMax A B R := by
  intro v
  unfold Proper at hA hB
  unfold Pt
  constructor
  · rintro ⟨h3, h4⟩
    by_cases hc : le v A.hi = true
    · by_cases hd : le v B.hi = true
      · by_cases hab : le A.lo B.lo = true
        · exact ⟨A.lo, v, by grind, by grind, by grind⟩
        · exact ⟨v, B.lo, by grind, by grind, by grind⟩
      · exact ⟨v, B.lo, by grind, by grind, by grind⟩
    · exact ⟨A.lo, v, by grind, by grind, by grind⟩
  · rintro ⟨a, b, ha, hb, h⟩
    grind

theorem assign_first {r : Ivl T} (hr : Proper r) :
    ∃ R, Ivl.assignPartial Ivl.unassigned r = .ok R ∧ eq R.lo r.lo = true ∧ eq R.hi r.hi = true := by
  unfold Proper at hr
  have h1 := CppLawfulLimits.le_top r.lo (cle_left hr)
  have h2 := CppLawfulLimits.bot_le r.hi (cle_right hr)
  have h3 : r.assigned = true := by unfold Ivl.assigned; grind
  refine ⟨Ivl.assignCore Ivl.unassigned r.lo r.hi, by simp only [Ivl.assignPartial, Ivl.assign, h3, expects_true, ok_bind, pure, Except.pure], ?_, ?_⟩
  · simp only [Ivl.assignCore, Ivl.unassigned]; grind
  · simp only [Ivl.assignCore, Ivl.unassigned]; grind

theorem assign_next {x r : Ivl T} (hr : Proper r) : Ivl.assignPartial x r = .ok ⟨cmin x.lo r.lo, cmax x.hi r.hi⟩ := by
  unfold Proper at hr
  have h3 : r.assigned = true := by unfold Ivl.assigned; grind
  simp only [Ivl.assignPartial, Ivl.assign, h3, expects_true, ok_bind, pure, Except.pure, Ivl.assignCore]

private theorem hi_max {R r r' a b : T} (h1 : eq R r = true) (h2 : eq r b = true) (h3 : eq r' a = true) :
    eq (cmax R r') (cmax a b) = true := by grind
private theorem hi_max' {R r r' a b : T} (h1 : eq R r = true) (h2 : eq r a = true) (h3 : eq r' b = true) :
    eq (cmax R r') (cmax a b) = true := by grind
private theorem lo_min {R r r' m : T} (h1 : eq R r = true) (h2 : le m r = true) (h3 : eq r' m = true) : eq (cmin R r') m = true := by grind
private theorem lo_min' {R r r' m : T} (h1 : eq R r' = true) (h2 : le m r = true) (h3 : eq r' m = true) : eq (cmin R r) m = true := by grind

/-- the value of the branch in which `a < b` is possible -/
private theorem branch_lt {dbg d : Bool} {a b : Ivl T} (hs : d = true → LawfulStep T) (hb : Proper b)
    (h : lt a.lo b.hi = true) (s : BoolSet) (ht : BoolSet.contains s true = true) :
    ∃ r, constrain dbg d 1 b (.less s (.ident d 0 a) (.ident d 1 b)) = .ok r ∧ Proper r ∧ eq r.hi b.hi = true ∧
      le (cmax a.lo b.lo) r.lo = true ∧ (lt a.lo b.lo = true → eq r.lo b.lo = true) := by
  obtain ⟨p, e1, e2, e3, e4, _⟩ := succStep_spec hs h
  rw [leaf_constrain (.less s (.ident d 0 a) (.ident d 1 b)) rfl (Or.inr (self_match ..)) ht]
  have hn : (Operand.ident d 0 a).matchesId d 1 = false := by simp [Operand.matchesId]
  unfold Proper at hb
  simp only [narrow, hn, Bool.false_eq_true, if_false, self_disc, self_lo, e1, ok_bind, h, expectsDebug_true]
  rw [make_of_le (by grind)]
  have := e4 b.lo
  refine ⟨_, rfl, ?_, ?_, ?_, ?_⟩
  · unfold Proper; grind
  · simp only; grind
  · simp only; grind
  · simp only; grind

/-- the value of the branch in which `b <= a` is possible -/
private theorem branch_ge {dbg d : Bool} {a b : Ivl T} (ha : Proper a)
    (h : le b.lo a.hi = true) (s : BoolSet) (ht : BoolSet.contains s true = true) :
    ∃ r, constrain dbg d 0 a (.leq s (.ident d 1 b) (.ident d 0 a)) = .ok r ∧ Proper r ∧ eq r.hi a.hi = true ∧
      eq r.lo (cmax a.lo b.lo) = true := by
  rw [leaf_constrain (.leq s (.ident d 1 b) (.ident d 0 a)) rfl (Or.inr (self_match ..)) ht]
  have hn : (Operand.ident d 1 b).matchesId d 0 = false := by simp [Operand.matchesId]
  unfold Proper at ha
  simp only [narrow, hn, Bool.false_eq_true, if_false, self_lo, h, expectsDebug_true, ok_bind]
  rw [make_of_le (by grind)]
  refine ⟨_, rfl, ?_, ?_, ?_⟩
  · unfold Proper; grind
  · simp only; grind
  · simp only; grind

/-- C17: `max3` succeeds and returns exactly the maxima. -/
theorem C17_max3 (dbg d : Bool) (hs : d = true → LawfulStep T) (a b : Ivl T) (ha : Proper a) (hb : Proper b) :
    ∃ R, max3 dbg d a b = .ok R ∧ ExactMax a b R := by
  have pa : ProperA (Arg.ivl a) := ha
  have pb : ProperA (Arg.ivl b) := hb
  have a1 : (Operand.ident d 0 a).arg.assigned = true := properA_assigned pa
  have b1 : (Operand.ident d 1 b).arg.assigned = true := properA_assigned pb
  have hc : condLt dbg (.ident d 0 a) (.ident d 1 b) =
      .ok (.less (compareLt (.ivl a) (.ivl b)) (.ident d 0 a) (.ident d 1 b)) := by
    simp only [condLt, opLt, a1, b1, Bool.and_self, expectsDebug_true, ok_bind, pure, Except.pure]; rfl
  have hne : compareLt (.ivl a) (.ivl b) ≠ BoolSet.empty :=
    WF.truth_ne (c := .less _ (.ident d 0 a) (.ident d 1 b)) ⟨pa, pb, rfl⟩
  have hnot : Cond.mkNot dbg (.less (compareLt (.ivl a) (.ivl b)) (.ident d 0 a) (.ident d 1 b)) =
      .ok (.leq (compareLeq (.ivl b) (.ivl a)) (.ident d 1 b) (.ident d 0 a)) := by
    simp only [Cond.mkNot, notM_ok hne, ok_bind, pure, Except.pure, not_compareLt pa pb]
  have t1 : BoolSet.contains (compareLt (.ivl a) (.ivl b)) true = lt a.lo b.hi := by rw [contains_lt]; simp [ivl_lo, ivl_hi]
  have t2 : BoolSet.contains (compareLeq (.ivl b) (.ivl a)) true = le b.lo a.hi := by rw [contains_leq]; simp [ivl_lo, ivl_hi]
  simp only [max3, hc, hnot, ok_bind, Cond.truth, BoolSet.possibly, t1, t2]
  unfold Proper at ha hb
  cases h1 : lt a.lo b.hi with
  | false =>
    cases h2 : le b.lo a.hi with
    | false => exfalso; grind
    | true =>
      obtain ⟨r, e1, e2, e3, e4⟩ := branch_ge (dbg := dbg) (d := d) ha h2 _ (t2.trans h2)
      obtain ⟨R, g1, g2, g3⟩ := assign_first e2
      simp only [Bool.false_eq_true, if_false, if_true, ok_bind, e1, g1, pure, Except.pure]
      exact ⟨R, rfl, exactMax_of ha hb (by grind) (by grind)⟩
  | true =>
    obtain ⟨r, e1, e2, e3, e4, e5⟩ := branch_lt (dbg := dbg) hs hb h1 _ (t1.trans h1)
    obtain ⟨R, g1, g2, g3⟩ := assign_first e2
    cases h2 : le b.lo a.hi with
    | false =>
      simp only [Bool.false_eq_true, if_false, if_true, ok_bind, e1, g1, pure, Except.pure]
      exact ⟨R, rfl, exactMax_of ha hb (by grind) (by grind)⟩
    | true =>
      obtain ⟨r', e1', e2', e3', e4'⟩ := branch_ge (dbg := dbg) (d := d) ha h2 _ (t2.trans h2)
      simp only [if_true, ok_bind, e1, g1, e1', assign_next e2', pure, Except.pure]
      exact ⟨_, rfl, exactMax_of ha hb (lo_min g2 e4 e4') (hi_max g3 e3 e3')⟩

/-- C17: `imax` / `maxG` succeed and return exactly the maxima. -/
theorem C17_imax (dbg d : Bool) (hs : d = true → LawfulStep T) (a b : Ivl T) (ha : Proper a) (hb : Proper b) :
    ∃ R, imax dbg d a b = .ok R ∧ ExactMax a b R := by
  have pa : ProperA (Arg.ivl a) := ha
  have pb : ProperA (Arg.ivl b) := hb
  have a1 : (Operand.ident d 0 a).arg.assigned = true := properA_assigned pa
  have b1 : (Operand.ident d 1 b).arg.assigned = true := properA_assigned pb
  have hc : condGe dbg (.ident d 0 a) (.ident d 1 b) =
      .ok (.leq (compareLeq (.ivl b) (.ivl a)) (.ident d 1 b) (.ident d 0 a)) := by
    simp only [condGe, opGe, a1, b1, Bool.and_self, expectsDebug_true, ok_bind, pure, Except.pure]; rfl
  have hne : compareLeq (.ivl b) (.ivl a) ≠ BoolSet.empty :=
    WF.truth_ne (c := .leq _ (.ident d 1 b) (.ident d 0 a)) ⟨pb, pa, rfl⟩
  have hnot : Cond.mkNot dbg (.leq (compareLeq (.ivl b) (.ivl a)) (.ident d 1 b) (.ident d 0 a)) =
      .ok (.less (compareLt (.ivl a) (.ivl b)) (.ident d 0 a) (.ident d 1 b)) := by
    simp only [Cond.mkNot, notM_ok hne, ok_bind, pure, Except.pure, not_compareLeq pb pa]
  have t1 : BoolSet.contains (compareLt (.ivl a) (.ivl b)) true = lt a.lo b.hi := by rw [contains_lt]; simp [ivl_lo, ivl_hi]
  have t2 : BoolSet.contains (compareLeq (.ivl b) (.ivl a)) true = le b.lo a.hi := by rw [contains_leq]; simp [ivl_lo, ivl_hi]
  have t3 : BoolSet.contains (compareLeq (.ivl b) (.ivl a)) false = lt a.lo b.hi := by
    rw [contains_leq]; simp only [ivl_lo, ivl_hi, Bool.false_eq_true, if_false]; rfl
  simp only [imax, hc, hnot, ok_bind, Cond.truth, BoolSet.possibly, BoolSet.possiblyNot, t2, t3]
  unfold Proper at ha hb
  cases h1 : lt a.lo b.hi with
  | false =>
    cases h2 : le b.lo a.hi with
    | false => exfalso; grind
    | true =>
      obtain ⟨r, e1, e2, e3, e4⟩ := branch_ge (dbg := dbg) (d := d) ha h2 _ (t2.trans h2)
      obtain ⟨R, g1, g2, g3⟩ := assign_first e2
      simp only [Bool.false_eq_true, if_false, if_true, ok_bind, e1, g1, pure, Except.pure]
      exact ⟨R, rfl, exactMax_of ha hb (by grind) (by grind)⟩
  | true =>
    obtain ⟨r, e1, e2, e3, e4, e5⟩ := branch_lt (dbg := dbg) hs hb h1 _ (t1.trans h1)
    cases h2 : le b.lo a.hi with
    | false =>
      obtain ⟨R, g1, g2, g3⟩ := assign_first e2
      simp only [Bool.false_eq_true, if_false, if_true, ok_bind, e1, g1, pure, Except.pure]
      exact ⟨R, rfl, exactMax_of ha hb (by grind) (by grind)⟩
    | true =>
      obtain ⟨r', e1', e2', e3', e4'⟩ := branch_ge (dbg := dbg) (d := d) ha h2 _ (t2.trans h2)
      obtain ⟨R, g1, g2, g3⟩ := assign_first e2'
      simp only [if_true, ok_bind, e1, g1, e1', assign_next e2, pure, Except.pure]
      exact ⟨_, rfl, exactMax_of ha hb (lo_min' g2 e4 e4') (hi_max' g3 e3' e3)⟩

/-- C17: the unconstrained variants `imax0` and `maxG0` succeed and enclose the maxima; the upper bound is exact. -/
theorem C17_imax0 (dbg d : Bool) (a b : Ivl T) (ha : Proper a) (hb : Proper b) :
    ∃ R, imax0 dbg d a b = .ok R ∧ maxG0 dbg d a b = .ok R ∧ EnclosesMax a b R ∧ eq R.hi (cmax a.hi b.hi) = true := by
  have pa : ProperA (Arg.ivl a) := ha
  have pb : ProperA (Arg.ivl b) := hb
  have a1 : (Operand.ident d 0 a).arg.assigned = true := properA_assigned pa
  have b1 : (Operand.ident d 1 b).arg.assigned = true := properA_assigned pb
  have hc : condGe dbg (.ident d 0 a) (.ident d 1 b) =
      .ok (.leq (compareLeq (.ivl b) (.ivl a)) (.ident d 1 b) (.ident d 0 a)) := by
    simp only [condGe, opGe, a1, b1, Bool.and_self, expectsDebug_true, ok_bind, pure, Except.pure]; rfl
  have t2 : BoolSet.contains (compareLeq (.ivl b) (.ivl a)) true = le b.lo a.hi := by rw [contains_leq]; simp [ivl_lo, ivl_hi]
  have t3 : BoolSet.contains (compareLeq (.ivl b) (.ivl a)) false = lt a.lo b.hi := by
    rw [contains_leq]; simp only [ivl_lo, ivl_hi, Bool.false_eq_true, if_false]; rfl
  simp only [imax0, maxG0, hc, ok_bind, Cond.truth, BoolSet.possibly, BoolSet.possiblyNot, t2, t3]
  obtain ⟨A, g1, g2, g3⟩ := assign_first ha
  obtain ⟨B, k1, k2, k3⟩ := assign_first hb
  have g4 := assign_next (x := A) hb
  unfold Proper at ha hb
  unfold EnclosesMax Pt
  cases h1 : lt a.lo b.hi with
  | false =>
    cases h2 : le b.lo a.hi with
    | false => exfalso; grind
    | true =>
      simp only [Bool.false_eq_true, if_false, if_true, ok_bind, g1, pure, Except.pure]
      exact ⟨A, rfl, rfl, by grind, by grind⟩
  | true =>
    cases h2 : le b.lo a.hi with
    | false =>
      simp only [Bool.false_eq_true, if_false, if_true, ok_bind, k1, pure, Except.pure]
      exact ⟨B, rfl, rfl, by grind, by grind⟩
    | true =>
      simp only [if_true, ok_bind, g1, g4, pure, Except.pure]
      exact ⟨_, rfl, rfl, by clear k1 k2 k3; simp only; grind, hi_max' g3 (by grind) (by grind)⟩

/-- C17: `max3` on scalars returns the larger argument and never fails. -/
theorem C17_max3_scalar (zero a b : T) (ha : NotNan a) (hb : NotNan b) :
    ∃ r, max3Scalar zero a b = .ok r ∧ le a r = true ∧ le b r = true ∧ (r = a ∨ r = b) := by
  unfold NotNan at *
  unfold max3Scalar
  cases h : lt a b
  · exact ⟨a, by simp [pure, Except.pure], by grind, by grind, Or.inl rfl⟩
  · exact ⟨b, by simp [pure, Except.pure], by grind, by grind, Or.inr rfl⟩

/-! Non-vacuity: the examples of the README and of the tests. -/
example : imax true true (⟨i32 0, i32 4⟩ : Ivl (SInt 31)) ⟨i32 1, i32 2⟩ = .ok ⟨i32 1, i32 4⟩ ∧
    imax0 true true (⟨i32 0, i32 4⟩ : Ivl (SInt 31)) ⟨i32 1, i32 2⟩ = .ok ⟨i32 0, i32 4⟩ ∧
    max3 true true (⟨i32 0, i32 4⟩ : Ivl (SInt 31)) ⟨i32 1, i32 2⟩ = .ok ⟨i32 1, i32 4⟩ ∧
    Proper (⟨i32 0, i32 4⟩ : Ivl (SInt 31)) := by decide

end Intervals.Props
