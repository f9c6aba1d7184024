import Verif.Lemmas.Val
import Verif.Spec.Constraint
import Verif.Props.IntArith
import Verif.Props.Basic
import Mathlib.Data.Rat.Floor
/-!
# C66: comparisons with an interval in the invalid state, without debug checks

README.md:343–345: `U < V` is the empty set if at least one argument is in the invalid state.
-/
set_option linter.unusedSectionVars false
namespace Intervals.Props
open Intervals Intervals.Spec CppVal
variable {T : Type _} [CppVal T] [CppOrder T] [CppLimits T] [CppLawfulLimits T]

/-- the comparison operators of intervals in a build without debug checks -/
def opOf : CmpOp → Arg T → Arg T → Outcome BoolSet
  | .eq => opEq false | .ne => opNe false | .lt => opLt false | .le => opLe false | .gt => opGt false | .ge => opGe false

/-- The full claim: any comparison with an invalid operand is the empty set. -/
def C66_full (T : Type _) [CppVal T] [CppLimits T] : Prop :=
  ∀ (op : CmpOp) (Y : Arg T), (Y = .ivl Ivl.unassigned ∨ ProperA Y) →
    opOf op (.ivl Ivl.unassigned) Y = .ok BoolSet.empty ∧ opOf op Y (.ivl Ivl.unassigned) = .ok BoolSet.empty

/-- The smallest or the largest value of the type is in the operand. -/
def HasExtreme (Y : Arg T) : Prop := eq Y.lo CppLimits.bot = true ∨ eq Y.hi CppLimits.top = true

theorem properA_le {Y : Arg T} (h : ProperA Y) : le Y.lo Y.hi = true := by cases Y <;> exact h

theorem bot_top : le (CppLimits.bot : T) CppLimits.top = true ∧ le (CppLimits.top : T) CppLimits.bot = false ∧
    le (CppLimits.top : T) CppLimits.top = true ∧ le (CppLimits.bot : T) CppLimits.bot = true := by
  have := (CppOrder.lt_iff _ _).mp (CppLawfulLimits.bot_lt_top (T := T))
  grind

/-- C66: the four ordering operators return the empty set for every operand that does not reach the limits of the type, and for two invalid operands. -/
theorem C66_order_partial (op : CmpOp) (hop : op ≠ .eq ∧ op ≠ .ne) (Y : Arg T) (hY : Y = .ivl Ivl.unassigned ∨ (ProperA Y ∧ ¬ HasExtreme Y)) :
    opOf op (.ivl Ivl.unassigned) Y = .ok BoolSet.empty ∧ opOf op Y (.ivl Ivl.unassigned) = .ok BoolSet.empty := by
  obtain ⟨h1, h2, h3, h4⟩ := bot_top (T := T)
  have hl : ∀ a b : T, lt a b = true ↔ le a a = true ∧ le b b = true ∧ le b a = false := CppOrder.lt_iff
  have fin : ∀ {a b : T}, le a b = true → ¬ (eq a CppLimits.bot = true ∨ eq b CppLimits.top = true) →
      le CppLimits.top b = false ∧ le a CppLimits.bot = false ∧ le a CppLimits.top = true ∧ le CppLimits.bot b = true ∧ le CppLimits.bot a = true ∧
      le b CppLimits.top = true := by
    intro a b hab hx
    have ha : le a a = true := CppOrder.le_left _ _ hab
    have hb : le b b = true := CppOrder.le_right _ _ hab
    have := CppLawfulLimits.le_top a ha
    have := CppLawfulLimits.le_top b hb
    have := CppLawfulLimits.bot_le a ha
    have := CppLawfulLimits.bot_le b hb
    rw [not_or, CppOrder.eq_iff, CppOrder.eq_iff] at hx
    refine ⟨?_, ?_, ‹_›, ‹_›, ‹_›, ‹_›⟩ <;> grind
  have hl' : ∀ a b : T, lt a b = true → le b a = false := fun a b h => ((hl a b).mp h).2.2
  have key : ∀ a b : T, (a = CppLimits.top ∧ b = CppLimits.bot) ∨ (le CppLimits.top b = false ∧ le a CppLimits.bot = false ∧ le a CppLimits.top = true ∧
      le CppLimits.bot b = true ∧ le CppLimits.bot a = true ∧ le b CppLimits.top = true) →
      lt CppLimits.top b = false ∧ le a CppLimits.bot = false ∧ le CppLimits.top b = false ∧ lt a CppLimits.bot = false := by
    rintro a b (⟨rfl, rfl⟩ | ⟨q1, q2, q3, q4, q5, q6⟩)
    · refine ⟨?_, h2, h2, ?_⟩
      · cases h : lt (CppLimits.top : T) CppLimits.bot
        · rfl
        · have := hl' _ _ h; grind
      · cases h : lt (CppLimits.top : T) CppLimits.bot
        · rfl
        · have := hl' _ _ h; grind
    · refine ⟨?_, q2, q1, ?_⟩
      · cases h : lt (CppLimits.top : T) b
        · rfl
        · have := hl' _ _ h; grind
      · cases h : lt a (CppLimits.bot : T)
        · rfl
        · have := hl' _ _ h; grind
  have key' := key Y.lo Y.hi (by
    rcases hY with rfl | ⟨hp, hx⟩
    · exact .inl ⟨rfl, rfl⟩
    · exact .inr (fin (properA_le hp) hx))
  obtain ⟨k1, k2, k3, k4⟩ := key'
  obtain ⟨n1, n2⟩ := hop
  have lo : (Arg.ivl (Ivl.unassigned : Ivl T)).lo = CppLimits.top := rfl
  have hi : (Arg.ivl (Ivl.unassigned : Ivl T)).hi = CppLimits.bot := rfl
  cases op <;> first | contradiction | skip
  all_goals
    simp [opOf, opLt, opLe, opGt, opGe, compareLt, compareLeq, lo, hi, ge, gt, k1, k2, k3, k4, pure, Except.pure]

/-- Exactly which results the ordering operators give with an invalid operand: the empty set, except `U < Y` and `Y > U` (`{false}`) and `U >= Y` and `Y <= U`
(`{true}`) if `Y` contains the smallest value of the type, and `U <= Y` and `Y >= U` (`{true}`) and `U > Y` and `Y < U` (`{false}`) if it contains the largest. -/
theorem C66_order_exact (Y : Arg T) (hY : Y = .ivl Ivl.unassigned ∨ ProperA Y) :
    let U : Arg T := .ivl Ivl.unassigned
    let orEmpty (c : Bool) (r : Bool) : Outcome BoolSet := .ok (if c then BoolSet.single r else BoolSet.empty)
    let atBot := eq Y.lo CppLimits.bot
    let atTop := eq Y.hi CppLimits.top
    opOf .lt U Y = orEmpty atBot false ∧ opOf .gt Y U = orEmpty atBot false ∧
    opOf .ge U Y = orEmpty atBot true ∧ opOf .le Y U = orEmpty atBot true ∧
    opOf .le U Y = orEmpty atTop true ∧ opOf .ge Y U = orEmpty atTop true ∧
    opOf .gt U Y = orEmpty atTop false ∧ opOf .lt Y U = orEmpty atTop false := by
  obtain ⟨h1, h2, h3, h4⟩ := bot_top (T := T)
  have lo : (Arg.ivl (Ivl.unassigned : Ivl T)).lo = CppLimits.top := rfl
  have hi : (Arg.ivl (Ivl.unassigned : Ivl T)).hi = CppLimits.bot := rfl
  have e : ∀ a b : T, eq a b = (le a b && le b a) := fun a b => by rw [Bool.eq_iff_iff, Bool.and_eq_true]; exact CppOrder.eq_iff a b
  have b1 : le Y.hi CppLimits.top = true := by
    rcases hY with rfl | hp
    · exact h1
    · exact CppLawfulLimits.le_top _ (CppOrder.le_right _ _ (properA_le hp))
  have b2 : le CppLimits.bot Y.lo = true := by
    rcases hY with rfl | hp
    · exact h1
    · exact CppLawfulLimits.bot_le _ (CppOrder.le_left _ _ (properA_le hp))
  have hl' : ∀ a b : T, le a b = true → lt b a = false := fun a b h => by
    cases h' : lt b a
    · rfl
    · have := ((CppOrder.lt_iff b a).mp h').2.2; grind
  have k1 := hl' _ _ b1
  have k2 := hl' _ _ b2
  have s1 : ∀ c : Bool, (if c then BoolSet.assign BoolSet.empty true else BoolSet.empty) = if c then BoolSet.single true else BoolSet.empty := by decide
  have s2 : ∀ c : Bool, (if c then BoolSet.assign BoolSet.empty false else BoolSet.empty) = if c then BoolSet.single false else BoolSet.empty := by decide
  simp only [opOf, opLt, opLe, opGt, opGe, compareLt, compareLeq, lo, hi, ge, gt, k1, k2, e, b1, b2, pure, Except.pure, expectsDebug_release, ok_bind,
    Bool.and_true, Bool.true_and, Bool.false_eq_true, if_false, s1, s2, and_self]

/-- Every operand that reaches the limits of the type gives a non-empty result in some comparison with an invalid operand. -/
theorem C66_order_violated (Y : Arg T) (hY : ProperA Y) (hx : HasExtreme Y) :
    opLt false (.ivl Ivl.unassigned) Y ≠ .ok BoolSet.empty ∨ opLe false (.ivl Ivl.unassigned) Y ≠ .ok BoolSet.empty := by
  have lo : (Arg.ivl (Ivl.unassigned : Ivl T)).lo = CppLimits.top := rfl
  have hi : (Arg.ivl (Ivl.unassigned : Ivl T)).hi = CppLimits.bot := rfl
  have ne1 : ∀ b : Bool, BoolSet.assign (if b then BoolSet.assign BoolSet.empty true else BoolSet.empty) false ≠ BoolSet.empty := by decide
  have ne2 : ∀ b : Bool, (if b then BoolSet.assign (BoolSet.assign BoolSet.empty true) false else BoolSet.assign BoolSet.empty true) ≠ BoolSet.empty := by decide
  rcases hx with hx | hx
  · left
    have h := ((CppOrder.eq_iff _ _).mp hx).1
    simp only [opLt, expectsDebug_release, ok_bind, compareLt, lo, hi, ge, h, if_true, pure, Except.pure, ne_eq, Except.ok.injEq]
    exact ne1 _
  · right
    have h := ((CppOrder.eq_iff _ _).mp hx).2
    simp only [opLe, expectsDebug_release, ok_bind, compareLeq, lo, hi, h, if_true, pure, Except.pure, ne_eq, Except.ok.injEq]
    exact ne2 _

/-- `==` and `!=` never return the empty set: with an invalid operand, `==` is `{false}`, except that it is `{true}` when compared with the interval of all
values of the type. -/
theorem C66_eq_violated (Y : Arg T) (hY : Y = .ivl Ivl.unassigned ∨ ProperA Y) :
    opEq false (.ivl Ivl.unassigned) Y = .ok (BoolSet.single (eq Y.lo CppLimits.bot && eq Y.hi CppLimits.top)) ∧
    opNe false (.ivl Ivl.unassigned) Y = .ok (BoolSet.single (!(eq Y.lo CppLimits.bot && eq Y.hi CppLimits.top))) := by
  obtain ⟨h1, h2, h3, h4⟩ := bot_top (T := T)
  have lo : (Arg.ivl (Ivl.unassigned : Ivl T)).lo = CppLimits.top := rfl
  have hi : (Arg.ivl (Ivl.unassigned : Ivl T)).hi = CppLimits.bot := rfl
  have e : ∀ a b : T, eq a b = (le a b && le b a) := fun a b => by rw [Bool.eq_iff_iff, Bool.and_eq_true]; exact CppOrder.eq_iff a b
  have b1 : le Y.hi CppLimits.top = true := by
    rcases hY with rfl | hp
    · exact h1
    · exact CppLawfulLimits.le_top _ (CppOrder.le_right _ _ (properA_le hp))
  have b2 : le CppLimits.bot Y.lo = true := by
    rcases hY with rfl | hp
    · exact h1
    · exact CppLawfulLimits.bot_le _ (CppOrder.le_left _ _ (properA_le hp))
  simp only [opEq, opNe, expectsDebug_release, ok_bind, compareEq, compareNeq, lo, hi, ge, ne, e, b1, b2, Bool.and_true, Bool.true_and, pure, Except.pure,
    Except.ok.injEq]
  rcases Bool.eq_false_or_eq_true (le CppLimits.top Y.hi) with q1 | q1 <;> rcases Bool.eq_false_or_eq_true (le Y.lo CppLimits.bot) with q2 | q2 <;>
    simp only [q1, q2] <;> decide

theorem C66_violated : ¬ C66_full (SInt 31) := by
  intro h
  have := (h .eq (.scalar (i32 5)) (.inr (by decide))).1
  revert this; decide

/-! Examples: `[3, 7]` does not reach the limits of `int` or of `double`; `[3, inf]` does. -/
example : ProperA (.ivl (⟨i32 3, i32 7⟩ : Ivl (SInt 31))) ∧ ¬ HasExtreme (.ivl (⟨i32 3, i32 7⟩ : Ivl (SInt 31))) := by
  unfold HasExtreme; decide
example : ProperA (.ivl (⟨.num 3, .pinf⟩ : Ivl (Fl ℚ))) ∧ HasExtreme (.ivl (⟨.num 3, .pinf⟩ : Ivl (Fl ℚ))) :=
  ⟨by decide +kernel, .inr (by decide +kernel)⟩
end Intervals.Props
