import Verif.Model.Arith
import Verif.Lemmas.CSet
import Verif.Lemmas.Val
/-! Lemmas on the generic arithmetic templates. -/
namespace Intervals
open CppVal Spec CppNum

theorem sign_contains (s : SignSet) (v : Sign) : CSet.containsVal s v = .ok (decide (SMem v s)) := by
  revert s; cases v <;> decide +kernel

theorem sgn_prog (b1 b2 b3 : Bool) : ∃ R : SignSet,
    (do let r := CSet.empty Sign.vals
        let r ← if b1 then CSet.assignVal r .pos else pure r
        let r ← if b2 then CSet.assignVal r .neg else pure r
        let r ← if b3 then CSet.assignVal r .zero else pure r
        return r : Outcome SignSet) = .ok R ∧
    (SMem .pos R ↔ b1 = true) ∧ (SMem .neg R ↔ b2 = true) ∧ (SMem .zero R ↔ b3 = true) := by
  cases b1 <;> cases b2 <;> cases b3 <;> exact ⟨_, rfl, by decide, by decide, by decide⟩

variable {T : Type _} [CppVal T] [CppNum T]
theorem sgnI_spec (dbg : Bool) (X : Ivl T) (h : X.assigned = true) : ∃ R : SignSet, sgnI dbg X = .ok R ∧
    (SMem .pos R ↔ gt X.hi zero = true) ∧ (SMem .neg R ↔ lt X.lo zero = true) ∧
    (SMem .zero R ↔ (le X.lo zero && ge X.hi zero) = true) := by
  unfold sgnI
  rw [h, expectsDebug_true]
  exact sgn_prog _ _ _

/-- what the product of a sign set and an interval computes -/
theorem signSetMulI_spec [CppLimits T] (dbg : Bool) (s : SignSet) (y : Ivl T) :
    signSetMulI dbg s y =
      ((if SMem .pos s then Ivl.assign Ivl.unassigned y else pure Ivl.unassigned) >>= fun r =>
      (if SMem .neg s then (negI dbg y >>= fun m => Ivl.assign r m) else pure r) >>= fun r =>
      if SMem .zero s then pure (Ivl.assignVal r zero) else pure r) := by
  unfold signSetMulI
  simp only [sign_contains, ok_bind, decide_eq_true_eq]
  split <;> split <;> split <;> simp only [bind_assoc, pure_bind, bind_pure]
theorem valMulSignSet_spec [CppLimits T] (s : SignSet) (v : T) :
    valMulSignSet v s = (do
      let r := if SMem .pos s then Ivl.assignVal Ivl.unassigned v else Ivl.unassigned
      let r := if SMem .zero s then Ivl.assignVal r zero else r
      if SMem .neg s then (do pure (Ivl.assignVal r (← neg v))) else pure r) := by
  unfold valMulSignSet
  simp only [sign_contains, ok_bind, decide_eq_true_eq]
  split <;> split <;> split <;> simp [pure, Except.pure]
end Intervals
