import Verif.Model.Val
import Mathlib.Tactic.Common
/-! Order lemmas and grind setup for `CppOrder`. -/
set_option linter.unusedSectionVars false
namespace Intervals
open CppVal
variable {T : Type _} [CppVal T] [CppOrder T]
theorem cle_trans {a b c : T} : le a b = true → le b c = true → le a c = true := CppOrder.le_trans a b c
theorem cle_left {a b : T} : le a b = true → le a a = true := CppOrder.le_left a b
theorem cle_right {a b : T} : le a b = true → le b b = true := CppOrder.le_right a b
theorem clt_def (a b : T) : lt a b = (le a a && le b b && !le b a) := by
  have := CppOrder.lt_iff a b
  cases h1 : lt a b <;> cases h2 : le a a <;> cases h3 : le b b <;> cases h4 : le b a <;> simp_all
theorem ceq_def (a b : T) : eq a b = (le a b && le b a) := by
  have := CppOrder.eq_iff a b
  cases h1 : eq a b <;> cases h2 : le a b <;> cases h4 : le b a <;> simp_all
theorem cle_total {a b : T} (h : le a a = true) (h' : le b b = true) (hf : le a b = false) : le b a = true := by
  rcases CppOrder.le_total a b h h' with h | h
  · rw [h] at hf; cases hf
  · exact h
grind_pattern cle_trans => le a b, le b c
grind_pattern cle_left => le a b
grind_pattern cle_right => le a b
grind_pattern cle_total => le a b
attribute [grind =] clt_def ceq_def
attribute [grind =] cmin cmax gt ge ne

theorem cmin_cases (a b : T) : cmin a b = a ∨ cmin a b = b := by unfold cmin; split <;> simp
theorem cmax_cases (a b : T) : cmax a b = a ∨ cmax a b = b := by unfold cmax; split <;> simp
end Intervals
