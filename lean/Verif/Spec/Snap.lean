import Verif.Spec.Algorithm
/-!
# Specification vocabulary for snapping to a grid
-/
namespace Intervals.Spec
open Intervals CppVal

variable {T : Type} [CppVal T]
/-- `e` is the least element of `a` that is at least `v` -/
def LeastAbove (a : List T) (v e : T) : Prop := e ∈ a ∧ le v e = true ∧ ∀ u ∈ a, le v u = true → le e u = true
/-- `e` is the greatest element of `a` that is at most `v` -/
def GreatestBelow (a : List T) (v e : T) : Prop := e ∈ a ∧ le e v = true ∧ ∀ u ∈ a, le u v = true → le u e = true
end Intervals.Spec
