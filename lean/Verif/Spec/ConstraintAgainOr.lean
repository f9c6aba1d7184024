import Verif.Spec.ConstraintAgain
/-!
# Disjunctions that can be used again (C105)
-/
namespace Intervals.Spec
open Intervals CppVal

/-- The condition is a conjunction that mentions the interval and is satisfied by one of its values, or a disjunction of such conditions. -/
def EachPossible {ι : Type} {V : ι → Type} {T : Type} [∀ i, CppVal (V i)] [CppVal T] (E : OperandTypes V T) (x : Ivl T) : MExpr V → Prop
  | .or e f => EachPossible E x e ∧ EachPossible E x f
  | e => e.Conj true ∧ e.Mentions = true ∧ ∃ u, u ∈ᵢ x ∧ e.Sat E u true
end Intervals.Spec
