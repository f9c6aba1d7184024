import Verif.Model.ConstraintStale
import Verif.Spec.ConstraintMixed
/-!
# Conditions used after the interval has been narrowed
-/
namespace Intervals.Spec
open CppVal
/-- `<`, `<=`, `>`, `>=` -/
def orderX : XRel → Bool
  | .xLess | .lessX | .xLeq | .leqX => true
  | _ => false
/-- `x` is part of `x₀` -/
def Inside {T : Type} [CppVal T] (x x₀ : Ivl T) : Prop := ∀ u, u ∈ᵢ x → u ∈ᵢ x₀
/-- C110 for single comparisons: a comparison formed before the interval was narrowed constrains like the same comparison formed now. -/
def C110_full {V T : Type} [CppVal V] [CppNum V] [CppVal T] [CppNum T] [CppStep T] (cv : V → T) (pr su : V → Outcome V) (d : Bool) : Prop :=
  ∀ (dbg : Bool) (x₀ x : Ivl T) (r : Arg V) (k : XRel), Proper x₀ → Proper x → ProperA r → Inside x x₀ →
    constrainOld cv pr su d dbg x₀ x r k = constrainM cv pr su d dbg x r k
end Intervals.Spec
