import Verif.Spec.PropagateMixed
/-!
# Variables of one floating-point type, and statements that make progress (C111)
-/
namespace Intervals.Spec
open Intervals CppVal

/-- intervals of one value type whose values are neither converted nor stepped (`float`, `double`) -/
def unsteppedTypes {ι : Type} (U : Type) [CppStep U] : ValueTypes (fun _ : ι => U) where
  disc := fun _ => false
  cv := fun _ _ v => v
  pr := fun _ => predStep false
  su := fun _ => succStep false

/-- every statement of the sequence changes a bound -/
def EachChanges {ι : Type} [DecidableEq ι] {T : ι → Type} [∀ i, CppVal (T i)] [∀ i, CppNum (T i)] [∀ i, CppStep (T i)] (E : ValueTypes T) (dbg : Bool) : List (MNarrowing T) → (∀ i, Ivl (T i)) → Prop
  | [], _ => True
  | a :: as, S => ∃ S', a.exec E dbg S = .ok S' ∧ ¬ SameBoundsM S' S ∧ EachChanges E dbg as S'
end Intervals.Spec
