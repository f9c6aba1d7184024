import Verif.Spec.Constraint
import Verif.Model.ConstraintMixed
/-!
# Specification vocabulary for `constrain` with operands of two value types
-/
namespace Intervals.Spec
open Intervals CppVal
variable {V T : Type _} [CppVal V] [CppVal T]

/-- the comparison of two values that the condition states; `u` stands for the interval, `w` for the converted other operand -/
def holdsX (k : XRel) (u w : T) : Bool := match k with
  | .xLess => lt u w
  | .lessX => lt w u
  | .xLeq => le u w
  | .leqX => le w u
  | .xEq => eq u w
  | .eqX => eq w u
  | .xNe => ne u w
  | .neX => ne w u

/-- `u` is a value of `x` that satisfies the comparison with some value of `r` -/
def SatX (cv : V → T) (x : Ivl T) (r : Arg V) (k : XRel) (u : T) : Prop := u ∈ᵢ x ∧ ∃ v, v ∈ₐ r ∧ holdsX k u (cv v) = true

/-- the conversion is monotone -/
def MonoCast (cv : V → T) : Prop := ∀ a b, le a b = true → le (cv a) (cv b) = true

/-- `<` and `>` -/
def strictX : XRel → Bool
  | .xLess | .lessX => true
  | _ => false
/-- `==` -/
def equalX : XRel → Bool
  | .xEq | .eqX => true
  | _ => false

/-- the call returns an interval that contains every value that satisfies the comparison -/
def Keeps (cv : V → T) (x : Ivl T) (r : Arg V) (k : XRel) (o : Outcome (Ivl T)) : Prop := ∀ u, SatX cv x r k u → ∃ R, o = .ok R ∧ u ∈ᵢ R
end Intervals.Spec
