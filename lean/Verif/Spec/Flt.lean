import Verif.Model.FltArith
import Verif.Model.Sign
import Verif.Spec.Interval
/-!
# Specification of floating-point interval functions
-/
namespace Intervals.Spec
open Intervals CppVal

variable {K : Type} [Field K] [LinearOrder K]

/-- `res` is the exact result of the point operation `f` on the operands: the NaN interval if and only if some point operation is
indefinite (NaN); otherwise an interval that contains every point result and both of whose bounds are point results. -/
def FloatExact2 (f : Fl K → Fl K → Fl K) (X Y : Arg (Fl K)) (res : Outcome (Ivl (Fl K))) : Prop :=
  ((∃ a b, a ∈ₐ X ∧ b ∈ₐ Y ∧ f a b = .nan) ∧ res = .ok ⟨.nan, .nan⟩) ∨
  ((∀ a b, a ∈ₐ X → b ∈ₐ Y → f a b ≠ .nan) ∧ ∃ R, res = .ok R ∧
    (∀ a b, a ∈ₐ X → b ∈ₐ Y → f a b ∈ᵢ R) ∧
    (∃ a b, a ∈ₐ X ∧ b ∈ₐ Y ∧ f a b = R.lo) ∧
    (∃ a b, a ∈ₐ X ∧ b ∈ₐ Y ∧ f a b = R.hi))

/-- `res` is the NaN interval if and only if some point operation is indefinite; otherwise it is a proper interval that contains every
point result whose second operand is in `D`. -/
def FloatIncl2 (f : Fl K → Fl K → Fl K) (D : Fl K → Prop) (X Y : Arg (Fl K)) (res : Outcome (Ivl (Fl K))) : Prop :=
  ((∃ a b, a ∈ₐ X ∧ b ∈ₐ Y ∧ f a b = .nan) ∧ res = .ok ⟨.nan, .nan⟩) ∨
  ((∀ a b, a ∈ₐ X → b ∈ₐ Y → f a b ≠ .nan) ∧ ∃ R, res = .ok R ∧ Proper R ∧
    (∀ a b, a ∈ₐ X → b ∈ₐ Y → D b → f a b ∈ᵢ R))

/-- A zero bound of an operand that has points on one side of zero is `+0` below positive points and `-0` above negative points. -/
def ZeroSignOk (Y : Arg (Fl K)) : Prop :=
  (eq Y.lo (.num 0) = true → lt (.num 0) Y.hi = true → Y.lo = .num 0) ∧
  (eq Y.hi (.num 0) = true → lt Y.lo (.num 0) = true → Y.hi = .nzero)

/-- `FloatExact2` for a unary point function that is never indefinite on numbers. -/
def FloatExact1 (f : Fl K → Fl K) (X : Ivl (Fl K)) (res : Outcome (Ivl (Fl K))) : Prop :=
  ∃ R, res = .ok R ∧ (∀ a, a ∈ᵢ X → f a ∈ᵢ R) ∧ (∃ a, a ∈ᵢ X ∧ f a = R.lo) ∧ (∃ a, a ∈ᵢ X ∧ f a = R.hi)

/-- `FloatExact1` with bounds attained in value (`==`): a zero bound may have either sign. -/
def FloatExactV1 (f : Fl K → Fl K) (X : Ivl (Fl K)) (res : Outcome (Ivl (Fl K))) : Prop :=
  ∃ R, res = .ok R ∧ (∀ a, a ∈ᵢ X → f a ∈ᵢ R) ∧ (∃ a, a ∈ᵢ X ∧ eq (f a) R.lo = true) ∧ (∃ a, a ∈ᵢ X ∧ eq (f a) R.hi = true)

/-- sign of a floating-point number (both zeros have sign 0) -/
def sgnFl : Fl K → Sign
  | .nan => .zero
  | .ninf => .neg
  | .pinf => .pos
  | .nzero => .zero
  | .num k => if k < 0 then .neg else if 0 < k then .pos else .zero

/-- multiplication by a sign (with `0 * inf = 0`) -/
def signMulFl (s : Sign) (a : Fl K) : Fl K := match s with
  | .neg => Fl.neg a
  | .zero => .num 0
  | .pos => a

end Intervals.Spec
