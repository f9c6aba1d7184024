import Verif.Model.FltArith
/-!
# Specification vocabulary for the interpolation examples
-/
namespace Intervals.Spec
open Intervals CppVal
variable {K : Type} [Field K] [LinearOrder K] [Fmt K]

/-- what makes the interpolation formula of one cell `x0 < x1` definite: the table values are numbers, the width of the cell is computed as
a positive number, the difference of the values as a number, and 1 does not round to infinity. -/
structure CellOk (x0 x1 y0 y1 : Fl K) : Prop where
  fx0 : x0.isFinite = true
  fx1 : x1.isFinite = true
  fy0 : y0.isFinite = true
  fdx : (Fl.sub x1 x0).isFinite = true
  pos : lt (.num 0) (Fl.sub x1 x0) = true
  fdy : (Fl.sub y1 y0).isFinite = true
  one : (Fmt.rnd (1 : K)).isFinite = true

/-- every cell of the table is `CellOk` -/
def TableOk (xs ys : List (Fl K)) : Prop := ∀ (j : Nat) (x0 x1 y0 y1 : Fl K), xs[j]? = some x0 → xs[j + 1]? = some x1 → ys[j]? = some y0 →
  ys[j + 1]? = some y1 → CellOk x0 x1 y0 y1
end Intervals.Spec
