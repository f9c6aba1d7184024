import Verif.Lemmas.BinFmt
import Verif.Props.FltArith
/-!
# The floating-point theorems at `double`

C30–C35 are proved for every format `Fmt K`; these examples check that IEEE binary64 (with rounding, overflow and gradual underflow) is one of
them and behaves as `double` does.
-/
namespace Intervals.Props
open Intervals CppVal Spec CppNum

attribute [local instance] binary64Fmt

/-- `0.1`, `0.2` and `0.3` as `double` -/
def d01 : Fl ℚ := Fmt.rnd (1/10)
def d02 : Fl ℚ := Fmt.rnd (2/10)
def d03 : Fl ℚ := Fmt.rnd (3/10)

-- 0.1 is 3602879701896397 * 2^-55; 0.1 + 0.2 is not 0.3
example : d01 = .num (3602879701896397 / 2^55) := by decide +kernel
example : Fl.add d01 d02 = .num (5404319552844596 / 2^54) ∧ d03 = .num (5404319552844595 / 2^54) := by decide +kernel
-- overflow and gradual underflow
example : Fl.mul (.num (2^1023) : Fl ℚ) (.num 2) = .pinf := by decide +kernel
example : Fl.div (.num (1/2^1074) : Fl ℚ) (.num (-2)) = .nzero := by decide +kernel
example : Fl.mul (.num (1/2^1074) : Fl ℚ) (.num (3/4)) = .num (1/2^1074) := by decide +kernel
-- C30, C31 apply to `double`
example : FloatExact2 Fl.add (.ivl ⟨d01, d02⟩) (.ivl ⟨d02, d03⟩) (addI true (.ivl ⟨d01, d02⟩) (.ivl ⟨d02, d03⟩)) :=
  C30_add true _ _ (by decide +kernel) (by decide +kernel)
example : mulI (T := Fl ℚ) true (.ivl ⟨d01, d02⟩) (.ivl ⟨.num (-(2^1023)), .num (2^1023)⟩) =
    .ok ⟨Fl.mul d02 (.num (-(2^1023))), Fl.mul d02 (.num (2^1023))⟩ := by decide +kernel

end Intervals.Props
