import Verif.Model.Elem
import Mathlib.Analysis.SpecialFunctions.Trigonometric.Arctan
import Mathlib.Analysis.SpecialFunctions.Complex.Arg
import Mathlib.Analysis.SpecialFunctions.Pow.Real
import Mathlib.Analysis.SpecialFunctions.Log.Basic
/-!
# A correctly rounded `<cmath>` over the reals

The reference implementation of `Libm`: the exact real function, rounded to the format; special values as in C17 Annex F.10.  With `exactFmt ℝ`
it is exact real arithmetic.  Not part of the library; used to instantiate the theorems that are parametric in `Libm`.
-/
namespace Intervals
open CppVal

/-- real cube root -/
noncomputable def realCbrt (k : ℝ) : ℝ := if k < 0 then -((-k) ^ ((1:ℝ)/3)) else k ^ ((1:ℝ)/3)

section
variable [Fmt ℝ]
/-- a rounded result whose sign bit is `s` -/
noncomputable def rndS (s : Bool) (k : ℝ) : Fl ℝ := if s then Fmt.rnd (-k) else Fmt.rnd k

/-- `std::atan2` (C17 F.10.1.4) -/
noncomputable def atan2R (y x : Fl ℝ) : Fl ℝ :=
  if y.isNan || x.isNan then .nan
  else if y.isInf then
    rndS y.signBit (if x.isInf then (if x.signBit then 3 * Real.pi / 4 else Real.pi / 4) else Real.pi / 2)
  else if x.isInf then (if x.signBit then rndS y.signBit Real.pi else Fl.zeroS y.signBit)
  else if y.isZero then (if x.signBit then rndS y.signBit Real.pi else Fl.zeroS y.signBit)
  else Fmt.rnd (Complex.arg ⟨x.val, y.val⟩)

/-- correctly rounded `<cmath>` (C17 Annex F.10) -/
noncomputable instance realLibm : Libm ℝ where
  sqrt
    | .num k => if k < 0 then .nan else Fmt.rnd (Real.sqrt k)
    | .nzero => .nzero
    | .pinf => .pinf
    | _ => .nan
  cbrt
    | .num k => Fmt.rnd (realCbrt k)
    | a => a
  log
    | .num k => if k < 0 then .nan else if k = 0 then .ninf else Fmt.rnd (Real.log k)
    | .nzero => .ninf
    | .pinf => .pinf
    | _ => .nan
  exp
    | .num k => Fmt.rnd (Real.exp k)
    | .nzero => Fmt.rnd 1
    | .pinf => .pinf
    | .ninf => .num 0
    | .nan => .nan
  cos
    | .num k => Fmt.rnd (Real.cos k)
    | .nzero => Fmt.rnd 1
    | _ => .nan
  tan
    | .num k => if Real.cos k = 0 then .nan else Fmt.rnd (Real.tan k)
    | .nzero => .nzero
    | _ => .nan
  asin
    | .num k => if -1 ≤ k ∧ k ≤ 1 then Fmt.rnd (Real.arcsin k) else .nan
    | .nzero => .nzero
    | _ => .nan
  acos
    | .num k => if -1 ≤ k ∧ k ≤ 1 then Fmt.rnd (Real.arccos k) else .nan
    | .nzero => Fmt.rnd (Real.pi / 2)
    | _ => .nan
  atan
    | .num k => Fmt.rnd (Real.arctan k)
    | .nzero => .nzero
    | .pinf => Fmt.rnd (Real.pi / 2)
    | .ninf => Fmt.rnd (-(Real.pi / 2))
    | .nan => .nan
  atan2 := atan2R
  pi := Fmt.rnd Real.pi
end
end Intervals
