import Verif.Spec.RealExpr
/-!
# Regular expressions: continuous functions, applied where they are defined; expressions that use no variable twice
-/
namespace Intervals.Spec
open Intervals CppVal

/-- the functions that jump somewhere in their domain: `floor`, `ceil`, `round` -/
def UnOp.Jumps (op : UnOp) : Prop := op = .floor ∨ op = .ceil ∨ op = .round

/-- The expression uses no function that jumps, and every function in it is defined at all points of the intervals it is applied to in the
evaluation with `X`; the base of a power is positive. -/
def RExpr.Regular [Fmt ℝ] (dbg : Bool) (X : Nat → Ivl (Fl ℝ)) : RExpr → Prop
  | var _ => True
  | un op e => e.Regular dbg X ∧ ¬ op.Jumps
  | fn op e => e.Regular dbg X ∧ op ≠ .frac ∧ ∀ R, e.ivl dbg X = .ok R → ∀ x : ℝ, .num x ∈ᵢ R → (op.real x).isSome
  | bin op e₁ e₂ => e₁.Regular dbg X ∧ e₂.Regular dbg X ∧ ∀ R S, e₁.ivl dbg X = .ok R → e₂.ivl dbg X = .ok S →
      ∀ x y : ℝ, .num x ∈ᵢ R → .num y ∈ᵢ S → (op.real x y).isSome ∧ (op = .pow → 0 < x)
  | binL op c e => e.Regular dbg X ∧ ∀ R, e.ivl dbg X = .ok R → ∀ y : ℝ, .num y ∈ᵢ R → (op.real c y).isSome ∧ (op = .pow → 0 < c)
  | binR op e c => e.Regular dbg X ∧ ∀ R, e.ivl dbg X = .ok R → ∀ x : ℝ, .num x ∈ᵢ R → (op.real x c).isSome ∧ (op = .pow → 0 < x)

/-- the function is continuously differentiable at `x` -/
def FnOp.SmoothAt : FnOp → ℝ → Prop
  | .sqrt, x => x ≠ 0
  | .cbrt, x => x ≠ 0
  | .asin, x => x ≠ -1 ∧ x ≠ 1
  | .acos, x => x ≠ -1 ∧ x ≠ 1
  | _, _ => True

/-- no root is taken of an interval that contains zero, and no inverse sine or cosine of an interval that contains 1 or -1 -/
def RExpr.Smooth [Fmt ℝ] (dbg : Bool) (X : Nat → Ivl (Fl ℝ)) : RExpr → Prop
  | var _ => True
  | un _ e => e.Smooth dbg X
  | fn op e => e.Smooth dbg X ∧ ∀ R, e.ivl dbg X = .ok R → ∀ x : ℝ, .num x ∈ᵢ R → op.SmoothAt x
  | bin _ e₁ e₂ => e₁.Smooth dbg X ∧ e₂.Smooth dbg X
  | binL _ _ e => e.Smooth dbg X
  | binR _ e _ => e.Smooth dbg X

/-- the function is defined and continuously differentiable around `x` -/
def FnOp.StableAt : FnOp → ℝ → Prop
  | .sqrt, x => 0 < x
  | .cbrt, x => x ≠ 0
  | .log, x => 0 < x
  | .exp, _ => True
  | .asin, x => -1 < x ∧ x < 1
  | .acos, x => -1 < x ∧ x < 1
  | .atan, _ => True
  | .cos, _ => True
  | .sin, _ => True
  | .tan, x => Real.cos x ≠ 0
  | .frac, _ => False
/-- the operation is defined around `(x, y)`; the base of a power is positive -/
def Op2.StableAt : Op2 → ℝ → ℝ → Prop
  | .arith .div, _, y => y ≠ 0
  | .arith _, _, _ => True
  | .atan2, y, x => y ≠ 0 ∨ 0 < x
  | .pow, x, _ => 0 < x
/-- Every function is applied to intervals in the interior of its domain; there are no functions that jump. -/
def RExpr.Stable [Fmt ℝ] (dbg : Bool) (X : Nat → Ivl (Fl ℝ)) : RExpr → Prop
  | var _ => True
  | un op e => e.Stable dbg X ∧ ¬ op.Jumps
  | fn op e => e.Stable dbg X ∧ ∀ R, e.ivl dbg X = .ok R → ∀ x : ℝ, .num x ∈ᵢ R → op.StableAt x
  | bin op e₁ e₂ => e₁.Stable dbg X ∧ e₂.Stable dbg X ∧ ∀ R S, e₁.ivl dbg X = .ok R → e₂.ivl dbg X = .ok S →
      ∀ x y : ℝ, .num x ∈ᵢ R → .num y ∈ᵢ S → op.StableAt x y
  | binL op c e => e.Stable dbg X ∧ ∀ R, e.ivl dbg X = .ok R → ∀ y : ℝ, .num y ∈ᵢ R → op.StableAt c y
  | binR op e c => e.Stable dbg X ∧ ∀ R, e.ivl dbg X = .ok R → ∀ x : ℝ, .num x ∈ᵢ R → op.StableAt x c

/-- a format that represents 1, and every number up to `M` with an error of at most `u` -/
def Accurate (F : Fmt ℝ) (u M : ℝ) : Prop := F.rnd 1 = .num 1 ∧ ∀ k : ℝ, |k| ≤ M → (F.rnd k).isFinite = true ∧ |(F.rnd k).val - k| ≤ u

/-- the variables of the expression, once for every use -/
def RExpr.vars : RExpr → List Nat
  | var i => [i]
  | un _ e => e.vars
  | fn _ e => e.vars
  | bin _ e₁ e₂ => e₁.vars ++ e₂.vars
  | binL _ _ e => e.vars
  | binR _ e _ => e.vars

/-- no variable is used twice -/
def RExpr.SingleUse (e : RExpr) : Prop := e.vars.Nodup

/-- a point of the box -/
def InBox (κ : Nat → ℝ) (X : Nat → Ivl (Fl ℝ)) : Prop := ∀ i, .num (κ i) ∈ᵢ X i
/-- a box with finite sides -/
def FiniteBox (X : Nat → Ivl (Fl ℝ)) : Prop := ∀ i, FiniteI (X i)
/-- the width of an interval with finite bounds -/
noncomputable def width (R : Ivl (Fl ℝ)) : ℝ := R.hi.val - R.lo.val
end Intervals.Spec
