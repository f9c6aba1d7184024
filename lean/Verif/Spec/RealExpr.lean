import Verif.Spec.Expr
import Verif.Spec.Real
import Verif.Model.RealLibm
/-!
# Expressions with elementary functions: value in the reals and interval evaluation

Subexpressions without variables appear as their value (`binL`, `binR`): a function applied to constants is a scalar computation, not an
interval one.
-/
namespace Intervals.Spec
open Intervals CppVal

/-- elementary functions of one argument -/
inductive FnOp where
  | sqrt | cbrt | log | exp | sin | cos | tan | asin | acos | atan | frac
  deriving DecidableEq, Repr
/-- functions of two arguments -/
inductive Op2 where
  | arith (op : BinOp) | atan2 | pow
  deriving DecidableEq, Repr

/-- an expression with at least one variable -/
inductive RExpr where
  | var (i : Nat)
  | un (op : UnOp) (e : RExpr)
  | fn (op : FnOp) (e : RExpr)
  | bin (op : Op2) (e₁ e₂ : RExpr)
  | binL (op : Op2) (c : ℝ) (e : RExpr)
  | binR (op : Op2) (e : RExpr) (c : ℝ)

open Classical in
/-- the real function, where it is defined -/
noncomputable def FnOp.real : FnOp → ℝ → Option ℝ
  | .sqrt, x => if 0 ≤ x then some (Real.sqrt x) else none
  | .cbrt, x => some (realCbrt x)
  | .log, x => if 0 < x then some (Real.log x) else none
  | .exp, x => some (Real.exp x)
  | .sin, x => some (Real.sin x)
  | .cos, x => some (Real.cos x)
  | .tan, x => if Real.cos x ≠ 0 then some (Real.tan x) else none
  | .asin, x => if -1 ≤ x ∧ x ≤ 1 then some (Real.arcsin x) else none
  | .acos, x => if -1 ≤ x ∧ x ≤ 1 then some (Real.arccos x) else none
  | .atan, x => some (Real.arctan x)
  | .frac, x => some (Int.fract x)
open Classical in
/-- `atan2(y, x)` is the angle of the point `(x, y)`, off the branch cut; a power is defined for a positive base, for the base zero and a
non-negative exponent, and for a negative base and an integral exponent. -/
noncomputable def Op2.real : Op2 → ℝ → ℝ → Option ℝ
  | .arith op, x, y => op.fld x y
  | .atan2, y, x => if y ≠ 0 ∨ 0 < x then some (Complex.arg ⟨x, y⟩) else none
  | .pow, x, y =>
    if 0 < x then some (x ^ y)
    else if x = 0 then (if 0 < y then some 0 else if y = 0 then some 1 else none)
    else if y = (⌊y⌋ : ℝ) then some (x ^ ⌊y⌋) else none

/-- the value of the expression at a point -/
noncomputable def RExpr.val (κ : Nat → ℝ) : RExpr → Option ℝ
  | var i => some (κ i)
  | un op e => do return op.fld (← e.val κ)
  | fn op e => do op.real (← e.val κ)
  | bin op e₁ e₂ => do op.real (← e₁.val κ) (← e₂.val κ)
  | binL op c e => do op.real c (← e.val κ)
  | binR op e c => do op.real (← e.val κ) c

section
variable [Fmt ℝ]
/-- the library's function -/
noncomputable def FnOp.ivl (dbg : Bool) : FnOp → Ivl (Fl ℝ) → Outcome (Ivl (Fl ℝ))
  | .sqrt => sqrtI dbg
  | .cbrt => cbrtI dbg
  | .log => logI dbg
  | .exp => expI dbg
  | .sin => sinI dbg
  | .cos => cosI dbg
  | .tan => tanI dbg
  | .asin => asinI dbg
  | .acos => acosI dbg
  | .atan => atanI dbg
  | .frac => fracI dbg
noncomputable def Op2.ivl (dbg : Bool) : Op2 → Arg (Fl ℝ) → Arg (Fl ℝ) → Outcome (Ivl (Fl ℝ))
  | .arith op => op.ivl dbg
  | .atan2 => atan2I dbg
  | .pow => powI dbg

/-- evaluation with intervals -/
noncomputable def RExpr.ivl (dbg : Bool) (X : Nat → Ivl (Fl ℝ)) : RExpr → Outcome (Ivl (Fl ℝ))
  | var i => .ok (X i)
  | un op e => do op.ivl dbg (← e.ivl dbg X)
  | fn op e => do op.ivl dbg (← e.ivl dbg X)
  | bin op e₁ e₂ => do op.ivl dbg (.ivl (← e₁.ivl dbg X)) (.ivl (← e₂.ivl dbg X))
  | binL op c e => do op.ivl dbg (.scalar (.num c)) (.ivl (← e.ivl dbg X))
  | binR op e c => do op.ivl dbg (.ivl (← e.ivl dbg X)) (.scalar (.num c))
end

/-- The argument interval is in the domain of the function.  For the tangent: it contains no pole, or two points at distance `π`. -/
def FnOp.Dom : FnOp → Ivl (Fl ℝ) → Prop
  | .sqrt, R => le (.num 0) R.lo = true
  | .log, R => le (.num 0) R.lo = true
  | .asin, R => le (.num (-1)) R.lo = true ∧ le R.hi (.num 1) = true
  | .acos, R => le (.num (-1)) R.lo = true ∧ le R.hi (.num 1) = true
  | .tan, R => (∀ x : ℝ, .num x ∈ᵢ R → Real.cos x ≠ 0) ∨ ∃ x : ℝ, .num x ∈ᵢ R ∧ .num (x + Real.pi) ∈ᵢ R
  | _, _ => True
/-- The operands avoid the known defects of division (C32_violated), `min`, `max` (C34_min_violated), `atan2` (C73_atan2), and `pow` (C73_pow_violated); a power has
a non-negative base or a single integral exponent of type `long long`. -/
def Op2.Dom : Op2 → Arg (Fl ℝ) → Arg (Fl ℝ) → Prop
  | .arith .div, A, B => ZeroSignOk B ∨ A.lo = .ninf ∨ A.hi = .pinf
  | .arith .min, _, B => ¬ IsNanA B
  | .arith .max, _, B => ¬ IsNanA B
  | .arith _, _, _ => True
  | .atan2, _, B => ¬ IsNanA B
  | .pow, A, B => ¬ IsNanA A ∧ ¬ IsNanA B ∧
      ((∀ x : ℝ, .num x ∈ₐ A → 0 ≤ x) ∨ ∃ n : ℤ, -2^63 ≤ n ∧ n < 2^63 ∧ ∀ y : ℝ, .num y ∈ₐ B ↔ y = n)

/-- every operation of the evaluation is applied within its domain -/
def RExpr.Safe [Fmt ℝ] (dbg : Bool) (X : Nat → Ivl (Fl ℝ)) : RExpr → Prop
  | var _ => True
  | un _ e => e.Safe dbg X
  | fn op e => e.Safe dbg X ∧ ∀ R, e.ivl dbg X = .ok R → op.Dom R
  | bin op e₁ e₂ => e₁.Safe dbg X ∧ e₂.Safe dbg X ∧ ∀ R S, e₁.ivl dbg X = .ok R → e₂.ivl dbg X = .ok S → op.Dom (.ivl R) (.ivl S)
  | binL op c e => e.Safe dbg X ∧ ∀ R, e.ivl dbg X = .ok R → op.Dom (.scalar (.num c)) (.ivl R)
  | binR op e c => e.Safe dbg X ∧ ∀ R, e.ivl dbg X = .ok R → op.Dom (.ivl R) (.scalar (.num c))
end Intervals.Spec
