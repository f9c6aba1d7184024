import Verif.Model.Elem
import Verif.Spec.Flt
/-!
# Expressions over the library's floating-point operations: point evaluation and interval evaluation
-/
namespace Intervals.Spec
open Intervals CppVal

variable {K : Type} [Field K] [LinearOrder K]

/-- unary functions of the library that are defined for every number -/
inductive UnOp where
  | plus | neg | square | cube | abs | floor | ceil | round
  deriving DecidableEq, Repr
/-- binary operators and functions of the library -/
inductive BinOp where
  | add | sub | mul | div | min | max
  deriving DecidableEq, Repr

/-- the expression a user writes -/
inductive Expr (K : Type) where
  | const (c : Fl K)
  | var (i : Nat)
  | un (op : UnOp) (e : Expr K)
  | bin (op : BinOp) (e₁ e₂ : Expr K)

/-- both bounds are NaN: the result is reported as indefinite -/
def IsNanA (A : Arg (Fl K)) : Prop := A.lo = .nan ∧ A.hi = .nan

variable [Fmt K] [FloorRing K]

/-- the operation on floating-point numbers -/
def UnOp.pt : UnOp → Fl K → Fl K
  | .plus, a => a
  | .neg, a => Fl.neg a
  | .square, a => Fl.mul a a
  | .cube, a => Fl.mul (Fl.mul a a) a
  | .abs, a => Fl.abs a
  | .floor, a => Fl.floor a
  | .ceil, a => Fl.ceil a
  | .round, a => Fl.round a
def BinOp.pt : BinOp → Fl K → Fl K → Fl K
  | .add, a, b => Fl.add a b
  | .sub, a, b => Fl.sub a b
  | .mul, a, b => Fl.mul a b
  | .div, a, b => Fl.div a b
  | .min, a, b => cmin a b
  | .max, a, b => cmax a b

/-- the library's operation on intervals (scalars are only combined with intervals) -/
def UnOp.ivl (dbg : Bool) : UnOp → Ivl (Fl K) → Outcome (Ivl (Fl K))
  | .plus => plusI dbg
  | .neg => negI dbg
  | .square => squareI dbg
  | .cube => cubeI dbg
  | .abs => absI dbg
  | .floor => floorI dbg
  | .ceil => ceilI dbg
  | .round => roundI dbg
def BinOp.ivl (dbg : Bool) : BinOp → Arg (Fl K) → Arg (Fl K) → Outcome (Ivl (Fl K))
  | .add => addI dbg
  | .sub => subI dbg
  | .mul => mulI dbg
  | .div => divI dbg
  | .min => minI dbg
  | .max => maxI dbg

/-- evaluation of the expression with numbers -/
def Expr.point (ρ : Nat → Fl K) : Expr K → Fl K
  | const c => c
  | var i => ρ i
  | un op e => op.pt (e.point ρ)
  | bin op e₁ e₂ => op.pt (e₁.point ρ) (e₂.point ρ)

/-- evaluation with intervals for the variables; subexpressions without variables are evaluated with the operators of the scalar type, as
overload resolution does -/
def Expr.ivl (dbg : Bool) (X : Nat → Ivl (Fl K)) : Expr K → Outcome (Arg (Fl K))
  | const c => .ok (.scalar c)
  | var i => .ok (.ivl (X i))
  | un op e => do
    match ← e.ivl dbg X with
    | .scalar v => return .scalar (op.pt v)
    | .ivl x => return .ivl (← op.ivl dbg x)
  | bin op e₁ e₂ => do
    match ← e₁.ivl dbg X, ← e₂.ivl dbg X with
    | .scalar a, .scalar b => return .scalar (op.pt a b)
    | A, B => return .ivl (← op.ivl dbg A B)

/-- evaluation in the field: undefined for division by zero and for constants that are not finite -/
def UnOp.fld : UnOp → K → K
  | .plus, a => a
  | .neg, a => -a
  | .square, a => a * a
  | .cube, a => a * a * a
  | .abs, a => max a (-a)
  | .floor, a => ⌊a⌋
  | .ceil, a => ⌈a⌉
  | .round, a => Fl.roundInt a
def BinOp.fld : BinOp → K → K → Option K
  | .add, a, b => some (a + b)
  | .sub, a, b => some (a - b)
  | .mul, a, b => some (a * b)
  | .div, a, b => if b = 0 then none else some (a / b)
  | .min, a, b => some (Min.min a b)
  | .max, a, b => some (Max.max a b)
def Expr.fld (κ : Nat → K) : Expr K → Option K
  | const c => if c.isFinite then some c.val else none
  | var i => some (κ i)
  | un op e => do return op.fld (← e.fld κ)
  | bin op e₁ e₂ => do op.fld (← e₁.fld κ) (← e₂.fld κ)

/-- no division, minimum or maximum -/
def Expr.Ring : Expr K → Prop
  | const _ => True
  | var _ => True
  | un _ e => e.Ring
  | bin op e₁ e₂ => (op = .add ∨ op = .sub ∨ op = .mul) ∧ e₁.Ring ∧ e₂.Ring

/-- the cases in which the library's division, minimum and maximum are known to be wrong (C32_violated, C34_scalar_div_violated,
C34_min_violated) do not occur in the evaluation, and no divisor is zero at the point -/
def Expr.Safe (dbg : Bool) (X : Nat → Ivl (Fl K)) (ρ : Nat → Fl K) : Expr K → Prop
  | const _ => True
  | var _ => True
  | un _ e => e.Safe dbg X ρ
  | bin op e₁ e₂ => e₁.Safe dbg X ρ ∧ e₂.Safe dbg X ρ ∧ ∀ A B, e₁.ivl dbg X = .ok A → e₂.ivl dbg X = .ok B →
      (op = .div → (ZeroSignOk B ∨ A.lo = .ninf ∨ A.hi = .pinf) ∧ ¬ eq (e₂.point ρ) (.num 0) = true ∧ (A = .scalar .nan → ¬ (lt B.lo (.num 0) = true ∧ lt (.num 0) B.hi = true))) ∧
      (op = .min ∨ op = .max → ¬ IsNanA B)
end Intervals.Spec
