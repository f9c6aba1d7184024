import Verif.Spec.Expr
/-!
# Floating-point expressions with the monotone functions of `<cmath>`: point evaluation and interval evaluation
-/
namespace Intervals.Spec
open Intervals CppVal

/-- functions that are monotone on their domain -/
inductive MonoFn where
  | sqrt | cbrt | log | exp | asin | acos | atan
  deriving DecidableEq, Repr

/-- the expression a user writes -/
inductive FExpr (K : Type) where
  | const (c : Fl K)
  | var (i : Nat)
  | un (op : UnOp) (e : FExpr K)
  | fn (op : MonoFn) (e : FExpr K)
  | bin (op : BinOp) (e₁ e₂ : FExpr K)

variable {K : Type} [Field K] [LinearOrder K] [Fmt K] [FloorRing K] [Libm K]

/-- the function of `<cmath>` -/
def MonoFn.pt : MonoFn → Fl K → Fl K
  | .sqrt => Libm.sqrt
  | .cbrt => Libm.cbrt
  | .log => Libm.log
  | .exp => Libm.exp
  | .asin => Libm.asin
  | .acos => Libm.acos
  | .atan => Libm.atan
/-- the library's function of a number (with its debug check) -/
def MonoFn.scalar (dbg : Bool) : MonoFn → Fl K → Outcome (Fl K)
  | .sqrt, x => sqrtS dbg x
  | .cbrt, x => .ok (Libm.cbrt x)
  | .log, x => logS dbg x
  | .exp, x => .ok (Libm.exp x)
  | .asin, x => asinS dbg x
  | .acos, x => acosS dbg x
  | .atan, x => .ok (Libm.atan x)
/-- the library's function of an interval -/
def MonoFn.ivl (dbg : Bool) : MonoFn → Ivl (Fl K) → Outcome (Ivl (Fl K))
  | .sqrt => sqrtI dbg
  | .cbrt => cbrtI dbg
  | .log => logI dbg
  | .exp => expI dbg
  | .asin => asinI dbg
  | .acos => acosI dbg
  | .atan => atanI dbg
/-- the domain -/
def MonoFn.Dom : MonoFn → Fl K → Prop
  | .sqrt, x => le (.num 0) x = true
  | .log, x => le (.num 0) x = true
  | .asin, x => le (.num (-1)) x = true ∧ le x (.num 1) = true
  | .acos, x => le (.num (-1)) x = true ∧ le x (.num 1) = true
  | _, _ => True

/-- Assumption about `<cmath>`: the functions are monotone (`acos`: antitone) on their domains, and NaN for NaN. -/
def LibmMono (K : Type) [Field K] [LinearOrder K] [Libm K] : Prop :=
  (∀ op : MonoFn, op ≠ .acos → ∀ a b : Fl K, op.Dom a → op.Dom b → le a b = true → le (op.pt a) (op.pt b) = true) ∧
  (∀ a b : Fl K, MonoFn.acos.Dom a → MonoFn.acos.Dom b → le a b = true → le (Libm.acos b) (Libm.acos a) = true) ∧
  ∀ op : MonoFn, op.pt (.nan : Fl K) = .nan

/-- evaluation with numbers -/
def FExpr.point (ρ : Nat → Fl K) : FExpr K → Fl K
  | const c => c
  | var i => ρ i
  | un op e => op.pt (e.point ρ)
  | fn op e => op.pt (e.point ρ)
  | bin op e₁ e₂ => op.pt (e₁.point ρ) (e₂.point ρ)

/-- evaluation with intervals for the variables -/
def FExpr.ivl (dbg : Bool) (X : Nat → Ivl (Fl K)) : FExpr K → Outcome (Arg (Fl K))
  | const c => .ok (.scalar c)
  | var i => .ok (.ivl (X i))
  | un op e => do
    match ← e.ivl dbg X with
    | .scalar v => return .scalar (op.pt v)
    | .ivl x => return .ivl (← op.ivl dbg x)
  | fn op e => do
    match ← e.ivl dbg X with
    | .scalar v => return .scalar (← op.scalar dbg v)
    | .ivl x => return .ivl (← op.ivl dbg x)
  | bin op e₁ e₂ => do
    match ← e₁.ivl dbg X, ← e₂.ivl dbg X with
    | .scalar a, .scalar b => return .scalar (op.pt a b)
    | A, B => return .ivl (← op.ivl dbg A B)

/-- as `Expr.Safe`; functions are evaluated within their domain -/
def FExpr.Safe (dbg : Bool) (X : Nat → Ivl (Fl K)) (ρ : Nat → Fl K) : FExpr K → Prop
  | const _ => True
  | var _ => True
  | un _ e => e.Safe dbg X ρ
  | fn op e => e.Safe dbg X ρ ∧ ∀ A, e.ivl dbg X = .ok A → op.Dom A.lo ∧ op.Dom A.hi
  | bin op e₁ e₂ => e₁.Safe dbg X ρ ∧ e₂.Safe dbg X ρ ∧ ∀ A B, e₁.ivl dbg X = .ok A → e₂.ivl dbg X = .ok B →
      (op = .div → (ZeroSignOk B ∨ A.lo = .ninf ∨ A.hi = .pinf) ∧ ¬ eq (e₂.point ρ) (.num 0) = true ∧
        (A = .scalar .nan → ¬ (lt B.lo (.num 0) = true ∧ lt (.num 0) B.hi = true))) ∧
      (op = .min ∨ op = .max → ¬ IsNanA B)
end Intervals.Spec
