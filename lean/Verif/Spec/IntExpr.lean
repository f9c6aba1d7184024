import Verif.Model.IntArith
import Verif.Spec.IntArith
/-!
# Integer expressions: point evaluation (undefined on overflow and division by zero) and interval evaluation
-/
namespace Intervals.Spec
open Intervals CppVal

inductive IUnOp where
  | plus | neg | square | abs
inductive IBinOp where
  | add | sub | mul | div | min | max
inductive IExpr (n : Nat) where
  | const (c : SInt n)
  | var (i : Nat)
  | un (op : IUnOp) (e : IExpr n)
  | bin (op : IBinOp) (e₁ e₂ : IExpr n)

/-- the mathematical operation -/
def IUnOp.fn : IUnOp → Int → Int
  | .plus, a => a
  | .neg, a => -a
  | .square, a => a * a
  | .abs, a => a.natAbs
def IBinOp.fn : IBinOp → Int → Int → Option Int
  | .add, a, b => some (a + b)
  | .sub, a, b => some (a - b)
  | .mul, a, b => some (a * b)
  | .div, a, b => divInt a b
  | .min, a, b => some (if b < a then b else a)
  | .max, a, b => some (if a < b then b else a)

/-- a result of the `n`-bit type -/
def fit (n : Nat) (v : Int) : Option Int := if Rep n v then some v else none

/-- evaluation with integers: undefined if a division by zero or an overflow occurs -/
def IExpr.point {n : Nat} (ρ : Nat → Int) : IExpr n → Option Int
  | const c => some c.val
  | var i => some (ρ i)
  | un op e => do fit n (op.fn (← e.point ρ))
  | bin op e₁ e₂ => do
    let a ← e₁.point ρ
    let b ← e₂.point ρ
    fit n (← op.fn a b)

/-- the operators of the scalar type (as the library calls them) -/
def IUnOp.scalar {n : Nat} : IUnOp → SInt n → Outcome (SInt n)
  | .plus, a => .ok a
  | .neg, a => CppNum.neg a
  | .square, a => squareV a
  | .abs, a => SInt.abs a
def IBinOp.scalar {n : Nat} : IBinOp → SInt n → SInt n → Outcome (SInt n)
  | .add, a, b => CppNum.add a b
  | .sub, a, b => CppNum.sub a b
  | .mul, a, b => CppNum.mul a b
  | .div, a, b => CppNum.div a b
  | .min, a, b => .ok (cmin a b)
  | .max, a, b => .ok (cmax a b)
/-- the library's interval operations -/
def IUnOp.ivl {n : Nat} (dbg : Bool) : IUnOp → Ivl (SInt n) → Outcome (Ivl (SInt n))
  | .plus => plusI dbg
  | .neg => negI dbg
  | .square => squareI dbg
  | .abs => absI dbg
def IBinOp.ivl {n : Nat} (dbg : Bool) : IBinOp → Arg (SInt n) → Arg (SInt n) → Outcome (Ivl (SInt n))
  | .add => addI dbg
  | .sub => subI dbg
  | .mul => mulI dbg
  | .div => divI dbg
  | .min => minI dbg
  | .max => maxI dbg

def IExpr.ivl {n : Nat} (dbg : Bool) (X : Nat → Ivl (SInt n)) : IExpr n → Outcome (Arg (SInt n))
  | const c => .ok (.scalar c)
  | var i => .ok (.ivl (X i))
  | un op e => do
    match ← e.ivl dbg X with
    | .scalar v => return .scalar (← op.scalar v)
    | .ivl x => return .ivl (← op.ivl dbg x)
  | bin op e₁ e₂ => do
    match ← e₁.ivl dbg X, ← e₂.ivl dbg X with
    | .scalar a, .scalar b => return .scalar (← op.scalar a b)
    | A, B => return .ivl (← op.ivl dbg A B)
end Intervals.Spec
