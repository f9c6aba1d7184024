import Verif.Spec.Piecewise
import Verif.Spec.ExprRange
/-!
# Piecewise-defined functions of real variables
-/
namespace Intervals.Spec
open Intervals CppVal

/-- a function of `n` variables defined by cases: `if (xi op c) p else q` -/
inductive RTree (n : Nat) where
  | leaf (e : RExpr)
  | node (i : Fin n) (op : CmpOp) (c : ℝ) (p q : RTree n)

/-- a family indexed by the natural numbers -/
def pad {A : Type} {n : Nat} (a : A) (κ : Fin n → A) : Nat → A := fun i => if h : i < n then κ ⟨i, h⟩ else a

/-- the comparison of real numbers -/
def CmpOp.real : CmpOp → ℝ → ℝ → Prop
  | .eq, x, c => x = c
  | .ne, x, c => x ≠ c
  | .lt, x, c => x < c
  | .le, x, c => x ≤ c
  | .gt, x, c => c < x
  | .ge, x, c => c ≤ x

/-- the limits of the numbers for which the comparison holds -/
def CmpOp.limit : CmpOp → ℝ → ℝ → Prop
  | .eq, x, c => x = c
  | .ne, _, _ => True
  | .lt, x, c => x ≤ c
  | .le, x, c => x ≤ c
  | .gt, x, c => c ≤ x
  | .ge, x, c => c ≤ x

namespace RTree
variable {n : Nat}

open Classical in
/-- the value at a point -/
noncomputable def val (κ : Fin n → ℝ) : RTree n → Option ℝ
  | leaf e => e.val (pad 0 κ)
  | node i op c p q => if op.real (κ i) c then p.val κ else q.val κ

/-- the program (`PTree.runI`): the pieces are evaluated by the library -/
noncomputable def prog [Fmt ℝ] : RTree n → PTree (Fl ℝ) (Fl ℝ) n
  | leaf e => .leaf (fun dbg X => e.ivl dbg (pad ⟨.num 0, .num 0⟩ X)) (fun v => match e.val (pad 0 fun i => (v i).val) with
      | some x => .ok (.num x)
      | none => .error .ub)
  | node i op c p q => .node i op (.num c) p.prog q.prog

/-- every piece uses no variable twice, and is regular on all boxes in which its conditions hold, at least as limits -/
def Regular [Fmt ℝ] : RTree n → ((Fin n → ℝ) → Prop) → Prop
  | leaf e, D => e.SingleUse ∧ ∀ dbg (X : Fin n → Ivl (Fl ℝ)), (∀ i, FiniteI (X i)) → (∀ κ, (∀ i, .num (κ i) ∈ᵢ X i) → D κ) → e.Regular dbg (pad ⟨.num 0, .num 0⟩ X)
  | node i op c p q, D => p.Regular (fun κ => D κ ∧ op.limit (κ i) c) ∧ q.Regular (fun κ => D κ ∧ op.neg.limit (κ i) c)

/-- the pieces agree at the seams -/
def Continuous : RTree n → ((Fin n → ℝ) → Prop) → Prop
  | leaf _, _ => True
  | node i op c p q, D => (∀ κ, D κ → κ i = c → p.val κ = q.val κ) ∧
      p.Continuous (fun κ => D κ ∧ op.limit (κ i) c) ∧ q.Continuous (fun κ => D κ ∧ op.neg.limit (κ i) c)
end RTree
end Intervals.Spec
