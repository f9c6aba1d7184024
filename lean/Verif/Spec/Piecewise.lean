import Verif.Spec.Constraint
import Verif.Model.Scalar
/-!
# Piecewise-defined functions

Programs in the style of README.md:44–62 and examples/simple3.cpp that branch on comparisons of their parameters with constants:

    R f(T x0, T x1) {                               node i op c p q
        auto r = R{ };
        auto b = xi < c;                            (or any other comparison)
        if (possibly(b)) {
            auto y = constrain(xi, b);
            assign_partial(r, p(.. y ..));          (`p` is another such program, `y` in the place of `xi`)
        }
        if (possibly(!b)) {
            auto y = constrain(xi, !b);
            assign_partial(r, q(.. y ..));
        }
        return r;
    }

A `leaf` is a function of the library, or composed of such, given by its overload for intervals and its overload for numbers.  The constant has the value type of the parameters.
-/
namespace Intervals.Spec
open Intervals CppVal

inductive PTree (T U : Type) (n : Nat) where
  | leaf (ivl : Bool → (Fin n → Ivl T) → Outcome (Ivl U)) (pt : (Fin n → T) → Outcome U)
  | node (i : Fin n) (op : CmpOp) (c : T) (p q : PTree T U n)

/-- `y` in the place of argument `i` -/
def setAt {A : Type} {n : Nat} (X : Fin n → A) (i : Fin n) (y : A) : Fin n → A := fun j => if j = i then y else X j

namespace PTree
variable {T U : Type} {n : Nat} [CppVal T] [CppVal U]

/-- the program for intervals; parameter `i` has address `i` -/
def runI [CppStep T] [CppLimits U] (dbg d : Bool) : PTree T U n → (Fin n → Ivl T) → Outcome (Ivl U)
  | leaf f _, X => f dbg X
  | node i op c p q, X => do
    let r := Ivl.unassigned
    let b ← buildCmp dbg op (.ident d i.val (X i)) (.scalar d c)
    let r ← if BoolSet.possibly b.truth then do
        let y ← constrain dbg d i.val (X i) b
        Ivl.assignPartial r (← p.runI dbg d (setAt X i y))
      else pure r
    let nb ← Cond.mkNot dbg b
    let r ← if BoolSet.possibly nb.truth then do
        let y ← constrain dbg d i.val (X i) nb
        Ivl.assignPartial r (← q.runI dbg d (setAt X i y))
      else pure r
    return r

/-- the program for numbers; `zero` is `R{ }` -/
def runS (zero : U) : PTree T U n → (Fin n → T) → Outcome U
  | leaf _ g, v => g v
  | node i op c p q, v => do
    let r := zero
    let b := op.eval (v i) c
    let r ← if b then do
        let y ← Scalar.constrain (v i) b
        return Scalar.assignPartial r (← p.runS zero (setAt v i y))
      else pure r
    let r ← if !b then do
        let y ← Scalar.constrain (v i) (!b)
        return Scalar.assignPartial r (← q.runS zero (setAt v i y))
      else pure r
    return r
end PTree

variable {T U : Type} {n : Nat} [CppVal T] [CppVal U]

/-- the comparison that holds when `op` does not -/
def CmpOp.neg : CmpOp → CmpOp
  | .eq => .ne | .ne => .eq | .lt => .ge | .le => .gt | .gt => .le | .ge => .lt

/-- what `constrain` can make of `a op c` with a closed interval: a strict comparison admits `c` itself unless the type is discrete, `!=` says nothing -/
def CmpOp.Closed (d : Bool) : CmpOp → T → T → Prop
  | .lt, a, c => if d then CppVal.lt a c = true else CppVal.le a c = true
  | .gt, a, c => if d then CppVal.gt a c = true else CppVal.ge a c = true
  | .ne, _, _ => True
  | op, a, c => op.eval a c = true

/-- the points of a box -/
def Box (X : Fin n → Ivl T) (v : Fin n → T) : Prop := ∀ i, v i ∈ᵢ X i

/-- the bounds of `R` are values of `P` in the box -/
def Attains (X : Fin n → Ivl T) (P : (Fin n → T) → U → Prop) (R : Ivl U) : Prop :=
  (∃ v u, Box X v ∧ P v u ∧ eq u R.lo = true) ∧ ∃ v u, Box X v ∧ P v u ∧ eq u R.hi = true

/-- `u` is the value at `v` of a piece whose conditions `v` meets, or meets as a limit: at the seams, all adjacent pieces count -/
def PTree.Near (d : Bool) : PTree T U n → (Fin n → T) → U → Prop
  | .leaf _ g, v, u => g v = .ok u
  | .node i op c p q, v, u => (op.Closed d (v i) c ∧ p.Near d v u) ∨ (op.neg.Closed d (v i) c ∧ q.Near d v u)

/-- On boxes in the domain `D`, narrowed by the conditions above it, each leaf returns the exact range of its function.  No constant is a NaN. -/
def PTree.LeavesExact (d : Bool) : PTree T U n → ((Fin n → T) → Prop) → Prop
  | .leaf f g, D => ∀ dbg X, (∀ i, Proper (X i)) → (∀ v, Box X v → D v) →
      ∃ R, f dbg X = .ok R ∧ (∀ v, Box X v → ∃ u, g v = .ok u ∧ u ∈ᵢ R) ∧ Attains X (fun v u => g v = .ok u) R
  | .node i op c p q, D => NotNan c ∧ p.LeavesExact d (fun v => D v ∧ op.Closed d (v i) c) ∧ q.LeavesExact d (fun v => D v ∧ op.neg.Closed d (v i) c)

/-- On boxes as in `LeavesExact`, every value between the bounds that a leaf returns is a value of its function. -/
def PTree.LeavesOnto (d : Bool) : PTree T U n → ((Fin n → T) → Prop) → Prop
  | .leaf f g, D => ∀ dbg X R, (∀ i, Proper (X i)) → (∀ v, Box X v → D v) → f dbg X = .ok R → ∀ u, u ∈ᵢ R → ∃ v u', Box X v ∧ g v = .ok u' ∧ eq u' u = true
  | .node i op c p q, D => p.LeavesOnto d (fun v => D v ∧ op.Closed d (v i) c) ∧ q.LeavesOnto d (fun v => D v ∧ op.neg.Closed d (v i) c)

/-- the two sides of every condition agree where its operands are equal -/
def PTree.Seamless (zero : U) (d : Bool) : PTree T U n → ((Fin n → T) → Prop) → Prop
  | .leaf _ _, _ => True
  | .node i op c p q, D => (∀ v, D v → eq (v i) c = true → ∃ u u', p.runS zero v = .ok u ∧ q.runS zero v = .ok u' ∧ eq u u' = true) ∧
      p.Seamless zero d (fun v => D v ∧ op.Closed d (v i) c) ∧ q.Seamless zero d (fun v => D v ∧ op.neg.Closed d (v i) c)

/-- no test for equality -/
def PTree.Ordered : PTree T U n → Prop
  | .leaf _ _ => True
  | .node _ op _ p q => op ≠ .eq ∧ op ≠ .ne ∧ p.Ordered ∧ q.Ordered

end Intervals.Spec
