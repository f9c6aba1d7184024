import Verif.Model.IntVal
/-!
# Specification vocabulary for iterator intervals: exact interval functions over bounded integers
-/
namespace Intervals.Spec
open Intervals

/-- the integer `a` is a point of the operand -/
def InB {l h : Int} (a : Int) : Arg (BInt l h) → Prop
  | .scalar s => a = s.val
  | .ivl X => X.lo.val ≤ a ∧ a ≤ X.hi.val
/-- the operand has a point -/
def InhabB {l h : Int} : Arg (BInt l h) → Prop
  | .scalar _ => True
  | .ivl X => X.lo.val ≤ X.hi.val

/-- `res` is the exact result of the point operation `g`, with results in `[l, h]`: undefined iff some point result lies outside
`[l, h]`; otherwise the smallest interval containing all point results. -/
def ExactB {l1 h1 l2 h2 l h : Int} (g : Int → Int → Int) (X : Arg (BInt l1 h1)) (Y : Arg (BInt l2 h2))
    (res : Outcome (Ivl (BInt l h))) : Prop :=
  ((∃ a b, InB a X ∧ InB b Y ∧ ¬ (l ≤ g a b ∧ g a b ≤ h)) ∧ res = .error .ub) ∨
  ((∀ a b, InB a X → InB b Y → l ≤ g a b ∧ g a b ≤ h) ∧ ∃ R, res = .ok R ∧
    (∀ a b, InB a X → InB b Y → R.lo.val ≤ g a b ∧ g a b ≤ R.hi.val) ∧
    (∃ a b, InB a X ∧ InB b Y ∧ g a b = R.lo.val) ∧
    (∃ a b, InB a X ∧ InB b Y ∧ g a b = R.hi.val))

end Intervals.Spec
