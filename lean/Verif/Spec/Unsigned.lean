import Verif.Model.Unsigned
import Verif.Spec.Interval
import Verif.Spec.Mixed
/-!
# Specification vocabulary for unsigned scalars
-/
namespace Intervals.Spec
open Intervals

/-- the value of a signed integer in an unsigned type with `m` bits: negative numbers become large -/
def uval (m : Nat) (a : Int) : Int := if a < 0 then a + 2^m else a

/-- `R` contains the result of `a op c` for every point `a` of `X`; `cu` is the conversion of `a` to the type in which the operands are compared. -/
def SoundU {n m : Nat} (op : Int → Int → Bool) (cu : Int → Int) (X : Ivl (SInt n)) (c : UInt m) (R : BoolSet) : Prop :=
  ∀ a, X.lo.val ≤ a → a ≤ X.hi.val → BoolSet.contains R (op (cu a) c.val) = true
/-- … and nothing else. -/
def ExactU {n m : Nat} (op : Int → Int → Bool) (cu : Int → Int) (X : Ivl (SInt n)) (c : UInt m) (R : BoolSet) : Prop :=
  ∀ r, BoolSet.contains R r = true ↔ ∃ a, X.lo.val ≤ a ∧ a ≤ X.hi.val ∧ op (cu a) c.val = r

/-- the relations on integers -/
def iLt (a b : Int) : Bool := decide (a < b)
def iLe (a b : Int) : Bool := decide (a ≤ b)
def iGt (a b : Int) : Bool := decide (b < a)
def iGe (a b : Int) : Bool := decide (b ≤ a)
def iEq (a b : Int) : Bool := decide (a = b)
def iNe (a b : Int) : Bool := !decide (a = b)

/-- all points have the same sign: the interval does not contain both -1 and 0 -/
def OneSign {n : Nat} (X : Ivl (SInt n)) : Prop := 0 ≤ X.lo.val ∨ X.hi.val < 0
end Intervals.Spec
