import Verif.Model.IntVal
import Verif.Model.Sign
/-!
# Specification of exact integer interval functions

Everything is stated on mathematical integers.  A point function returns `none` where it is mathematically undefined; a C++ point
operation on an `n`-bit type is defined iff the mathematical result exists and is representable.
-/
namespace Intervals.Spec
open Intervals

/-- representable in a signed type with `n` value bits -/
def Rep (n : Nat) (v : Int) : Prop := -(2:Int)^n ≤ v ∧ v < (2:Int)^n
instance (n : Nat) (v : Int) : Decidable (Rep n v) := by unfold Rep; infer_instance

/-- the integer `a` is a point of the operand -/
def InI {n : Nat} (a : Int) : Arg (SInt n) → Prop
  | .scalar s => a = s.val
  | .ivl X => X.lo.val ≤ a ∧ a ≤ X.hi.val

/-- the operand has a point -/
def Inhab {n : Nat} : Arg (SInt n) → Prop
  | .scalar _ => True
  | .ivl X => X.lo.val ≤ X.hi.val

/-- the point operation is defined in the `n`-bit type -/
def Def2 (n : Nat) (g : Int → Int → Option Int) (a b : Int) : Prop := ∃ v, g a b = some v ∧ Rep n v
def Def1 (n : Nat) (g : Int → Option Int) (a : Int) : Prop := ∃ v, g a = some v ∧ Rep n v

/-- `res` is the exact result of applying the point operation `g` to the operands: undefined behaviour if and only if some point
operation is undefined; otherwise an interval that contains every point result and both of whose bounds are point results. -/
def ExactInt2 {n : Nat} (g : Int → Int → Option Int) (X Y : Arg (SInt n)) (res : Outcome (Ivl (SInt n))) : Prop :=
  ((∃ a b, InI a X ∧ InI b Y ∧ ¬ Def2 n g a b) ∧ res = .error .ub) ∨
  ((∀ a b, InI a X → InI b Y → Def2 n g a b) ∧ ∃ R, res = .ok R ∧
    (∀ a b v, InI a X → InI b Y → g a b = some v → R.lo.val ≤ v ∧ v ≤ R.hi.val) ∧
    (∃ a b, InI a X ∧ InI b Y ∧ g a b = some R.lo.val) ∧
    (∃ a b, InI a X ∧ InI b Y ∧ g a b = some R.hi.val))

def ExactInt1 {n : Nat} (g : Int → Option Int) (X : Ivl (SInt n)) (res : Outcome (Ivl (SInt n))) : Prop :=
  ((∃ a, InI a (.ivl X) ∧ ¬ Def1 n g a) ∧ res = .error .ub) ∨
  ((∀ a, InI a (.ivl X) → Def1 n g a) ∧ ∃ R, res = .ok R ∧
    (∀ a v, InI a (.ivl X) → g a = some v → R.lo.val ≤ v ∧ v ≤ R.hi.val) ∧
    (∃ a, InI a (.ivl X) ∧ g a = some R.lo.val) ∧
    (∃ a, InI a (.ivl X) ∧ g a = some R.hi.val))

/-- C++ integer division as a mathematical partial function: `q` such that `a = q*b + r`, `|r| < |b|`, `r` with the sign of `a`. -/
def IsQuot (a b q : Int) : Prop := ∃ r, a = q * b + r ∧ r.natAbs < b.natAbs ∧ (0 ≤ a → 0 ≤ r) ∧ (a ≤ 0 → r ≤ 0)

/-- Integer division truncating towards zero, undefined for divisor 0 (`C27_quotient` shows that it satisfies `IsQuot`). -/
def divInt (a b : Int) : Option Int := if b = 0 then none else some (a.tdiv b)

/-- the sign of an integer -/
def sgnInt (a : Int) : Sign := if a < 0 then .neg else if 0 < a then .pos else .zero
/-- multiplication by a sign -/
def signMulInt (s : Sign) (a : Int) : Int := match s with
  | .neg => -a
  | .zero => 0
  | .pos => a

end Intervals.Spec
