import Verif.Model.Arith
import Verif.Spec.Interval
import Verif.Model.FltArith
import Verif.Spec.IntArith
/-!
# Specification vocabulary for operands of different value types
-/
namespace Intervals.Spec
open Intervals CppVal CppNum
variable {U V T : Type _} [CppVal U] [CppVal V] [CppVal T]

/-- the operand with its bounds converted -/
def mapA (c : U → T) : Arg U → Arg T
  | .scalar s => .scalar (c s)
  | .ivl x => .ivl ⟨c x.lo, c x.hi⟩

/-- A conversion that is monotone and keeps the sign and infinities, on the values `P` of the source type. -/
structure GoodCast [CppNum U] [CppNum T] (c : U → T) (P : U → Prop) : Prop where
  mono : ∀ a b, P a → P b → le a b = true → le (c a) (c b) = true
  le_zero : ∀ a, P a → le (c a) (zero : T) = le a (zero : U)
  zero_le : ∀ a, P a → le (zero : T) (c a) = le (zero : U) a
  ninf : ∀ a, P a → isNegInf (c a) = isNegInf a
  pinf : ∀ a, P a → isPosInf (c a) = isPosInf a
  zero : P (zero : U) ∧ le (zero : U) (zero : U) = true ∧ le (zero : T) (zero : T) = true

/-- both bounds of the operand are values of the source type -/
def AllB (P : U → Prop) (X : Arg U) : Prop := P X.lo ∧ P X.hi

/-- `res` is the NaN interval if and only if some point operation is indefinite; otherwise it is a proper interval that contains every
point result whose second operand is in `D`.  The points of an operand are values of its own type. -/
def MixedIncl2 {K : Type} [Field K] [LinearOrder K] (f : U → V → Fl K) (P : U → Prop) (Q : V → Prop) (D : V → Prop) (X : Arg U) (Y : Arg V)
    (res : Outcome (Ivl (Fl K))) : Prop :=
  ((∃ a b, P a ∧ Q b ∧ a ∈ₐ X ∧ b ∈ₐ Y ∧ f a b = .nan) ∧ res = .ok ⟨.nan, .nan⟩) ∨
  ((∀ a b, P a → Q b → a ∈ₐ X → b ∈ₐ Y → f a b ≠ .nan) ∧ ∃ R, res = .ok R ∧ Proper R ∧
    (∀ a b, P a → Q b → a ∈ₐ X → b ∈ₐ Y → D b → f a b ∈ᵢ R))

/-- `MixedIncl2` for all points, with bounds that are results of points (in value: a zero bound may have either sign). -/
def MixedExact2 {K : Type} [Field K] [LinearOrder K] (f : U → V → Fl K) (P : U → Prop) (Q : V → Prop) (X : Arg U) (Y : Arg V)
    (res : Outcome (Ivl (Fl K))) : Prop :=
  ((∃ a b, P a ∧ Q b ∧ a ∈ₐ X ∧ b ∈ₐ Y ∧ f a b = .nan) ∧ res = .ok ⟨.nan, .nan⟩) ∨
  ((∀ a b, P a → Q b → a ∈ₐ X → b ∈ₐ Y → f a b ≠ .nan) ∧ ∃ R, res = .ok R ∧
    (∀ a b, P a → Q b → a ∈ₐ X → b ∈ₐ Y → f a b ∈ᵢ R) ∧
    (∃ a b, P a ∧ Q b ∧ a ∈ₐ X ∧ b ∈ₐ Y ∧ eq (f a b) R.lo = true) ∧
    (∃ a b, P a ∧ Q b ∧ a ∈ₐ X ∧ b ∈ₐ Y ∧ eq (f a b) R.hi = true))

/-- `1` and `2^n` are numbers of the format -/
def HasInts {K : Type} [Field K] [LinearOrder K] (F : Fmt K) (n : Nat) : Prop := F.rnd 1 = .num 1 ∧ F.rnd (2^n) = .num (2^n)

/-- `ExactInt2` (Spec/IntArith.lean) for operands of two signed integer types; `k` is the number of value bits of their common type. -/
def ExactInt2M {n m k : Nat} (g : Int → Int → Option Int) (X : Arg (SInt n)) (Y : Arg (SInt m)) (res : Outcome (Ivl (SInt k))) : Prop :=
  ((∃ a b, InI a X ∧ InI b Y ∧ ¬ Def2 k g a b) ∧ res = .error .ub) ∨
  ((∀ a b, InI a X → InI b Y → Def2 k g a b) ∧ ∃ R, res = .ok R ∧
    (∀ a b v, InI a X → InI b Y → g a b = some v → R.lo.val ≤ v ∧ v ≤ R.hi.val) ∧
    (∃ a b, InI a X ∧ InI b Y ∧ g a b = some R.lo.val) ∧
    (∃ a b, InI a X ∧ InI b Y ∧ g a b = some R.hi.val))

/-- Every pair of points compares to an element of `R`. -/
def SoundCmpM (op : U → V → Bool) (P : U → Prop) (Q : V → Prop) (A : Arg U) (B : Arg V) (R : BoolSet) : Prop :=
  ∀ a b, P a → Q b → a ∈ₐ A → b ∈ₐ B → BoolSet.contains R (op a b) = true
/-- `r` is in the result iff some pair of points compares to `r`. -/
def ExactCmpM (op : U → V → Bool) (P : U → Prop) (Q : V → Prop) (A : Arg U) (B : Arg V) (R : BoolSet) : Prop :=
  ∀ r, BoolSet.contains R r = true ↔ ∃ a b, P a ∧ Q b ∧ a ∈ₐ A ∧ b ∈ₐ B ∧ op a b = r
end Intervals.Spec
