import Verif.Spec.ConstraintMixed
import Verif.Spec.ConstraintStale
import Verif.Model.Narrow
import Mathlib.Logic.Function.Basic
/-!
# Repeated constraining of intervals of several value types

As Spec/Propagate, but every interval has a value type of its own:

    interval<int> n; interval<double> x; interval<long long> k;
    reset(x, constrain(x, x <= n));
    reset(k, constrain(k, n < k));
    ...

A statement narrows an interval by a comparison with another interval, or with a number or an interval that is not a variable (include/intervals/interval.hpp:`reset`, `constrain`).
-/
namespace Intervals.Spec
open Intervals CppVal
variable {ι : Type}

/-- the value types: which of them are discrete, the steps `detail::pred`, `detail::succ` (detail/interval.hpp:244–269) on each, and the conversions -/
structure ValueTypes (T : ι → Type) where
  disc : ι → Bool
  cv : ∀ j i, T j → T i
  pr : ∀ j, T j → Outcome (T j)
  su : ∀ j, T j → Outcome (T j)

/-- the other operand -/
inductive MOpd (T : ι → Type) where
  | var (j : ι)
  | lit (j : ι) (r : Arg (T j))
/-- its value type -/
def MOpd.ty {T : ι → Type} : MOpd T → ι
  | .var j => j
  | .lit j _ => j
/-- its value -/
def MOpd.arg {T : ι → Type} (S : ∀ i, Ivl (T i)) : (y : MOpd T) → Arg (T y.ty)
  | .var j => .ivl (S j)
  | .lit _ r => r
/-- it is not the variable that is narrowed, and proper -/
def MOpd.Ok {T : ι → Type} [∀ i, CppVal (T i)] (x : ι) : MOpd T → Prop
  | .var j => j ≠ x
  | .lit _ r => ProperA r

/-- `reset(x, constrain(x, c))` with the comparison `k` of `x` and `y` as `c` -/
structure MNarrowing (T : ι → Type) where
  x : ι
  k : XRel
  y : MOpd T

section
variable [DecidableEq ι] {T : ι → Type} [∀ i, CppVal (T i)] [∀ i, CppNum (T i)] [∀ i, CppStep (T i)] (E : ValueTypes T)

/-- one statement -/
def MNarrowing.exec (dbg : Bool) (a : MNarrowing T) (S : ∀ i, Ivl (T i)) : Outcome (∀ i, Ivl (T i)) := do
  let R ← constrainM (E.cv a.y.ty a.x) (E.pr a.y.ty) (E.su a.y.ty) (E.disc a.x) dbg (S a.x) (a.y.arg S) a.k
  return Function.update S a.x (Ivl.resetFree (S a.x) R)
/-- a sequence of statements -/
def execAllM (dbg : Bool) : List (MNarrowing T) → (∀ i, Ivl (T i)) → Outcome (∀ i, Ivl (T i))
  | [], S => .ok S
  | a :: as, S => do execAllM dbg as (← a.exec E dbg S)

/-- stepping preserves order: a larger number can be decremented if a smaller one can, and a smaller one incremented if a larger one can -/
def StepIso {V : Type} [CppVal V] (pr su : V → Outcome V) : Prop :=
  (∀ a b p, le a b = true → pr a = .ok p → ∃ q, pr b = .ok q ∧ le p q = true) ∧ (∀ a b q, le a b = true → su b = .ok q → ∃ p, su a = .ok p ∧ le p q = true)

/-- the operand is another variable or proper, the conversion and the steps preserve order -/
def MNarrowing.Ok (a : MNarrowing T) : Prop :=
  a.y.Ok a.x ∧ MonoCast (E.cv a.y.ty a.x) ∧ StepIso (E.pr a.y.ty) (E.su a.y.ty)
/-- if the comparison is strict: every value of the operand that is on the right side of a value of `x` has room to step, and is not stepped over one -/
def MNarrowing.Gapless (a : MNarrowing T) (S : ∀ i, Ivl (T i)) : Prop := strictX a.k = true → ∀ u v, u ∈ᵢ S a.x → v ∈ₐ a.y.arg S →
  (lt u (E.cv a.y.ty a.x v) = true → ∃ p, E.pr _ v = .ok p ∧ le u (E.cv _ _ p) = true) ∧
  (lt (E.cv a.y.ty a.x v) u = true → ∃ p, E.su _ v = .ok p ∧ le (E.cv _ _ p) u = true)
/-- the chosen values satisfy the comparison -/
def MNarrowing.Holds (a : MNarrowing T) (s : ∀ i, T i) : Prop :=
  match a.y with
  | .var j => holdsX a.k (s a.x) (E.cv j a.x (s j)) = true
  | .lit j r => ∃ v, v ∈ₐ r ∧ holdsX a.k (s a.x) (E.cv j a.x v) = true

/-- every interval is assigned and NaN-free -/
def AllProperM (S : ∀ i, Ivl (T i)) : Prop := ∀ i, Proper (S i)
/-- every interval of the first state lies within that of the second -/
def WithinM (S S' : ∀ i, Ivl (T i)) : Prop := ∀ i, le (S' i).lo (S i).lo = true ∧ le (S i).hi (S' i).hi = true
/-- the states have equal bounds -/
def SameBoundsM (S S' : ∀ i, Ivl (T i)) : Prop := ∀ i, eq (S i).lo (S' i).lo = true ∧ eq (S i).hi (S' i).hi = true
/-- no statement of `A` fails or changes a bound -/
def StableM (dbg : Bool) (A : List (MNarrowing T)) (S : ∀ i, Ivl (T i)) : Prop := ∀ a ∈ A, ∃ S', a.exec E dbg S = .ok S' ∧ SameBoundsM S' S
/-- one value from each interval, such that all comparisons hold -/
def SolutionM (A : List (MNarrowing T)) (S : ∀ i, Ivl (T i)) (s : ∀ i, T i) : Prop := (∀ i, s i ∈ᵢ S i) ∧ ∀ a ∈ A, a.Holds E s
end

/-- intervals of signed integer types of any widths, with the built-in conversions -/
def intTypes (w : ι → Nat) : ValueTypes (fun i => SInt (w i)) where
  disc _ := true
  cv _ i v := narrowCastV (w i) v
  pr _ := predStep true
  su _ := succStep true
/-- the operand is another variable or a proper one, and not of a wider type -/
def MNarrowing.IntOk {w : ι → Nat} (a : MNarrowing (fun i => SInt (w i))) : Prop := a.y.Ok a.x ∧ w a.y.ty ≤ w a.x
/-- for a strict comparison: if the operand reaches a limit of its own type, `x` does not extend beyond it -/
def MNarrowing.Room {w : ι → Nat} (a : MNarrowing (fun i => SInt (w i))) (S : ∀ i, Ivl (SInt (w i))) : Prop := strictX a.k = true →
  (-2^(w a.y.ty) ≤ (S a.x).lo.val ∨ -2^(w a.y.ty) < (a.y.arg S).lo.val) ∧ ((S a.x).hi.val ≤ 2^(w a.y.ty) - 1 ∨ (a.y.arg S).hi.val < 2^(w a.y.ty) - 1)
end Intervals.Spec
