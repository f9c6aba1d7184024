import Verif.Spec.Program
/-!
# Repeated constraining

Code that narrows a group of intervals against several conditions, as in

    reset(x, constrain(x, x < y));
    reset(y, constrain(y, x < y));
    ...

`reset` keeps the address of the interval, so every statement forms its condition from the bounds left by the statements before it.  Variables
are numbered as in Spec/Program.lean.
-/
namespace Intervals.Spec
open Intervals CppVal
variable {T : Type}

/-- `reset(x, constrain(x, e))` -/
structure Narrowing (T : Type) where
  e : PCond T
  x : Nat

section
variable [CppVal T]

/-- one statement -/
def Narrowing.exec [CppStep T] (dbg d : Bool) (a : Narrowing T) (S : Nat → Ivl T) : Outcome (Nat → Ivl T) := do
  let c ← (a.e.inst d S).build dbg
  return upd S a.x (Ivl.resetFree (S a.x) (← constrain dbg d a.x (S a.x) c))

/-- a sequence of statements -/
def execAll [CppStep T] (dbg d : Bool) : List (Narrowing T) → (Nat → Ivl T) → Outcome (Nat → Ivl T)
  | [], S => .ok S
  | a :: as, S => do execAll dbg d as (← a.exec dbg d S)

/-- the variables are in `D`, no literal is a NaN, the condition mentions the variable that is narrowed -/
def Narrowing.Ok (D : List Nat) (a : Narrowing T) : Prop := a.e.ok D = true ∧ a.e.uses a.x = true

/-- the condition is one comparison of the variable with another variable or a literal -/
def Narrowing.Simple (a : Narrowing T) : Prop :=
  ∃ (op : CmpOp) (left : Bool) (y : PTerm T), y.uses a.x = false ∧ a.e = if left then .cmp op (.var a.x) y else .cmp op y (.var a.x)

/-- every interval of `D` is assigned and NaN-free -/
def AllProper (D : List Nat) (S : Nat → Ivl T) : Prop := ∀ x ∈ D, Proper (S x)
/-- every interval of the first state lies within that of the second -/
def Within (D : List Nat) (S S' : Nat → Ivl T) : Prop := ∀ x ∈ D, le (S' x).lo (S x).lo = true ∧ le (S x).hi (S' x).hi = true
/-- the states have equal bounds -/
def SameBounds (D : List Nat) (S S' : Nat → Ivl T) : Prop := ∀ x ∈ D, eq (S x).lo (S' x).lo = true ∧ eq (S x).hi (S' x).hi = true
/-- a choice of values, one from each interval, that satisfies all conditions -/
def Solution (D : List Nat) (A : List (Narrowing T)) (S : Nat → Ivl T) (s : Nat → T) : Prop :=
  (∀ x ∈ D, s x ∈ᵢ S x) ∧ ∀ a ∈ A, a.e.eval s = true

/-- no statement of `A` fails or changes a bound -/
def Stable [CppStep T] (dbg d : Bool) (D : List Nat) (A : List (Narrowing T)) (S : Nat → Ivl T) : Prop :=
  ∀ a ∈ A, ∃ S', a.exec dbg d S = .ok S' ∧ SameBounds D S' S

/-- the statements succeed one after another, and each changes a bound -/
def AllEffective [CppStep T] (dbg d : Bool) (D : List Nat) : List (Narrowing T) → (Nat → Ivl T) → Prop
  | [], _ => True
  | a :: as, S => ∃ S', a.exec dbg d S = .ok S' ∧ ¬ SameBounds D S' S ∧ AllEffective dbg d D as S'

end
end Intervals.Spec
