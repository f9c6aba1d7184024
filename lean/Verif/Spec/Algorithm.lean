import Verif.Spec.Interval
import Verif.Model.Algorithm
/-!
# Specification vocabulary for searching in sorted ranges
-/
namespace Intervals.Spec
open Intervals CppVal

/-- `j` is the position in `a` at which `p` stops to hold: it holds for exactly the elements before `j` -/
def IsPoint {V : Type _} (p : V → Bool) (a : List V) (j : Nat) : Prop := j ≤ a.length ∧ ∀ i v, a[i]? = some v → (p v = true ↔ i < j)

section
variable {T : Type _} [CppVal T]
/-- nondecreasing and free of NaN -/
def SortedR (a : List T) : Prop := a.Pairwise (fun u v => le u v = true) ∧ ∀ u ∈ a, NotNan u
/-- strictly increasing and free of NaN -/
def StrictR (a : List T) : Prop := a.Pairwise (fun u v => lt u v = true) ∧ ∀ u ∈ a, NotNan u

/-- exactly the elements before `j` are less than `x` -/
def IsLowerBound (a : List T) (x : T) (j : Nat) : Prop := IsPoint (fun e => lt e x) a j
/-- exactly the elements before `j` are at most `x` -/
def IsUpperBound (a : List T) (x : T) (j : Nat) : Prop := IsPoint (fun e => le e x) a j
end

/-- the two searches -/
inductive Search where
  | lower | upper
  deriving DecidableEq
section
variable {T : Type _} [CppVal T]
/-- the scalar search -/
def Search.findS : Search → (a : List T) → T → Outcome (Iter a.length)
  | .lower => lowerBoundS
  | .upper => upperBoundS
/-- the interval search -/
def Search.findI (dbg d : Bool) : Search → (a : List T) → Operand T → Outcome (Ivl (Iter a.length))
  | .lower => lowerBoundI dbg d
  | .upper => upperBoundI dbg d
/-- the predicate of the partitioning that the interval search returns -/
def Search.predI (dbg d : Bool) : Search → Operand T → T → Outcome (Cond T)
  | .lower => lowerPredI dbg d
  | .upper => upperPredI dbg d
/-- the predicate of the partitioning that the scalar search returns -/
def Search.predS : Search → T → T → Outcome Bool
  | .lower => lowerPredS
  | .upper => upperPredS
end

instance {V : Type _} (p : V → Bool) (a : List V) (j : Nat) : Decidable (IsPoint p a j) :=
  decidable_of_iff (j ≤ a.length ∧ ∀ i : Fin a.length, (p a[i] = true ↔ i.val < j))
    ⟨fun ⟨h, h'⟩ => ⟨h, fun i v e => by
      have hi : i < a.length := by
        rcases Nat.lt_or_ge i a.length with h | h
        · exact h
        · rw [List.getElem?_eq_none h] at e; cases e
      have := h' ⟨i, hi⟩
      rw [List.getElem?_eq_getElem hi] at e; cases e; exact this⟩,
     fun ⟨h, h'⟩ => ⟨h, fun i => h' i _ (List.getElem?_eq_getElem i.isLt)⟩⟩
instance {T : Type _} [CppVal T] (a : List T) : Decidable (SortedR a) := inferInstanceAs (Decidable (_ ∧ _))
instance {T : Type _} [CppVal T] (a : List T) : Decidable (StrictR a) := inferInstanceAs (Decidable (_ ∧ _))
end Intervals.Spec
