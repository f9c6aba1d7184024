import Verif.Conformance.Common
import Verif.Model.Algorithm
/-!
# test/test-algorithm.cpp run on the model
-/
namespace Intervals.Conformance.AlgorithmTests

inductive Color where
  | red
  | green
  | blue
  deriving DecidableEq
open Color
abbrev CV : List Color := [red, green, blue]
abbrev B : List Bool := [false, true]

/-! enumerate(): scalars (62–67) -/
example : visits (enumerateS false) = .ok [false] ∧ visits (enumerateS true) = .ok [true] ∧ visits (enumerateS (i32 42)) = .ok [i32 42] := by
  decide +kernel
/-! enumerate(): set<bool> (68–74) -/
example : throws (enumerateSet (CSet.empty B)) ∧
    (do visits (← enumerateSet (← CSet.ofList B [false]))) = .ok [false] ∧ (do visits (← enumerateSet (← CSet.ofList B [true]))) = .ok [true] ∧
    (do visits (← enumerateSet (← CSet.ofList B [false, true]))) = .ok [false, true] := by decide +kernel
/-! enumerate(): set<Color> (75–81) -/
example : throws (enumerateSet (CSet.empty CV)) ∧
    (do visits (← enumerateSet (← CSet.ofList CV [red]))) = .ok [red] ∧ (do visits (← enumerateSet (← CSet.ofList CV [blue]))) = .ok [blue] ∧
    (do visits (← enumerateSet (← CSet.ofList CV [green, blue]))) = .ok [green, blue] := by decide +kernel
/-! enumerate(): interval<int> (82–87) -/
example : throws (enumerateI (Ivl.unassigned : Ivl (SInt 31))) ∧ (do visits (← enumerateI ⟨i32 3, i32 3⟩)) = .ok [i32 3] ∧
    (do visits (← enumerateI ⟨i32 3, i32 5⟩)) = .ok [i32 3, i32 4, i32 5] := by decide +kernel

def colors : List Color := [blue, green, red]
def numbers : List (SInt 31) := [i32 2, i32 4, i32 6, i32 8]
def ix (v : Int) : Index := if h : -(2:Int)^63 ≤ v ∧ v ≤ (2:Int)^63 - 1 then ⟨v, h.1, h.2⟩ else ⟨0, by decide, by decide⟩
def iv (a b : Int) : Ivl Index := ⟨ix a, ix b⟩

/-! at(): scalars (99–105) -/
example : throws (atS colors (ix (-1))) ∧ atS colors (ix 0) = .ok blue ∧ atS colors (ix 2) = .ok red ∧ throws (atS colors (ix 3)) := by
  decide +kernel
/-! at(): sets (106–116) -/
def atC (a b : Int) : Outcome (CSet CV) := atSet true colors (iv a b)
def isSet (o : Outcome (CSet CV)) (l : List Color) : Bool := check o (fun s => check (CSet.ofList CV l) (CSet.matchesSet s ·))
example : throws (atC (-1) (-1)) ∧ throws (atC (-1) 1) ∧ throws (atC 1 3) ∧ throws (atC 3 3) ∧ isSet (atC 0 1) [blue, green] ∧
    isSet (atC 1 2) [green, red] ∧ isSet (atC 0 2) [blue, green, red] ∧ isSet (atC 1 1) [green] := by decide +kernel
/-! at(): intervals (117–127) -/
def atN (a b : Int) : Outcome (Ivl (SInt 31)) := atI numbers (iv a b)
example : throws (atN (-1) (-1)) ∧ throws (atN (-1) 1) ∧ throws (atN 1 4) ∧ throws (atN 4 4) ∧ matchesI (atN 0 1) ⟨i32 2, i32 4⟩ ∧
    matchesI (atN 1 2) ⟨i32 4, i32 6⟩ ∧ matchesI (atN 0 2) ⟨i32 2, i32 6⟩ ∧ matchesI (atN 1 1) ⟨i32 4, i32 4⟩ := by decide +kernel

end Intervals.Conformance.AlgorithmTests
