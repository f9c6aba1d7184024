import Verif.Props.Basic
import Mathlib.Data.Rat.Floor
/-!
# C61: construction and access — generic in the value type
-/
set_option linter.unusedSectionVars false
namespace Intervals.Props
open Intervals Intervals.Spec CppVal
variable {T : Type _} [CppVal T] [CppOrder T]

/-- what the observers of an interval say about its bounds: `lower()`, `upper()`, `get<0>`, `get<1>`, `infimum`, `supremum` return `lo`, `hi`, in both
build modes -/
def Observes (X : Ivl T) (lo hi : T) : Prop := ∀ dbg, X.lower dbg = .ok lo ∧ X.upper dbg = .ok hi ∧ X.get0 dbg = .ok lo ∧ X.get1 dbg = .ok hi ∧
  infimum dbg X = .ok lo ∧ supremum dbg X = .ok hi

theorem observes_of_assigned {X : Ivl T} (h : X.assigned = true) : Observes X X.lo X.hi := by
  intro dbg
  simp [Ivl.lower, Ivl.upper, Ivl.get0, Ivl.get1, infimum, supremum, h, pure, Except.pure]

/-- C61, endpoint constructor: `interval{ a, b }` is a contract violation if `a > b`; otherwise it is an assigned interval with exactly these bounds. -/
theorem C61_endpoints (a b : T) :
    (gt a b = true ∧ Ivl.make a b = .error .contract) ∨
    (gt a b = false ∧ ∃ X, Ivl.make a b = .ok X ∧ X.assigned = true ∧ Observes X a b) := by
  cases h : gt a b with
  | true => exact .inl ⟨rfl, by simp [Ivl.make, h]⟩
  | false =>
    have ha : (⟨a, b⟩ : Ivl T).assigned = true := by simp [Ivl.assigned, h]
    exact .inr ⟨rfl, ⟨a, b⟩, by simp [Ivl.make, h, pure, Except.pure], ha, observes_of_assigned ha⟩

/-- C61, points: the points of `interval{ a, b }` are the values from `a` to `b`; the bounds are among them. -/
theorem C61_points (a b : T) (hab : le a b = true) : ∃ X, Ivl.make a b = .ok X ∧ (∀ v, v ∈ᵢ X ↔ le a v = true ∧ le v b = true) ∧ a ∈ᵢ X ∧ b ∈ᵢ X := by
  refine ⟨⟨a, b⟩, ?_, fun v => Iff.rfl, ?_, ?_⟩
  · have : gt a b = false := by unfold CppVal.gt; grind
    simp [Ivl.make, this, pure, Except.pure]
  · unfold Pt; grind
  · unfold Pt; grind

/-- C61, converting constructor: `interval{ v }` is assigned, has the bounds `v`, and `value()` returns `v`; it matches `v`. -/
theorem C61_converting (v : T) (hv : NotNan v) : Proper (Ivl.ofVal v) ∧ Observes (Ivl.ofVal v) v v ∧ (Ivl.ofVal v).value = .ok v ∧
    (Ivl.ofVal v).matchesVal v = true := by
  have hp : Proper (Ivl.ofVal v) := hv
  have he : eq v v = true := by unfold NotNan at hv; grind
  refine ⟨hp, observes_of_assigned (assigned_of_proper hp), ?_, ?_⟩
  · simp [Ivl.value, Ivl.ofVal, he]
  · simp [Ivl.matchesVal, Ivl.ofVal, he]

/-- C61, default constructor: the interval is not assigned and has no points; `value()` fails, and so do the checked accessors in debug mode. -/
theorem C61_default [CppLimits T] [CppLawfulLimits T] : (Ivl.unassigned : Ivl T).assigned = false ∧ (∀ v : T, ¬ v ∈ᵢ Ivl.unassigned) ∧
    (Ivl.unassigned : Ivl T).value = .error .contract ∧ (Ivl.unassigned : Ivl T).lower true = .error .contract ∧
    (Ivl.unassigned : Ivl T).upper true = .error .contract ∧ (Ivl.unassigned : Ivl T).get0 true = .error .contract ∧
    (Ivl.unassigned : Ivl T).get1 true = .error .contract ∧ infimum true (Ivl.unassigned : Ivl T) = .error .contract ∧
    supremum true (Ivl.unassigned : Ivl T) = .error .contract := by
  have h := unassigned_assigned (T := T)
  have hl := CppLawfulLimits.bot_lt_top (T := T)
  have hne : eq (CppLimits.top : T) CppLimits.bot = false := by grind
  refine ⟨h, ?_, ?_, ?_⟩
  · intro v hv
    unfold Pt Ivl.unassigned at hv
    simp only at hv; grind
  · simp [Ivl.value, Ivl.unassigned, hne]
  · simp [Ivl.lower, Ivl.upper, Ivl.get0, Ivl.get1, infimum, supremum, h]

/-- C61, `from_unordered_bounds`: for NaN-free arguments in either order it returns the interval of all values between them. -/
theorem C61_unordered (b1 b2 : T) (h1 : NotNan b1) (h2 : NotNan b2) : ∃ X, Ivl.fromUnorderedBounds b1 b2 = .ok X ∧ Proper X ∧
    ∀ v, v ∈ᵢ X ↔ (le b1 v = true ∧ le v b2 = true) ∨ (le b2 v = true ∧ le v b1 = true) := by
  unfold NotNan at h1 h2
  refine ⟨⟨cmin b1 b2, cmax b1 b2⟩, ?_, ?_, ?_⟩
  · have : gt (cmin b1 b2) (cmax b1 b2) = false := by unfold CppVal.gt cmin cmax; grind
    simp [Ivl.fromUnorderedBounds, Ivl.make, this, pure, Except.pure]
  · unfold Proper cmin cmax; grind
  · intro v
    unfold Pt cmin cmax; grind

/-- C61, `value()`: it returns `v` exactly if all points of the interval equal `v` and there is one, and is a contract violation if the interval has two
different points or none. -/
theorem C61_value (X : Ivl T) (hX : NotNan X.lo ∧ NotNan X.hi) :
    (∃ v, X.value = .ok v ∧ v ∈ᵢ X ∧ ∀ w, w ∈ᵢ X → eq w v = true) ∨
    (X.value = .error .contract ∧ ((∀ v, ¬ v ∈ᵢ X) ∨ ∃ v w, v ∈ᵢ X ∧ w ∈ᵢ X ∧ eq v w = false)) := by
  obtain ⟨h1, h2⟩ := hX
  unfold NotNan at h1 h2
  unfold Pt
  cases h : eq X.lo X.hi with
  | true => exact .inl ⟨X.lo, by simp [Ivl.value, h], by grind, by intro w hw; grind⟩
  | false =>
    refine .inr ⟨by simp [Ivl.value, h], ?_⟩
    by_cases c : le X.lo X.hi = true
    · exact .inr ⟨X.lo, X.hi, by grind, by grind, h⟩
    · exact .inl (fun v hv => c (by grind))

/-- C61: the observers return the smallest and the largest point of a proper interval. -/
theorem C61_extreme (X : Ivl T) (hX : Proper X) : ∃ lo hi, Observes X lo hi ∧ lo ∈ᵢ X ∧ hi ∈ᵢ X ∧ ∀ v, v ∈ᵢ X → le lo v = true ∧ le v hi = true := by
  refine ⟨X.lo, X.hi, observes_of_assigned (assigned_of_proper hX), ?_, ?_, fun v hv => hv⟩
  · unfold Proper at hX; unfold Pt; grind
  · unfold Proper at hX; unfold Pt; grind

/-- C61, converting copy between `interval_base` instances: the copy is assigned exactly if the source is, has the same points, and its observers return
the same bounds if it is assigned. -/
theorem C61_convert [CppLimits T] [CppLawfulLimits T] (X : Ivl T) : (Ivl.convert X).assigned = X.assigned ∧ (∀ v, v ∈ᵢ Ivl.convert X ↔ v ∈ᵢ X) ∧
    (X.assigned = true → Observes (Ivl.convert X) X.lo X.hi) := by
  unfold Ivl.convert
  cases h : X.assigned with
  | true =>
    rw [if_pos rfl]
    exact ⟨h, fun v => Iff.rfl, fun _ => observes_of_assigned h⟩
  | false =>
    rw [if_neg (by decide)]
    refine ⟨unassigned_assigned, fun v => ⟨fun hv => absurd hv (C61_default.2.1 v), fun hv => ?_⟩, fun h' => by cases h'⟩
    exfalso
    have : gt X.lo X.hi = true := by simpa [Ivl.assigned] using h
    unfold Pt at hv; grind

/-! Non-vacuity. -/
example : le (i32 0) (i32 1) = true ∧ gt (i32 1) (i32 0) = true := by decide
example : NotNan (Fl.num (2:ℚ)) ∧ ¬ NotNan (Fl.nan : Fl ℚ) := by decide +kernel
example : Ivl.make (Fl.num (1:ℚ)) (Fl.num 0) = .error .contract := by decide +kernel
example : Ivl.fromUnorderedBounds (i32 3) (i32 1) = .ok ⟨i32 1, i32 3⟩ := by decide
example : (⟨i32 1, i32 3⟩ : Ivl (SInt 31)).value = .error .contract ∧ (⟨i32 3, i32 3⟩ : Ivl (SInt 31)).value = .ok (i32 3) := by decide
end Intervals.Props
