import Verif.Props.Narrow
import Verif.Props.NarrowFlt
import Verif.Props.FltArith
import Mathlib.Data.Int.ModEq
/-!
# C69: functions declared `noexcept` do not fail

A contract violation (which throws in the configuration of the tests) or exception inside a `noexcept` function calls `std::terminate`.  The
functions declared `noexcept` that contain no check are modelled as plain total functions (`Ivl.ofVal`, `Ivl.assigned`, `Ivl.unassigned`, the
projections of `bool` and `set<bool>`, `isNegInf`, …).  The three that construct an interval from two bounds, and so contain the check
`!(lower > upper)`, are `nan_interval`, `inf_interval` and `narrow_cast`.
-/
set_option linter.unusedSectionVars false
namespace Intervals.Props
open Intervals CppVal Spec

/-- C69: `nan_interval` and `inf_interval` never fail. -/
theorem C69_special {K : Type} [Field K] [LinearOrder K] [Fmt K] :
    (∃ R : Ivl (Fl K), nanInterval = .ok R) ∧ (∃ R : Ivl (Fl K), infInterval = .ok R) :=
  ⟨⟨⟨.nan, .nan⟩, by simp [nanInterval, Ivl.make, CppNum.nan, CppVal.gt, CppVal.lt, Fl.ext, pure, Except.pure]⟩,
    ⟨⟨.ninf, .pinf⟩, make_ok_of_le (by simp [CppNum.ninf, CppNum.inf])⟩⟩

/-- C69 for `narrow_cast` to a floating-point type, from any type: never fails, also for NaN bounds and unassigned intervals. -/
theorem C69_narrow_cast_float {K : Type} [Field K] [LinearOrder K] [IsStrictOrderedRing K] [FloorRing K] (F : Fmt K) {n : Nat} (X : Ivl (Fl K)) (Y : Ivl (SInt n)) :
    (∃ R, narrowCastFF F X = .ok R) ∧ (∃ R : Ivl (Fl K), narrowCastIF F Y = .ok R) := by
  constructor
  · by_cases h : Proper X
    · obtain ⟨R, e, -⟩ := C67_float_cast F X h; exact ⟨R, e⟩
    · unfold narrowCastFF narrowCastGI
      by_cases ha : X.assigned = true
      · rw [if_pos ha]
        obtain ⟨l, u⟩ := X
        have hn : l = .nan ∨ u = .nan := by
          unfold Proper at h
          simp only [Ivl.assigned, CppVal.gt, Bool.not_eq_true', Bool.eq_false_iff, ne_eq, CppOrder.lt_iff] at ha
          cases l <;> cases u <;> simp_all
        refine ⟨⟨toFormatV F l, toFormatV F u⟩, ?_⟩
        simp only [toFormatO, ok_bind, Ivl.make]
        have : lt (toFormatV F u) (toFormatV F l) = false := by
          rcases hn with rfl | rfl
          · simp [toFormatV, CppVal.lt, Fl.ext]
          · simp [toFormatV, CppVal.lt, Fl.ext]
        simp [CppVal.gt, this, pure, Except.pure]
      · rw [if_neg ha]; exact ⟨_, rfl⟩
  · rcases le_or_gt Y.lo.val Y.hi.val with h | h
    · obtain ⟨R, e, -⟩ := C67_of_int_cast (K := K) F Y h; exact ⟨R, e⟩
    · have b : Y.assigned = false := by simp [Ivl.assigned, CppVal.gt, sint_lt, h]
      exact ⟨_, by unfold narrowCastIF narrowCastGI; rw [b]; rfl⟩

/-- the value of the target type (of `m` value bits) congruent to `v` modulo `2^(m+1)` -/
def CastOf (m : Nat) (v w : Int) : Prop := Rep m w ∧ w ≡ v [ZMOD 2^(m+1)]

/-- C69 for `narrow_cast` between integer types: it fails exactly if the interval is assigned and the conversion reverses the order of the
bounds. -/
theorem C69_narrow_cast_int_iff {n : Nat} (m : Nat) (X : Ivl (SInt n)) :
    (narrowCastI m X = .error .contract ∧ X.lo.val ≤ X.hi.val ∧ ∃ l h, CastOf m X.lo.val l ∧ CastOf m X.hi.val h ∧ h < l) ∨
    ((∃ R, narrowCastI m X = .ok R) ∧
      (X.lo.val ≤ X.hi.val → ∃ l h, CastOf m X.lo.val l ∧ CastOf m X.hi.val h ∧ l ≤ h)) := by
  have cast : ∀ v : SInt n, CastOf m v.val (narrowCastV m v).val := fun v => by
    refine ⟨SInt.rep _, ?_⟩
    simp only [narrowCastV, wrapInt]
    have h1 : (v.val + 2^m) % 2^(m+1) ≡ v.val + 2^m [ZMOD 2^(m+1)] := Int.mod_modEq _ _
    simpa using h1.sub_right (2^m)
  unfold narrowCastI
  by_cases ha : X.assigned = true
  · rw [if_pos ha]
    have hle : X.lo.val ≤ X.hi.val := (assigned_iff X).mp ha
    rcases lt_or_ge (narrowCastV m X.hi).val (narrowCastV m X.lo).val with h | h
    · left
      exact ⟨by simp [Ivl.make, CppVal.gt, sint_lt, h], hle, _, _, cast _, cast _, h⟩
    · right
      exact ⟨⟨_, make_ok_of_le (by rw [sint_le, decide_eq_true_eq]; exact h)⟩, fun _ => ⟨_, _, cast _, cast _, h⟩⟩
  · rw [if_neg ha]
    right
    exact ⟨⟨_, rfl⟩, fun h => absurd ((assigned_iff X).mpr h) ha⟩

/-- C69 for `narrow_cast` between integer types, in full: it never fails. -/
def C69_full : Prop := ∀ (n m : Nat) (X : Ivl (SInt n)), ∃ R, narrowCastI m X = .ok R
/-- C69 is violated: `narrow_cast<short>(interval<int>{0, 40000})` terminates the program. -/
theorem C69_violated : ¬ C69_full := by
  intro h
  obtain ⟨R, e⟩ := h 31 15 ⟨⟨0, by decide, by decide⟩, ⟨40000, by decide, by decide⟩⟩
  have : narrowCastI 15 (⟨⟨0, by decide, by decide⟩, ⟨40000, by decide, by decide⟩⟩ : Ivl (SInt 31)) = .error .contract := by decide +kernel
  rw [this] at e; cases e
/-- C69, what holds of it: `narrow_cast` between integer types does not fail on intervals with bounds of the target type, on one-value
intervals, and on unassigned intervals. -/
theorem C69_narrow_cast_int_partial {n : Nat} (m : Nat) (X : Ivl (SInt n))
    (h : (Rep m X.lo.val ∧ Rep m X.hi.val) ∨ X.lo.val = X.hi.val ∨ X.hi.val < X.lo.val) : ∃ R, narrowCastI m X = .ok R := by
  rcases le_or_gt X.lo.val X.hi.val with hle | hlt
  · rcases h with ⟨hl, hh⟩ | h | h
    · obtain ⟨R, e, -⟩ := C48_narrow_cast X hle hl hh; exact ⟨R, e⟩
    · unfold narrowCastI
      rw [if_pos ((assigned_iff X).mpr hle)]
      exact ⟨_, make_ok_of_le (by rw [sint_le, decide_eq_true_eq]; simp [narrowCastV, h])⟩
    · omega
  · obtain ⟨R, -, -, e, -⟩ := C48_unassigned (m := m) X hlt; exact ⟨R, e⟩

/-! Examples -/
example : CastOf 15 40000 (-25536) ∧ CastOf 15 0 0 := by unfold CastOf Rep Int.ModEq; decide
example : Rep 15 (-5) ∧ Rep 15 300 := by unfold Rep; decide
end Intervals.Props
