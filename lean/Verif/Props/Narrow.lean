import Verif.Model.Narrow
import Verif.Lemmas.IntArith
import Verif.Lemmas.FltArith
import Verif.Lemmas.Corner
import Verif.Lemmas.BinFmt
/-!
# C48, C49: narrowing and conversions of intervals
-/
namespace Intervals.Props
open Intervals CppVal Spec

section narrow
variable {n m : Nat}

theorem wrapInt_rep {v : Int} (h : Rep m v) : wrapInt m v = v := by
  obtain ⟨h1, h2⟩ := h
  have : (2:Int)^(m+1) = 2 * 2^m := by rw [Int.pow_succ]; omega
  unfold wrapInt
  rw [Int.emod_eq_of_lt (by omega) (by omega)]; omega

theorem wrap_roundtrip (v : SInt n) : wrapInt n (wrapInt m v.val) = v.val ↔ Rep m v.val := by
  constructor
  · intro h
    have r := v.rep
    by_cases hnm : n ≤ m
    · have := pow_le_pow_right₀ (show (1:Int) ≤ 2 by decide) hnm
      exact ⟨by have := r.1; omega, by have := r.2; omega⟩
    · have hle : (2:Int)^m ≤ 2^n := pow_le_pow_right₀ (by decide) (by omega)
      have g := wrapInt_ge m v.val; have l := wrapInt_le m v.val
      rw [wrapInt_rep ⟨by omega, by omega⟩] at h
      rw [h] at g l
      exact ⟨g, by omega⟩
  · intro h
    rw [wrapInt_rep h, wrapInt_rep v.rep]

theorem narrowV_eq (v : SInt n) : narrowV m v = if Rep m v.val then .ok (narrowCastV m v) else .error .narrowing := by
  unfold narrowV
  have e : ne (narrowCastV n (narrowCastV m v)) v = true ↔ ¬ Rep m v.val := by
    rw [← wrap_roundtrip]; simp [ne, sint_eq, narrowCastV]
  by_cases h : Rep m v.val
  · simp only; rw [if_neg (by rw [e]; exact not_not.mpr h), if_pos h]
  · simp only; rw [if_pos (e.mpr h), if_neg h]
theorem narrowFailfastV_eq (v : SInt n) : narrowFailfastV m v = if Rep m v.val then .ok (narrowCastV m v) else .error .contract := by
  unfold narrowFailfastV
  have e : ne (narrowCastV n (narrowCastV m v)) v = true ↔ ¬ Rep m v.val := by
    rw [← wrap_roundtrip]; simp [ne, sint_eq, narrowCastV]
  by_cases h : Rep m v.val
  · simp only; rw [if_neg (by rw [e]; exact not_not.mpr h), if_pos h]
  · simp only; rw [if_pos (e.mpr h), if_neg h]

theorem assigned_iff (X : Ivl (SInt n)) : X.assigned = true ↔ X.lo.val ≤ X.hi.val := by
  simp [Ivl.assigned, CppVal.gt, sint_lt]
theorem cast_make {X : Ivl (SInt n)} (hX : X.lo.val ≤ X.hi.val) (hl : Rep m X.lo.val) (hh : Rep m X.hi.val) :
    ∃ R : Ivl (SInt m), Ivl.make (narrowCastV m X.lo) (narrowCastV m X.hi) = .ok R ∧ R.lo.val = X.lo.val ∧ R.hi.val = X.hi.val := by
  have h1 : (narrowCastV m X.lo).val = X.lo.val := wrapInt_rep hl
  have h2 : (narrowCastV m X.hi).val = X.hi.val := wrapInt_rep hh
  exact ⟨_, sint_make _ _ (by rw [h1, h2]; exact hX), h1, h2⟩

/-- C48: `narrow` returns the same bounds if they are representable in the target type and throws otherwise. -/
theorem C48_narrow (X : Ivl (SInt n)) (hX : X.lo.val ≤ X.hi.val) :
    (Rep m X.lo.val ∧ Rep m X.hi.val ∧ ∃ R : Ivl (SInt m), narrowI m X = .ok R ∧ R.lo.val = X.lo.val ∧ R.hi.val = X.hi.val) ∨
    (¬ (Rep m X.lo.val ∧ Rep m X.hi.val) ∧ narrowI m X = .error .narrowing) := by
  unfold narrowI
  rw [if_pos ((assigned_iff X).mpr hX), narrowV_eq, narrowV_eq]
  by_cases hl : Rep m X.lo.val
  · by_cases hh : Rep m X.hi.val
    · obtain ⟨R, e, h⟩ := cast_make hX hl hh
      rw [if_pos hl, if_pos hh]
      exact .inl ⟨hl, hh, R, e, h⟩
    · rw [if_pos hl, if_neg hh]; exact .inr ⟨fun h => hh h.2, rfl⟩
  · rw [if_neg hl]; exact .inr ⟨fun h => hl h.1, rfl⟩

/-- C48: `narrow_failfast`, the same with a contract violation. -/
theorem C48_narrow_failfast (X : Ivl (SInt n)) (hX : X.lo.val ≤ X.hi.val) :
    (Rep m X.lo.val ∧ Rep m X.hi.val ∧ ∃ R : Ivl (SInt m), narrowFailfastI m X = .ok R ∧ R.lo.val = X.lo.val ∧ R.hi.val = X.hi.val) ∨
    (¬ (Rep m X.lo.val ∧ Rep m X.hi.val) ∧ narrowFailfastI m X = .error .contract) := by
  unfold narrowFailfastI
  rw [if_pos ((assigned_iff X).mpr hX), narrowFailfastV_eq, narrowFailfastV_eq]
  by_cases hl : Rep m X.lo.val
  · by_cases hh : Rep m X.hi.val
    · obtain ⟨R, e, h⟩ := cast_make hX hl hh
      rw [if_pos hl, if_pos hh]
      exact .inl ⟨hl, hh, R, e, h⟩
    · rw [if_pos hl, if_neg hh]; exact .inr ⟨fun h => hh h.2, rfl⟩
  · rw [if_neg hl]; exact .inr ⟨fun h => hl h.1, rfl⟩

/-- C48: `narrow_cast` of representable bounds is exact. -/
theorem C48_narrow_cast (X : Ivl (SInt n)) (hX : X.lo.val ≤ X.hi.val) (hl : Rep m X.lo.val) (hh : Rep m X.hi.val) :
    ∃ R : Ivl (SInt m), narrowCastI m X = .ok R ∧ R.lo.val = X.lo.val ∧ R.hi.val = X.hi.val := by
  unfold narrowCastI
  rw [if_pos ((assigned_iff X).mpr hX)]
  exact cast_make hX hl hh

/-- C48: an unassigned interval stays unassigned. -/
theorem C48_unassigned (X : Ivl (SInt n)) (hX : X.hi.val < X.lo.val) :
    ∃ R : Ivl (SInt m), narrowI m X = .ok R ∧ narrowFailfastI m X = .ok R ∧ narrowCastI m X = .ok R ∧ R.assigned = false := by
  have h : ¬ X.assigned = true := by rw [assigned_iff]; omega
  refine ⟨Ivl.unassigned, if_neg h, if_neg h, if_neg h, ?_⟩
  have : (0:Int) < 2^m := Int.pow_pos (by decide)
  simp only [Ivl.assigned, CppVal.gt, sint_lt, Ivl.unassigned, CppLimits.top, CppLimits.bot, Bool.not_eq_false', decide_eq_true_eq]
  omega

/-- `narrow_cast` is not checked: `narrow_cast<int>([0, 2^32])` of a 64-bit interval is `[0,0]`, which has lost every other point, and
`narrow_cast<int>([0, 2^31])` violates the constructor's contract. -/
theorem C48_narrow_cast_unchecked :
    (∃ R, narrowCastI 31 (⟨⟨0, by decide, by decide⟩, ⟨2^32, by decide, by decide⟩⟩ : Ivl (SInt 63)) = .ok R ∧ R.lo.val = 0 ∧ R.hi.val = 0) ∧
    narrowCastI 31 (⟨⟨0, by decide, by decide⟩, ⟨2^31, by decide, by decide⟩⟩ : Ivl (SInt 63)) = .error .contract := by
  exact ⟨⟨⟨i32 0, i32 0⟩, by decide +kernel, rfl, rfl⟩, by decide +kernel⟩

/-! `long long` to `int`: `[-5, 2147483647]` narrows, `[-5, 2147483648]` does not. -/
example : Rep 31 (-5) ∧ Rep 31 2147483647 ∧ ¬ Rep 31 2147483648 := by unfold Rep; omega
end narrow

section convert
/-- C49: converting an interval keeps unassigned intervals unassigned and, for a monotone conversion of the values, maps every point of the
interval to a point of the result, whose bounds are the converted bounds. -/
theorem C49_convert {U T : Type _} [CppVal U] [CppOrder U] [CppVal T] [CppOrder T] [CppLimits T] [CppLawfulLimits T] (conv : U → T)
    (mono : ∀ a b, le a b = true → le (conv a) (conv b) = true) (X : Ivl U) :
    (X.assigned = false → (convertI conv X).assigned = false) ∧
    (Proper X → (convertI conv X).lo = conv X.lo ∧ (convertI conv X).hi = conv X.hi ∧ Proper (convertI conv X) ∧
      ∀ a, a ∈ᵢ X → conv a ∈ᵢ convertI conv X) := by
  constructor
  · intro h
    rw [convertI, if_neg (by rw [h]; decide)]
    simp only [Ivl.assigned, Ivl.unassigned, CppVal.gt, CppLawfulLimits.bot_lt_top, Bool.not_true]
  · intro h
    have e : convertI conv X = ⟨conv X.lo, conv X.hi⟩ := if_pos (assigned_of_proper (X := .ivl X) h)
    rw [e]
    exact ⟨rfl, rfl, mono _ _ h, fun a ha => ⟨mono _ _ ha.1, mono _ _ ha.2⟩⟩

/-- C49 for iterators: conversion of an unassigned iterator interval is a contract violation. -/
theorem C49_iter {U T : Type _} [CppVal U] [CppOrder U] [CppVal T] [CppOrder T] (conv : U → T)
    (mono : ∀ a b, le a b = true → le (conv a) (conv b) = true) (X : Ivl U) :
    (X.assigned = false → convertIter conv X = .error .contract) ∧
    (Proper X → ∃ R, convertIter conv X = .ok R ∧ Proper R ∧ ∀ a, a ∈ᵢ X → conv a ∈ᵢ R) := by
  constructor
  · intro h; simp only [convertIter, h]; rfl
  · intro h
    have e : X.assigned = true := assigned_of_proper (X := .ivl X) h
    refine ⟨⟨conv X.lo, conv X.hi⟩, by simp only [convertIter, e]; rfl, mono _ _ h, fun a ha => ⟨mono _ _ ha.1, mono _ _ ha.2⟩⟩

/-- C49: the value conversions that occur between the library's value types are monotone: wider integers, integers to floating point with
rounding, floating point to another format. -/
theorem C49_conversions_monotone {K : Type} [Field K] [LinearOrder K] [IsStrictOrderedRing K] [F : Fmt K] {n m : Nat} (h : n ≤ m) :
    (∀ a b : SInt n, le a b = true → le (widenV h a) (widenV h b) = true) ∧
    (∀ a b : SInt n, le a b = true → le (toFloatV a : Fl K) (toFloatV b) = true) ∧
    (∀ a b : Fl K, le a b = true → le (toFormatV F a) (toFormatV F b) = true) := by
  refine ⟨fun a b hab => hab, fun a b hab => ?_, fun a b hab => ?_⟩
  · rw [sint_le, decide_eq_true_eq] at hab
    exact Fmt.rnd_mono _ _ (by exact_mod_cast hab)
  · cases a <;> cases b <;> simp [toFormatV] at hab ⊢
    · exact Fl.nzero_le_rnd hab
    · exact Fl.rnd_le_nzero hab
    · exact Fmt.rnd_mono _ _ hab

/-- C49, combined: the conversions between arithmetic interval types preserve points. -/
theorem C49_points {K : Type} [Field K] [LinearOrder K] [IsStrictOrderedRing K] [F : Fmt K] {n m : Nat} (h : n ≤ m) :
    (∀ (X : Ivl (SInt n)) a, a ∈ᵢ X → widenV h a ∈ᵢ convertI (widenV h) X) ∧
    (∀ (X : Ivl (SInt n)) a, a ∈ᵢ X → (toFloatV a : Fl K) ∈ᵢ convertI toFloatV X) ∧
    (∀ (X : Ivl (Fl K)) a, a ∈ᵢ X → toFormatV F a ∈ᵢ convertI (toFormatV F) X) := by
  obtain ⟨h1, h2, h3⟩ := C49_conversions_monotone (K := K) h
  have pr : ∀ {T : Type _} [CppVal T] [CppOrder T] {X : Ivl T} {a : T}, a ∈ᵢ X → Proper X := fun ha => CppOrder.le_trans _ _ _ ha.1 ha.2
  exact ⟨fun X a ha => ((C49_convert _ h1 X).2 (pr ha)).2.2.2 a ha, fun X a ha => ((C49_convert _ h2 X).2 (pr ha)).2.2.2 a ha,
    fun X a ha => ((C49_convert _ h3 X).2 (pr ha)).2.2.2 a ha⟩

/-! `[16777217, 16777219]` as `int` converted to `float` (which has 24 bits) becomes `[16777216, 16777220]`. -/
example : letI := binary32Fmt
    convertI (toFloatV (K := ℚ)) (⟨i32 16777217, i32 16777219⟩ : Ivl (SInt 31)) = ⟨.num 16777216, .num 16777220⟩ := by
  decide +kernel
end convert
end Intervals.Props
