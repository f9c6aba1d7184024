import Verif.Model.Convert
import Verif.Props.Noexcept
import Verif.Props.Unsigned
/-!
# C102: implicit conversions to narrower value types
-/
set_option linter.unusedSectionVars false
namespace Intervals.Props
open Intervals CppVal Spec

theorem castOf_narrow {n : Nat} (m : Nat) (v : SInt n) : CastOf m v.val (narrowCastV m v).val := by
  refine ⟨SInt.rep _, ?_⟩
  simp only [narrowCastV, wrapInt]
  have h1 : (v.val + 2^m) % 2^(m+1) ≡ v.val + 2^m [ZMOD 2^(m+1)] := Int.mod_modEq _ _
  simpa using h1.sub_right (2^m)
theorem castOf_unique {m : Nat} {v a b : Int} (ha : CastOf m v a) (hb : CastOf m v b) : a = b := by
  have h := ha.2.trans hb.2.symm
  obtain ⟨⟨a1, a2⟩, -⟩ := ha; obtain ⟨⟨b1, b2⟩, -⟩ := hb
  have e : (2:Int)^(m+1) = 2 * 2^m := by rw [pow_succ]; ring
  have := Int.emod_emod_of_dvd
  obtain ⟨k, hk⟩ := h.symm.dvd
  rw [e] at hk
  have hp : (0:Int) < 2^m := by positivity
  have : k = 0 := by
    by_contra h0
    rcases lt_or_gt_of_ne h0 with h | h
    · have : 2 * 2^m * k ≤ 2 * 2^m * (-1) := mul_le_mul_of_nonneg_left (by omega) (by omega)
      omega
    · have : 2 * 2^m * 1 ≤ 2 * 2^m * k := mul_le_mul_of_nonneg_left (by omega) (by omega)
      omega
  subst this; omega

/-- the numbers from `l` to `h` lie in one period of the conversion, i.e. they are the numbers of the target type plus a multiple of `2^(m+1)` -/
def OnePeriod (m : Nat) (l h : Int) : Prop := ∃ k : Int, Rep m (l - k * 2^(m+1)) ∧ Rep m (h - k * 2^(m+1))

/-- C102 for two integer types: the result has the converted bounds.  It is unassigned, without any report, exactly if the conversion reverses their order. -/
theorem C102_int {n : Nat} (m : Nat) (X : Ivl (SInt n)) :
    (X.lo.val ≤ X.hi.val → CastOf m X.lo.val (convertInt m X).lo.val ∧ CastOf m X.hi.val (convertInt m X).hi.val) ∧
    (X.lo.val ≤ X.hi.val → ((convertInt m X).assigned = false ↔ ∃ l h, CastOf m X.lo.val l ∧ CastOf m X.hi.val h ∧ h < l)) ∧
    (X.hi.val < X.lo.val → (convertInt m X).assigned = false) := by
  refine ⟨fun h => ?_, fun h => ?_, fun h => ?_⟩
  · have ha : X.assigned = true := (assigned_iff X).mpr h
    simp only [convertInt, convertI, if_pos ha]
    exact ⟨castOf_narrow m _, castOf_narrow m _⟩
  · have ha : X.assigned = true := (assigned_iff X).mpr h
    have e : (convertInt m X).assigned = false ↔ (narrowCastV m X.hi).val < (narrowCastV m X.lo).val := by
      rw [← Bool.not_eq_true, assigned_iff]
      simp only [convertInt, convertI, if_pos ha]; omega
    rw [e]
    exact ⟨fun h => ⟨_, _, castOf_narrow m _, castOf_narrow m _, h⟩, fun ⟨l, u, h1, h2, h3⟩ => by
      rw [castOf_unique (castOf_narrow m X.lo) h1, castOf_unique (castOf_narrow m X.hi) h2]; exact h3⟩
  · have ha : ¬ X.assigned = true := fun h' => absurd ((assigned_iff X).mp h') (by omega)
    simp only [convertInt, convertI, if_neg ha]
    have hp : (0:Int) < 2^m := by positivity
    rw [← Bool.not_eq_true, assigned_iff]
    show ¬ ((2:Int)^m - 1 ≤ -2^m)
    omega

/-- C102 for two integer types: the result contains the conversion of every point exactly if the interval lies in one period of the conversion, or the result happens to be the whole range of the
target type. -/
theorem C102_int_iff {n : Nat} (m : Nat) (X : Ivl (SInt n)) (hX : X.lo.val ≤ X.hi.val) :
    (∀ a c, X.lo.val ≤ a → a ≤ X.hi.val → CastOf m a c → (convertInt m X).lo.val ≤ c ∧ c ≤ (convertInt m X).hi.val) ↔
      OnePeriod m X.lo.val X.hi.val ∨ (CastOf m X.lo.val (-2^m) ∧ CastOf m X.hi.val (2^m - 1)) := by
  obtain ⟨cl, ch⟩ := (C102_int m X).1 hX
  generalize (convertInt m X).lo.val = l at *
  generalize (convertInt m X).hi.val = h at *
  generalize X.lo.val = x at *
  generalize X.hi.val = y at *
  have hp : (0:Int) < 2^m := by positivity
  have e : (2:Int)^(m+1) = 2 * 2^m := by rw [pow_succ]; ring
  constructor
  · intro H
    obtain ⟨k, hk⟩ := cl.2.symm.dvd
    -- l - x = 2^(m+1) * k
    by_cases hy : y ≤ x - l + 2^m - 1
    · left
      refine ⟨-k, ?_, ?_⟩
      · have : x - -k * 2^(m+1) = l := by linarith
        rw [this]; exact cl.1
      · have : y - -k * 2^(m+1) = y - x + l := by linarith
        rw [this]
        have := cl.1
        unfold Rep at this ⊢
        omega
    · right
      -- the last number of the period and the first of the next
      have t1 := H (x - l + 2^m - 1) (2^m - 1) (by have := cl.1.2; omega) (by omega) ⟨⟨by omega, by omega⟩, by
        have : (2:Int)^m - 1 ≡ (2^m - 1) + (x - l) [ZMOD 2^(m+1)] := by
          have := cl.2.symm.sub_right l
          simpa using (Int.ModEq.add_left (2^m - 1) this).symm
        convert this using 1; ring⟩
      have t2 := H (x - l + 2^m) (-2^m) (by have := cl.1.2; omega) (by omega) ⟨⟨le_rfl, by omega⟩, by
        have h1 : (2:Int)^m ≡ 2^m + (x - l) [ZMOD 2^(m+1)] := by
          have := cl.2.symm.sub_right l
          simpa using (Int.ModEq.add_left (2^m) this).symm
        have h2 : -(2:Int)^m ≡ 2^m [ZMOD 2^(m+1)] := by
          rw [Int.modEq_iff_dvd, e]; exact ⟨1, by ring⟩
        have := h2.trans h1
        convert this using 1; ring⟩
      have r1 := cl.1; have r2 := ch.1
      unfold Rep at r1 r2
      have e1 : l = -2^m := by omega
      have e2 : h = 2^m - 1 := by omega
      rw [← e1, ← e2]; exact ⟨cl, ch⟩
  · rintro (⟨k, h1, h2⟩ | ⟨h1, h2⟩) a c ha hb hc
    · have cc : CastOf m a (a - k * 2^(m+1)) := by
        refine ⟨?_, ?_⟩
        · unfold Rep at *; omega
        · rw [Int.modEq_iff_dvd]; exact ⟨k, by ring⟩
      have cx : CastOf m x (x - k * 2^(m+1)) := ⟨h1, by rw [Int.modEq_iff_dvd]; exact ⟨k, by ring⟩⟩
      have cy : CastOf m y (y - k * 2^(m+1)) := ⟨h2, by rw [Int.modEq_iff_dvd]; exact ⟨k, by ring⟩⟩
      rw [castOf_unique cl cx, castOf_unique ch cy, castOf_unique hc cc]
      omega
    · rw [castOf_unique cl h1, castOf_unique ch h2]
      have := hc.1
      unfold Rep at this
      omega

/-- C102 for two integer types, as stated: an interval whose bounds are values of the target type keeps its bounds; it does so only then. -/
theorem C102_int_exact {n : Nat} (m : Nat) (X : Ivl (SInt n)) (hX : X.lo.val ≤ X.hi.val) :
    ((convertInt m X).lo.val = X.lo.val ∧ (convertInt m X).hi.val = X.hi.val) ↔ Rep m X.lo.val ∧ Rep m X.hi.val := by
  obtain ⟨cl, ch⟩ := (C102_int m X).1 hX
  constructor
  · rintro ⟨h1, h2⟩; rw [h1] at cl; rw [h2] at ch; exact ⟨cl.1, ch.1⟩
  · rintro ⟨h1, h2⟩; exact ⟨castOf_unique cl ⟨h1, Int.ModEq.refl _⟩, castOf_unique ch ⟨h2, Int.ModEq.refl _⟩⟩

/-- C102: `narrow_cast` is the implicit conversion with a check of the order of the bounds; `narrow` and `narrow_failfast`, if they return, return the implicit conversion. -/
theorem C102_narrow {n : Nat} (m : Nat) (X : Ivl (SInt n)) :
    (narrowCastI m X = if X.assigned && !(convertInt m X).assigned then .error .contract else .ok (convertInt m X)) ∧
    (∀ R, narrowI m X = .ok R → R = convertInt m X) ∧ (∀ R, narrowFailfastI m X = .ok R → R = convertInt m X) := by
  have key : ∀ a b : SInt m, ∀ R, Ivl.make a b = .ok R → R = ⟨a, b⟩ := by
    intro a b R h; unfold Ivl.make expects at h; split at h <;> simp_all
  by_cases ha : X.assigned = true
  · refine ⟨?_, fun R h => ?_, fun R h => ?_⟩
    · simp only [narrowCastI, convertInt, convertI, ha, if_true, Bool.true_and]
      unfold Ivl.make expects Ivl.assigned
      cases hg : CppVal.gt (narrowCastV m X.lo) (narrowCastV m X.hi) <;> simp
    · simp only [narrowI, ha, if_true, narrowV] at h
      simp only [convertInt, convertI, ha, if_true]
      split at h
      · cases h
      · split at h
        · cases h
        · exact key _ _ _ h
    · simp only [narrowFailfastI, ha, if_true, narrowFailfastV] at h
      simp only [convertInt, convertI, ha, if_true]
      split at h
      · cases h
      · split at h
        · cases h
        · exact key _ _ _ h
  · have : X.assigned = false := by simpa using ha
    simp [narrowCastI, narrowI, narrowFailfastI, convertInt, convertI, this]

section float
variable {K : Type} [Field K] [LinearOrder K] [IsStrictOrderedRing K] [FloorRing K]

/-- C102 from a floating-point type to an integer type: if both bounds are in the range of the integer type, the result has the truncated bounds and contains the truncation of every point;
otherwise, also for NaN and infinite bounds, the implicit conversion is undefined behaviour.  Unassigned intervals stay unassigned. -/
theorem C102_to_int_partial (m : Nat) (X : Ivl (Fl K)) :
    (Proper X → Fits m X.lo → Fits m X.hi → ∃ R : Ivl (SInt m), convertFI m X = .ok R ∧ R.lo.val ≤ R.hi.val ∧
      IsTrunc (Fl.val X.lo) R.lo.val ∧ IsTrunc (Fl.val X.hi) R.hi.val ∧ ∀ a, a ∈ᵢ X → ∃ t, toIntV m a = .ok t ∧ t ∈ᵢ R) ∧
    (X.assigned = true → ¬ (Fits m X.lo ∧ Fits m X.hi) → convertFI m X = .error .ub) ∧
    (X.assigned = false → convertFI m X = .ok Ivl.unassigned) := by
  refine ⟨fun hX hl hh => ?_, fun ha h => ?_, fun ha => ?_⟩
  · obtain ⟨R, e, h1, h2, h3, h4⟩ := (C67_to_int_cast m X hX).1 hl hh
    refine ⟨R, ?_, h1, h2, h3, h4⟩
    have ha : X.assigned = true := assigned_nf hX
    simp only [narrowCastFI, narrowCastGI, ha, if_true] at e
    simp only [convertFI, convertO, ha, if_true]
    cases e1 : toIntV m X.lo with
    | error z => rw [e1] at e; cases e
    | ok s =>
      cases e2 : toIntV m X.hi with
      | error z => rw [e1, e2] at e; cases e
      | ok t =>
        rw [e1, e2] at e
        simp only [ok_bind] at e
        unfold Ivl.make expects at e
        split at e <;> simp_all
  · simp only [convertFI, convertO, ha, if_true]
    by_cases hl : Fits m X.lo
    · obtain ⟨s, hs, -⟩ := (toIntV_eq m X.lo).1 hl
      rw [hs, (toIntV_eq m X.hi).2 (fun hh => h ⟨hl, hh⟩)]; rfl
    · rw [(toIntV_eq m X.lo).2 hl]; rfl
  · simp [convertFI, convertO, ha]

end float

/-- C102 as stated, without its restrictions: the result of an implicit conversion is assigned and contains the conversion of every point -/
def C102_full : Prop :=
  (∀ (n m : Nat) (X : Ivl (SInt n)), X.lo.val ≤ X.hi.val → ∀ a c, X.lo.val ≤ a → a ≤ X.hi.val → CastOf m a c → (convertInt m X).lo.val ≤ c ∧ c ≤ (convertInt m X).hi.val) ∧
  (∀ (m : Nat) (X : Ivl (Fl ℚ)), Proper X → ∃ R, convertFI m X = .ok R)

/-- C102 is violated: `interval<int>` of the `interval<long long>` `[0, 2^31]` is unassigned, `interval<int>` of `[0, 2^32]` is `[0]`, and `interval<int>` of the `interval<double>` `[0, 1e10]`
is undefined behaviour. -/
theorem C102_violated :
    ¬ C102_full ∧ (convertInt 31 ⟨i64 0, i64 (2^31)⟩).assigned = false ∧
    ((convertInt 31 ⟨i64 0, i64 (2^32)⟩).lo.val, (convertInt 31 ⟨i64 0, i64 (2^32)⟩).hi.val) = (0, 0) ∧
    convertFI 31 (⟨.num 0, .num 10000000000⟩ : Ivl (Fl ℚ)) = .error .ub := by
  refine ⟨fun h => ?_, by decide, by decide, by decide +kernel⟩
  obtain ⟨R, hR⟩ := h.2 31 ⟨.num 0, .num 10000000000⟩ (by decide +kernel)
  have : convertFI 31 (⟨.num 0, .num 10000000000⟩ : Ivl (Fl ℚ)) = .error .ub := by decide +kernel
  rw [this] at hR; cases hR

/-! `interval<short>` of `[40000, 60000]` is `[-25536, -5536]`, one period further; `interval<short>` of `[-32768, 98303]` is the whole range; `interval<int>` of `[-2.5, 7.75]` is `[-2, 7]`. -/
example : OnePeriod 15 40000 60000 ∧ ((convertInt 15 ⟨i64 40000, i64 60000⟩).lo.val, (convertInt 15 ⟨i64 40000, i64 60000⟩).hi.val) = (-25536, -5536) :=
  ⟨⟨1, by unfold Rep; decide, by unfold Rep; decide⟩, by decide⟩
example : ¬ OnePeriod 15 (-32768) 98303 ∧ ((convertInt 15 ⟨i64 (-32768), i64 98303⟩).lo.val, (convertInt 15 ⟨i64 (-32768), i64 98303⟩).hi.val) = (-32768, 32767) :=
  ⟨by rintro ⟨k, h1, h2⟩; unfold Rep at h1 h2; omega, by decide⟩
example : (convertFI 31 (⟨.num (-5/2), .num (31/4)⟩ : Ivl (Fl ℚ))).map (fun R => (R.lo.val, R.hi.val)) = .ok (-2, 7) := by decide +kernel
end Intervals.Props
