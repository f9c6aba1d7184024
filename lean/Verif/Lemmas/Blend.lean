import Verif.Lemmas.Exact
/-! Operands with finite bounds; the debug preconditions of the blending functions. -/
set_option linter.unusedSectionVars false
namespace Intervals
open CppVal Spec Fl
variable {K : Type} [Field K] [LinearOrder K] [IsStrictOrderedRing K]

/-- the operand has the finite bounds `k`, `l` -/
def IsA (X : Arg (Fl K)) (k l : K) : Prop := Is X.lo k ∧ Is X.hi l

theorem IsA.mem_num {X : Arg (Fl K)} {k l x : K} (h : IsA X k l) : Fl.num x ∈ₐ X ↔ k ≤ x ∧ x ≤ l := by
  rw [mem_bounds, h.1.le_iff (Is.num x), (Is.num x).le_iff h.2]

theorem IsA.scalar_eq {v : Fl K} {k l : K} (h : IsA (.scalar v) k l) : k = l := Is.unique h.1 h.2

theorem IsA.le {X : Arg (Fl K)} {k l : K} (h : IsA X k l) (hp : ProperA X) : k ≤ l :=
  (h.1.le_iff h.2).mp (proper_le hp)

theorem always_geA_zero (dbg : Bool) {X : Arg (Fl K)} {k l : K} (h : IsA X k l) (hp : ProperA X) :
    ∃ R, geA dbg X zeroA = .ok R ∧ R ≠ 0#2 ∧ BoolSet.always R = decide (0 ≤ k) := by
  cases X with
  | scalar v =>
    refine ⟨_, rfl, by cases CppVal.ge v (Fl.num 0) <;> decide, ?_⟩
    rw [show CppVal.ge v (Fl.num 0) = decide (0 ≤ k) from (Is.num 0).le_eq h.1]
    by_cases h0 : (0:K) ≤ k <;> simp [h0] <;> decide
  | ivl x =>
    refine ⟨compareLeq zeroA (.ivl x), ?_, ?_⟩
    · simp only [geA, opGe, zeroA, assigned_of_proper hp]
      simp [Arg.assigned]
    · have e1 : CppVal.le (zeroA : Arg (Fl K)).lo (Arg.ivl x).hi = decide (0 ≤ l) := (Is.num 0).le_eq h.2
      have e2 : CppVal.gt (zeroA : Arg (Fl K)).hi (Arg.ivl x).lo = decide (k < 0) := h.1.lt_eq (Is.num 0)
      have hkl := h.le hp
      simp only [compareLeq, e1, e2]
      by_cases h0 : (0:K) ≤ k
      · have h1 : (0:K) ≤ l := h0.trans hkl
        simp [h0, h1, not_lt.mpr h0]; decide
      · have h2 : k < 0 := not_le.mp h0
        by_cases h1 : (0:K) ≤ l <;> simp [h0, h1, h2] <;> decide

theorem and_always {R S : BoolSet} (hR : R ≠ 0#2) (hS : S ≠ 0#2) : BoolSet.always (BoolSet.and R S) = (BoolSet.always R && BoolSet.always S) := by
  revert R S; decide

theorem always_leA_one (dbg : Bool) {X : Arg (Fl K)} {k l : K} (h : IsA X k l) (hp : ProperA X) :
    ∃ R, leA dbg X (.scalar (.num 1)) = .ok R ∧ R ≠ 0#2 ∧ BoolSet.always R = decide (l ≤ 1) := by
  cases X with
  | scalar v =>
    refine ⟨_, rfl, by cases CppVal.le v (Fl.num 1) <;> decide, ?_⟩
    rw [show CppVal.le v (Fl.num 1) = decide (l ≤ 1) from h.2.le_eq (Is.num 1)]
    by_cases h0 : l ≤ (1:K) <;> simp [h0] <;> decide
  | ivl x =>
    refine ⟨compareLeq (.ivl x) (.scalar (.num 1)), ?_, ?_⟩
    · simp only [leA, opLe, assigned_of_proper hp]
      simp [Arg.assigned]
    · have e1 : CppVal.le (Arg.ivl x).lo (Arg.scalar (Fl.num (1:K))).hi = decide (k ≤ 1) := h.1.le_eq (Is.num 1)
      have e2 : CppVal.gt (Arg.ivl x).hi (Arg.scalar (Fl.num (1:K))).lo = decide (1 < l) := (Is.num 1).lt_eq h.2
      have hkl := h.le hp
      simp only [compareLeq, e1, e2]
      by_cases h0 : l ≤ (1:K)
      · have h1 : k ≤ (1:K) := hkl.trans h0
        simp [h0, h1, not_lt.mpr h0]; decide
      · have h2 : 1 < l := not_le.mp h0
        by_cases h1 : k ≤ (1:K) <;> simp [h0, h1, h2] <;> decide

theorem always_opGt_zero (dbg : Bool) {x : Ivl (Fl K)} {k l : K} (h : IsI x k l) (hkl : k ≤ l) :
    ∃ R, opGt dbg (.ivl x) zeroA = .ok R ∧ BoolSet.always R = decide (0 < k) := by
  have hp : Proper x := h.proper.mpr hkl
  refine ⟨compareLt zeroA (.ivl x), ?_, ?_⟩
  · simp only [opGt, zeroA, assigned_of_proper (X := .ivl x) hp]
    simp [Arg.assigned]
  · have e1 : CppVal.lt (zeroA : Arg (Fl K)).lo (Arg.ivl x).hi = decide (0 < l) := (Is.num 0).lt_eq h.2
    have e2 : CppVal.ge (zeroA : Arg (Fl K)).hi (Arg.ivl x).lo = decide (k ≤ 0) := h.1.le_eq (Is.num 0)
    simp only [compareLt, e1, e2]
    by_cases h0 : (0:K) < k
    · have h1 : (0:K) < l := h0.trans_le hkl
      simp [h0, h1, not_le.mpr h0]; decide
    · have h2 : k ≤ 0 := not_lt.mp h0
      by_cases h1 : (0:K) < l <;> simp [h0, h1, h2] <;> decide

theorem isInf_false {a : Fl K} {k : K} (h : Is a k) [Fmt K] : isNegInf a = false ∧ isPosInf a = false := by
  obtain ⟨h1, -⟩ := h
  cases a <;> simp [isFinite] at h1 <;> simp [isNegInf, isPosInf, CppVal.eq, ext, CppNum.ninf, CppNum.inf]
  all_goals exact fun _ h => by cases h

attribute [local instance] exactFmt in
theorem IsA.addI (dbg : Bool) {A B : Arg (Fl K)} {k l m n : K} (hA : IsA A k l) (hB : IsA B m n) (pA : ProperA A) (pB : ProperA B) :
    ∃ R, Intervals.addI dbg A B = .ok R ∧ IsI R (k + m) (l + n) := by
  obtain ⟨R, e, hR⟩ := (hA.1.add hB.1).make (hA.2.add hB.2) (add_le_add (hA.le pA) (hB.le pB))
  refine ⟨R, ?_, hR⟩
  unfold Intervals.addI
  rw [assigned_of_proper pA, assigned_of_proper pB, (isInf_false hA.1).1, (isInf_false hB.1).1]
  simpa [CppNum.add] using e
end Intervals
