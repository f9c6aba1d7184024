import Verif.Lemmas.Algorithm
/-!
# C51: `partition_point`, `lower_bound` and `upper_bound` with an interval value
-/
set_option linter.unusedSectionVars false
namespace Intervals.Props
open Intervals CppVal Spec

/-- C51 (general form).  If the predicate succeeds with a nonempty truth set on every element, and "always" and "possibly" each split the
range, then `partition_point` succeeds, and the position interval contains the scalar partition point of every Boolean predicate that
agrees with the interval predicate. -/
theorem C51_partition_point {V T : Type _} [CppVal T] [CppOrder T] (pred : V → Outcome (Cond T)) (c : V → Cond T) (a : List V)
    (hp : ∀ v ∈ a, pred v = .ok (c v)) (hne : ∀ v ∈ a, (c v).truth ≠ BoolSet.empty)
    (j k : Nat) (hj : IsPoint (fun v => BoolSet.always (c v).truth) a j) (hk : IsPoint (fun v => BoolSet.possibly (c v).truth) a k) :
    ∃ R, partitionPointI pred a = .ok R ∧ R.lo.val = j ∧ R.hi.val = k ∧
      ∀ p : V → Bool, (∀ v ∈ a, BoolSet.contains (c v).truth (p v) = true) → (∃ i, IsPoint p a i) →
        ∃ r, partitionPointS (fun v => .ok (p v)) a = .ok r ∧ r ∈ᵢ R := by
  obtain ⟨R, h1, h2, h3⟩ := partitionPointI_spec hp hne hj hk
  refine ⟨R, h1, h2, h3, fun p hsel ⟨i, hi⟩ => ?_⟩
  obtain ⟨r, hr, hr'⟩ := stdPartitionPoint_spec (pred := fun v => .ok (p v)) (fun _ _ => rfl) hi
  refine ⟨r, hr, ?_⟩
  have l1 : j ≤ i := point_mono (fun v hv h => by
    have := hsel v hv
    cases e : p v with
    | true => rfl
    | false => rw [e] at this; simp [BoolSet.always, this] at h) hj hi
  have l2 : i ≤ k := point_mono (fun v hv h => by have := hsel v hv; rw [h] at this; exact this) hi hk
  simp only [Pt, le, decide_eq_true_eq]
  omega

variable {T : Type _} [CppVal T] [CppOrder T]

/-- The scalar searches return the position the standard specifies (so that the comparison below is with the right thing). -/
theorem C51_scalar (a : List T) (ha : SortedR a) (x : T) (hx : NotNan x) :
    (∃ r, lowerBoundS a x = .ok r ∧ IsLowerBound a x r.val.toNat) ∧ (∃ r, upperBoundS a x = .ok r ∧ IsUpperBound a x r.val.toNat) := by
  obtain ⟨j, hj⟩ := exists_lower ha x
  obtain ⟨k, hk⟩ := exists_upper ha x
  obtain ⟨r, h1, h2⟩ := lowerBoundS_spec hj
  obtain ⟨s, h3, h4⟩ := upperBoundS_spec ha hx hk
  exact ⟨⟨r, h1, by rw [h2]; exact hj⟩, ⟨s, h3, by rw [h4]; exact hk⟩⟩

/-- C51 for `lower_bound`.  `value` is the interval searched for, with or without identity; `dE` says whether the elements are of a
discrete type. -/
theorem C51_lower_bound (dbg dE : Bool) (a : List T) (ha : SortedR a) (value : Operand T) (X : Ivl T) (hv : value.arg = .ivl X)
    (hX : Proper X) :
    ∃ R, lowerBoundI dbg dE a value = .ok R ∧ lowerBoundS a X.lo = .ok R.lo ∧ lowerBoundS a X.hi = .ok R.hi ∧
      ∀ x, x ∈ᵢ X → ∃ r, lowerBoundS a x = .ok r ∧ r ∈ᵢ R := by
  have hpv : ProperA value.arg := by rw [hv]; exact hX
  obtain ⟨j, hj⟩ := exists_lower ha X.lo
  obtain ⟨k, hk⟩ := exists_lower ha X.hi
  have hloc : value.arg.lo = X.lo := by rw [hv]; rfl
  have hhic : value.arg.hi = X.hi := by rw [hv]; rfl
  obtain ⟨R, h1, h2, h3, h4⟩ := C51_partition_point (lowerPredI dbg dE value)
    (fun e => .less (compareLt (.scalar e) value.arg) (.scalar dE e) value) a
    (fun e he => lowerPredI_ok dbg dE value hpv e (ha.2 e he)) (fun e he => compareLt_ne _ _ (ha.2 e he) hpv) j k
    ⟨hj.1, fun i v e => by
      simp only [Cond.truth, lower_always hpv (ha.2 v (List.mem_of_getElem? e)), hloc]; exact hj.2 i v e⟩
    ⟨hk.1, fun i v e => by simp only [Cond.truth, lower_possibly, hhic]; exact hk.2 i v e⟩
  obtain ⟨r, hr, hr'⟩ := lowerBoundS_spec hj
  obtain ⟨s, hs, hs'⟩ := lowerBoundS_spec hk
  refine ⟨R, h1, ?_, ?_, fun x hx => ?_⟩
  · rw [hr]; congr 1; exact BInt.ext (by omega)
  · rw [hs]; congr 1; exact BInt.ext (by omega)
  · refine h4 (fun e => lt e x) (fun e he => ?_) (exists_lower ha x)
    have := ha.2 e he
    simp only [Cond.truth, contains_lt, hloc, hhic]
    unfold Pt NotNan at *
    simp only [Arg.lo, Arg.hi]
    grind

/-- C51 for `upper_bound`. -/
theorem C51_upper_bound (dbg dE : Bool) (a : List T) (ha : SortedR a) (value : Operand T) (X : Ivl T) (hv : value.arg = .ivl X)
    (hX : Proper X) :
    ∃ R, upperBoundI dbg dE a value = .ok R ∧ upperBoundS a X.lo = .ok R.lo ∧ upperBoundS a X.hi = .ok R.hi ∧
      ∀ x, x ∈ᵢ X → ∃ r, upperBoundS a x = .ok r ∧ r ∈ᵢ R := by
  have hpv : ProperA value.arg := by rw [hv]; exact hX
  obtain ⟨j, hj⟩ := exists_upper ha X.lo
  obtain ⟨k, hk⟩ := exists_upper ha X.hi
  have hloc : value.arg.lo = X.lo := by rw [hv]; rfl
  have hhic : value.arg.hi = X.hi := by rw [hv]; rfl
  obtain ⟨R, h1, h2, h3, h4⟩ := C51_partition_point (upperPredI dbg dE value)
    (fun e => .leq (BoolSet.notCore (compareLt value.arg (.scalar e))) (.scalar dE e) value) a
    (fun e he => upperPredI_ok dbg dE value hpv e (ha.2 e he)) (fun e he => not_ne_empty (compareLt_ne _ _ hpv (ha.2 e he))) j k
    ⟨hj.1, fun i v e => by
      simp only [Cond.truth, upper_always hpv (ha.2 v (List.mem_of_getElem? e)), hloc]; exact hj.2 i v e⟩
    ⟨hk.1, fun i v e => by simp only [Cond.truth, upper_possibly, hhic]; exact hk.2 i v e⟩
  have nlo : NotNan X.lo := by unfold Proper NotNan at *; grind
  have nhi : NotNan X.hi := by unfold Proper NotNan at *; grind
  obtain ⟨r, hr, hr'⟩ := upperBoundS_spec ha nlo hj
  obtain ⟨s, hs, hs'⟩ := upperBoundS_spec ha nhi hk
  refine ⟨R, h1, ?_, ?_, fun x hx => ?_⟩
  · rw [hr]; congr 1; exact BInt.ext (by omega)
  · rw [hs]; congr 1; exact BInt.ext (by omega)
  · have nx : NotNan x := by unfold Pt NotNan at *; grind
    obtain ⟨t, ht, ht'⟩ := h4 (fun e => le e x) (fun e he => by
      have := ha.2 e he
      simp only [Cond.truth, contains_not, contains_lt, hloc, hhic]
      unfold Pt NotNan at *
      simp only [Arg.lo, Arg.hi]
      grind) (exists_upper ha x)
    obtain ⟨i, hi⟩ := exists_upper ha x
    obtain ⟨w, hw, hw'⟩ := upperBoundS_spec ha nx hi
    obtain ⟨w', hw1, hw2⟩ := stdPartitionPoint_spec (pred := fun v => .ok (le v x)) (fun _ _ => rfl) hi
    have : t = w := by
      have e : Except.ok t = Except.ok (ε := Err) w' := by rw [← ht, ← hw1]; rfl
      cases e
      exact BInt.ext (by omega)
    subst this
    exact ⟨t, hw, ht'⟩

/-! A sorted range with duplicates and an interval that straddles them. -/
example : SortedR [i32 1, i32 2, i32 2, i32 5] ∧ Proper (⟨i32 2, i32 4⟩ : Ivl (SInt 31)) := by decide
example : (lowerBoundI true true [i32 1, i32 2, i32 2, i32 5] (.ident true 0 ⟨i32 2, i32 4⟩)).map (fun R => (R.lo.val, R.hi.val)) = .ok (1, 3) := by
  decide +kernel
end Intervals.Props
