import Verif.Props.Search
/-!
# C51 on ranges that are not sorted

The two searches of `partition_point` take the same steps until they part, and from then on stay in disjoint parts of the range; so the position interval
encloses the scalar results whether or not the range is sorted.
-/
set_option linter.unusedSectionVars false
namespace Intervals.Props
open Intervals CppVal Spec
section
variable {V : Type _}

/-- the loop ends within its part of the range, if the predicate succeeds -/
private theorem ppLoop_range {p : V → Bool} {pred : V → Outcome Bool} {a : List V} (hp : ∀ v ∈ a, pred v = .ok (p v)) :
    ∀ (len first : Nat), first + len ≤ a.length → ∃ j, ppLoop pred a first len = .ok j ∧ first ≤ j ∧ j ≤ first + len := by
  intro len
  induction len using Nat.strongRecOn with
  | ind len ih =>
    intro first h
    unfold ppLoop
    by_cases hl : len = 0
    · rw [if_pos hl]; exact ⟨first, rfl, by omega, by omega⟩
    have hlt : first + len / 2 < a.length := by omega
    rw [if_neg hl, List.getElem?_eq_getElem hlt]
    simp only [hp _ (List.getElem_mem hlt)]
    cases p a[first + len / 2] with
    | true =>
      obtain ⟨j, h1, h2, h3⟩ := ih (len - len / 2 - 1) (by omega) (first + len / 2 + 1) (by omega)
      exact ⟨j, h1, by omega, by omega⟩
    | false =>
      obtain ⟨j, h1, h2, h3⟩ := ih (len / 2) (by omega) first (by omega)
      exact ⟨j, h1, by omega, by omega⟩

/-- a predicate that holds more often is searched further behind -/
private theorem ppLoop_mono {p q : V → Bool} {pred pred' : V → Outcome Bool} {a : List V} (hp : ∀ v ∈ a, pred v = .ok (p v))
    (hq : ∀ v ∈ a, pred' v = .ok (q v)) (hpq : ∀ v ∈ a, p v = true → q v = true) : ∀ (len first : Nat), first + len ≤ a.length →
    ∃ j k, ppLoop pred a first len = .ok j ∧ ppLoop pred' a first len = .ok k ∧ j ≤ k ∧ k ≤ a.length := by
  intro len
  induction len using Nat.strongRecOn with
  | ind len ih =>
    intro first h
    by_cases hl : len = 0
    · unfold ppLoop; rw [if_pos hl, if_pos hl]; exact ⟨first, first, rfl, rfl, by omega, by omega⟩
    have hlt : first + len / 2 < a.length := by omega
    have hm := List.getElem_mem hlt
    have step : ∀ {r : V → Bool} {pr : V → Outcome Bool}, (∀ v ∈ a, pr v = .ok (r v)) → ppLoop pr a first len =
        if r a[first + len / 2] = true then ppLoop pr a (first + len / 2 + 1) (len - len / 2 - 1) else ppLoop pr a first (len / 2) := by
      intro r pr hr
      conv_lhs => unfold ppLoop
      rw [if_neg hl, List.getElem?_eq_getElem hlt]
      simp only [hr _ hm]
      cases r a[first + len / 2] <;> rfl
    rw [step hp, step hq]
    have imp := hpq _ hm
    cases e : p a[first + len / 2] with
    | true =>
      rw [e] at imp
      rw [imp rfl, if_pos rfl, if_pos rfl]
      exact ih _ (by omega) _ (by omega)
    | false =>
      cases e' : q a[first + len / 2] with
      | false => exact ih _ (by omega) _ (by omega)
      | true =>
        obtain ⟨j, h1, h2, h3⟩ := ppLoop_range hp (len / 2) first (by omega)
        obtain ⟨k, g1, g2, g3⟩ := ppLoop_range hq (len - len / 2 - 1) (first + len / 2 + 1) (by omega)
        exact ⟨j, k, h1, g1, by omega, by omega⟩

private theorem std_mono {p q : V → Bool} {pred pred' : V → Outcome Bool} {a : List V} (hp : ∀ v ∈ a, pred v = .ok (p v))
    (hq : ∀ v ∈ a, pred' v = .ok (q v)) (hpq : ∀ v ∈ a, p v = true → q v = true) :
    ∃ r s, stdPartitionPoint pred a = .ok r ∧ stdPartitionPoint pred' a = .ok s ∧ r.val ≤ s.val := by
  obtain ⟨j, k, h1, h2, h3, h4⟩ := ppLoop_mono hp hq hpq a.length 0 (by omega)
  refine ⟨⟨j, by omega, by omega⟩, ⟨k, by omega, by omega⟩, ?_, ?_, ?_⟩
  · unfold stdPartitionPoint; rw [h1, ok_bind, BInt.ofInt, dif_pos ⟨by omega, by omega⟩]
  · unfold stdPartitionPoint; rw [h2, ok_bind, BInt.ofInt, dif_pos ⟨by omega, by omega⟩]
  · simp only; omega

private theorem std_eq {p : V → Bool} {pred : V → Outcome Bool} {a : List V} (hp : ∀ v ∈ a, pred v = .ok (p v)) :
    stdPartitionPoint pred a = stdPartitionPoint (fun v => .ok (p v)) a := by
  obtain ⟨r, s, h1, h2, h3⟩ := std_mono (pred' := fun v => .ok (p v)) hp (fun _ _ => rfl) (fun _ _ h => h)
  obtain ⟨s', r', g1, g2, g3⟩ := std_mono (pred := fun v => .ok (p v)) (fun _ _ => rfl) hp (fun _ _ h => h)
  rw [h1] at g2; cases g2
  rw [h2] at g1; cases g1
  rw [h1, h2]; congr 1; exact BInt.ext (by omega)
end

/-- C51 (general form) for every range, sorted or not: if the predicate succeeds with a nonempty truth set on every element, then `partition_point` succeeds,
the bounds of the position interval are the scalar searches for "always" and for "possibly", and it contains the result of the scalar search for every Boolean
predicate that agrees with the interval predicate. -/
theorem C51_any_range {V T : Type _} [CppVal T] [CppOrder T] (pred : V → Outcome (Cond T)) (c : V → Cond T) (a : List V)
    (hp : ∀ v ∈ a, pred v = .ok (c v)) (hne : ∀ v ∈ a, (c v).truth ≠ BoolSet.empty) :
    ∃ R, partitionPointI pred a = .ok R ∧ Proper R ∧
      partitionPointS (fun v => .ok (BoolSet.always (c v).truth)) a = .ok R.lo ∧
      partitionPointS (fun v => .ok (BoolSet.possibly (c v).truth)) a = .ok R.hi ∧
      ∀ p : V → Bool, (∀ v ∈ a, BoolSet.contains (c v).truth (p v) = true) → ∃ r, partitionPointS (fun v => .ok (p v)) a = .ok r ∧ r ∈ᵢ R := by
  have alw : ∀ v ∈ a, (do return BoolSet.always (← pred v).truth : Outcome Bool) = .ok (BoolSet.always (c v).truth) :=
    fun v hv => by rw [hp v hv]; rfl
  have pos : ∀ v ∈ a, (do return BoolSet.possibly (← pred v).truth : Outcome Bool) = .ok (BoolSet.possibly (c v).truth) :=
    fun v hv => by rw [hp v hv]; rfl
  have imp : ∀ v ∈ a, BoolSet.always (c v).truth = true → BoolSet.possibly (c v).truth = true := fun v hv h => by
    have := hne v hv
    revert h this
    generalize (c v).truth = b
    revert b; decide
  obtain ⟨r, s, hr, hs, hle⟩ := std_mono alw pos imp
  refine ⟨⟨r, s⟩, ?_, ?_, ?_, ?_, fun p hsel => ?_⟩
  · unfold partitionPointI
    rw [hr, hs]
    simp only [ok_bind]
    exact make_eq_ok.mpr ⟨by simp [gt, lt]; omega, rfl⟩
  · simp only [Proper, le, decide_eq_true_eq]; omega
  · rw [partitionPointS, ← std_eq alw, hr]
  · rw [partitionPointS, ← std_eq pos, hs]
  · obtain ⟨r', t, hr', ht, l1⟩ := std_mono (pred' := fun v => .ok (p v)) alw (fun _ _ => rfl) (fun v hv h => by
      have := hsel v hv
      cases e : p v with
      | true => rfl
      | false => rw [e] at this; simp [BoolSet.always, this] at h)
    obtain ⟨t', s', ht', hs', l2⟩ := std_mono (pred := fun v => .ok (p v)) (fun _ _ => rfl) pos (fun v hv h => by
      have := hsel v hv; rw [h] at this; exact this)
    rw [hr] at hr'; cases hr'
    rw [hs] at hs'; cases hs'
    rw [ht] at ht'; cases ht'
    exact ⟨t, ht, by simp only [Pt, le, decide_eq_true_eq]; omega⟩

variable {T : Type _} [CppVal T] [CppOrder T]
/-- C51 for `lower_bound` and `upper_bound` on every range without NaN, sorted or not: the search with an interval succeeds, its bounds are the scalar searches
for the bounds of `X`, and it contains the result of the scalar search for every value of `X`. -/
theorem C51_bounds_any (kind : Search) (dbg dE : Bool) (a : List T) (ha : ∀ e ∈ a, NotNan e) (value : Operand T) (X : Ivl T) (hv : value.arg = .ivl X)
    (hX : Proper X) :
    ∃ R, kind.findI dbg dE a value = .ok R ∧ kind.findS a X.lo = .ok R.lo ∧ kind.findS a X.hi = .ok R.hi ∧
      ∀ x, x ∈ᵢ X → ∃ r, kind.findS a x = .ok r ∧ r ∈ᵢ R := by
  have hpv : ProperA value.arg := by rw [hv]; exact hX
  have hloc : value.arg.lo = X.lo := by rw [hv]; rfl
  have hhic : value.arg.hi = X.hi := by rw [hv]; rfl
  have nlo : NotNan X.lo := by unfold Proper NotNan at *; grind
  have nhi : NotNan X.hi := by unfold Proper NotNan at *; grind
  cases kind with
  | lower =>
    obtain ⟨R, h1, _, h2, h3, h4⟩ := C51_any_range (lowerPredI dbg dE value) (fun e => .less (compareLt (.scalar e) value.arg) (.scalar dE e) value) a
      (fun e he => lowerPredI_ok dbg dE value hpv e (ha e he)) (fun e he => compareLt_ne _ _ (ha e he) hpv)
    refine ⟨R, h1, ?_, ?_, fun x hx => h4 (fun e => lt e x) fun e he => ?_⟩
    · rw [← h2]
      exact std_eq fun e he => by simp only [Cond.truth, lower_always hpv (ha e he), hloc]; rfl
    · rw [← h3]
      exact std_eq fun e he => by simp only [Cond.truth, lower_possibly, hhic]; rfl
    · have := ha e he
      simp only [Cond.truth, contains_lt, hloc, hhic]
      unfold Pt NotNan at *
      simp only [Arg.lo, Arg.hi]
      grind
  | upper =>
    have flip : ∀ x, NotNan x → ∀ e ∈ a, upperPredS x e = .ok (le e x) := fun x hx e he => by
      have := ha e he
      unfold NotNan at *
      simp only [upperPredS, Except.ok.injEq]
      grind
    obtain ⟨R, h1, _, h2, h3, h4⟩ := C51_any_range (upperPredI dbg dE value)
      (fun e => .leq (BoolSet.notCore (compareLt value.arg (.scalar e))) (.scalar dE e) value) a
      (fun e he => upperPredI_ok dbg dE value hpv e (ha e he)) (fun e he => not_ne_empty (compareLt_ne _ _ hpv (ha e he)))
    refine ⟨R, h1, ?_, ?_, fun x hx => ?_⟩
    · rw [← h2]
      exact std_eq fun e he => by simp only [Cond.truth, upper_always hpv (ha e he), hloc]; exact flip _ nlo e he
    · rw [← h3]
      exact std_eq fun e he => by simp only [Cond.truth, upper_possibly, hhic]; exact flip _ nhi e he
    · have nx : NotNan x := by unfold Pt NotNan at *; grind
      obtain ⟨r, hr, hr'⟩ := h4 (fun e => le e x) fun e he => by
        have := ha e he
        simp only [Cond.truth, contains_not, contains_lt, hloc, hhic]
        unfold Pt NotNan at *
        simp only [Arg.lo, Arg.hi]
        grind
      exact ⟨r, by rw [← hr]; exact std_eq (flip x nx), hr'⟩

/-! A range that is not sorted. -/
example : ¬ SortedR [i32 2, i32 0, i32 4, i32 1, i32 0] ∧ Proper (⟨i32 1, i32 5⟩ : Ivl (SInt 31)) := by decide
example : (lowerBoundI true true [i32 2, i32 0, i32 4, i32 1, i32 0] (.anon true ⟨i32 1, i32 5⟩)).map (fun R => (R.lo.val, R.hi.val)) = .ok (2, 5) := by
  decide +kernel
end Intervals.Props
