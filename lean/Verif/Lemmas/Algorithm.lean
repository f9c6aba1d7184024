import Verif.Spec.Algorithm
import Verif.Lemmas.Constraint
/-! Lemmas on binary search and on constraining by a partition. -/
set_option linter.unusedSectionVars false
namespace Intervals
open CppVal Spec

section
variable {V : Type _}
theorem isPoint_unique {p : V → Bool} {a : List V} {j k : Nat} (hj : IsPoint p a j) (hk : IsPoint p a k) : j = k := by
  obtain ⟨h1, h2⟩ := hj
  obtain ⟨h3, h4⟩ := hk
  rcases Nat.lt_trichotomy j k with h | h | h
  · have e := List.getElem?_eq_getElem (l := a) (i := j) (by omega)
    have := (h2 _ _ e).mp ((h4 _ _ e).mpr h); omega
  · exact h
  · have e := List.getElem?_eq_getElem (l := a) (i := k) (by omega)
    have := (h4 _ _ e).mp ((h2 _ _ e).mpr h); omega

theorem ppLoop_spec {p : V → Bool} {pred : V → Outcome Bool} {a : List V} (hp : ∀ v ∈ a, pred v = .ok (p v)) {j : Nat}
    (hj : IsPoint p a j) : ∀ (len first : Nat), first ≤ j → j ≤ first + len → first + len ≤ a.length → ppLoop pred a first len = .ok j := by
  intro len
  induction len using Nat.strongRecOn with
  | ind len ih =>
    intro first h1 h2 h3
    unfold ppLoop
    split
    · congr 1; omega
    · next hl =>
      have hlt : first + len / 2 < a.length := by omega
      have e := List.getElem?_eq_getElem hlt
      have hm := hp _ (List.getElem_mem hlt)
      have hiff := hj.2 _ _ e
      rw [e]
      simp only [hm]
      cases hv : p a[first + len / 2] with
      | true => exact ih _ (by omega) _ (by have := hiff.mp hv; omega) (by omega) (by omega)
      | false => exact ih _ (by omega) _ h1 (by rw [hv] at hiff; simp at hiff; omega) (by omega)

theorem stdPartitionPoint_spec {p : V → Bool} {pred : V → Outcome Bool} {a : List V} (hp : ∀ v ∈ a, pred v = .ok (p v)) {j : Nat}
    (hj : IsPoint p a j) : ∃ r : Iter a.length, stdPartitionPoint pred a = .ok r ∧ r.val = j := by
  have hj1 := hj.1
  refine ⟨⟨j, by omega, by omega⟩, ?_, rfl⟩
  unfold stdPartitionPoint
  rw [ppLoop_spec hp hj a.length 0 (by omega) (by omega) (by omega)]
  simp only [ok_bind, BInt.ofInt]
  rw [dif_pos ⟨by omega, by omega⟩]

/-- a predicate that, once false, stays false has a partition point -/
theorem exists_point {p : V → Bool} : ∀ (a : List V), a.Pairwise (fun u v => p v = true → p u = true) → ∃ j, IsPoint p a j := by
  intro a
  induction a with
  | nil => intro _; exact ⟨0, by simp, by simp⟩
  | cons u vs ih =>
    intro h
    rw [List.pairwise_cons] at h
    obtain ⟨j, hj1, hj2⟩ := ih h.2
    cases hu : p u with
    | true =>
      refine ⟨j + 1, by simp; omega, fun i v e => ?_⟩
      cases i with
      | zero => simp at e; subst e; simp [hu]
      | succ i => simp at e; have := hj2 i v e; rw [this]; omega
    | false =>
      refine ⟨0, by simp, fun i v e => ?_⟩
      cases i with
      | zero => simp at e; subst e; simp [hu]
      | succ i =>
        simp at e
        have hm := List.mem_of_getElem? e
        have := h.1 v hm
        rw [hu] at this
        simpa using this

/-- partition points are monotone in the predicate -/
theorem point_mono {p q : V → Bool} {a : List V} {j k : Nat} (hpq : ∀ v ∈ a, p v = true → q v = true) (hj : IsPoint p a j)
    (hk : IsPoint q a k) : j ≤ k := by
  rcases Nat.lt_or_ge k j with h | h
  · have hj1 := hj.1
    have e := List.getElem?_eq_getElem (l := a) (i := k) (by omega)
    have := (hk.2 _ _ e).mp (hpq _ (List.mem_of_getElem? e) ((hj.2 _ _ e).mpr h)); omega
  · exact h
end

section
variable {T : Type _} [CppVal T] [CppOrder T]
theorem exists_lower {a : List T} (ha : SortedR a) (x : T) : ∃ j, IsLowerBound a x j := by
  refine exists_point a ?_
  have h2 := ha.2
  refine (List.Pairwise.imp_of_mem (fun {u v} hu hv huv => ?_) ha.1)
  have := h2 u hu; have := h2 v hv
  unfold NotNan at *
  grind
theorem exists_upper {a : List T} (ha : SortedR a) (x : T) : ∃ j, IsUpperBound a x j := by
  refine exists_point a ?_
  have h2 := ha.2
  refine (List.Pairwise.imp_of_mem (fun {u v} hu hv huv => ?_) ha.1)
  have := h2 u hu; have := h2 v hv
  unfold NotNan at *
  grind
theorem StrictR.sorted {a : List T} (h : StrictR a) : SortedR a :=
  ⟨h.1.imp (fun {u v} huv => by grind), h.2⟩

theorem lowerBoundS_spec {a : List T} {x : T} {j : Nat} (hj : IsLowerBound a x j) :
    ∃ r, lowerBoundS a x = .ok r ∧ r.val = j := stdPartitionPoint_spec (fun _ _ => rfl) hj
theorem upperBoundS_spec {a : List T} {x : T} {j : Nat} (ha : SortedR a) (hx : NotNan x) (hj : IsUpperBound a x j) :
    ∃ r, upperBoundS a x = .ok r ∧ r.val = j := by
  refine stdPartitionPoint_spec (fun v hv => ?_) hj
  have := ha.2 v hv
  unfold NotNan at *
  simp only [upperPredS, Except.ok.injEq]
  grind
end
end Intervals

namespace Intervals
open CppVal Spec
section
variable {T : Type _} [CppVal T] [CppOrder T]

theorem lowerPredI_ok (dbg dE : Bool) (v : Operand T) (hv : ProperA v.arg) (e : T) (he : NotNan e) :
    lowerPredI dbg dE v e = .ok (.less (compareLt (.scalar e) v.arg) (.scalar dE e) v) := by
  have h1 := properA_assigned hv
  have h2 : (Operand.scalar dE e).arg.assigned = true := rfl
  simp [lowerPredI, condLt, opLt, h1, h2, pure, Except.pure]; rfl
theorem compareLt_ne (l r : Arg T) (hl : ProperA l) (hr : ProperA r) : compareLt l r ≠ BoolSet.empty := by
  refine ne_empty_of ?_
  rw [contains_lt, contains_lt]
  have := properA_le hl; have := properA_le hr
  simp; grind
theorem upperPredI_ok (dbg dE : Bool) (v : Operand T) (hv : ProperA v.arg) (e : T) (he : NotNan e) :
    upperPredI dbg dE v e = .ok (.leq (BoolSet.notCore (compareLt v.arg (.scalar e))) (.scalar dE e) v) := by
  have h1 := properA_assigned hv
  have h2 : (Operand.scalar dE e).arg.assigned = true := rfl
  have hn := compareLt_ne v.arg (Operand.scalar dE e).arg hv he
  simp [upperPredI, condLt, opLt, h1, h2, Cond.mkNot, notM_ok hn, pure, Except.pure]; rfl

/-- `e < x` holds for all values of `x` iff for its lower bound, and for some iff for its upper bound -/
theorem lower_always {e : T} {v : Arg T} (hv : ProperA v) (he : NotNan e) :
    BoolSet.always (compareLt (.scalar e) v) = lt e v.lo := by
  unfold BoolSet.always; rw [contains_lt]
  have := properA_le hv
  unfold NotNan at he
  simp [Arg.hi]; grind
theorem lower_possibly {e : T} {v : Arg T} : BoolSet.possibly (compareLt (.scalar e) v) = lt e v.hi := by
  unfold BoolSet.possibly; rw [contains_lt]; rfl
theorem upper_always {e : T} {v : Arg T} (hv : ProperA v) (he : NotNan e) :
    BoolSet.always (BoolSet.notCore (compareLt v (.scalar e))) = le e v.lo := by
  unfold BoolSet.always; rw [contains_not, contains_lt]
  have := properA_le hv
  unfold NotNan at he
  simp [Arg.hi]; grind
theorem upper_possibly {e : T} {v : Arg T} : BoolSet.possibly (BoolSet.notCore (compareLt v (.scalar e))) = le e v.hi := by
  unfold BoolSet.possibly; rw [contains_not, contains_lt]; rfl

/-- the partition point of an interval predicate -/
theorem partitionPointI_spec {V : Type _} {pred : V → Outcome (Cond T)} {c : V → Cond T} {a : List V} (hp : ∀ v ∈ a, pred v = .ok (c v))
    (hne : ∀ v ∈ a, (c v).truth ≠ BoolSet.empty) {j k : Nat} (hj : IsPoint (fun v => BoolSet.always (c v).truth) a j)
    (hk : IsPoint (fun v => BoolSet.possibly (c v).truth) a k) :
    ∃ R, partitionPointI pred a = .ok R ∧ R.lo.val = j ∧ R.hi.val = k := by
  obtain ⟨r, hr, hr'⟩ := stdPartitionPoint_spec (pred := fun v => do return BoolSet.always (← pred v).truth)
    (fun v hv => by rw [hp v hv]; rfl) hj
  obtain ⟨s, hs, hs'⟩ := stdPartitionPoint_spec (pred := fun v => do return BoolSet.possibly (← pred v).truth)
    (fun v hv => by rw [hp v hv]; rfl) hk
  have hle : j ≤ k := by
    refine point_mono (fun v hv h => ?_) hj hk
    have := hne v hv
    revert h this
    generalize (c v).truth = b
    revert b; decide
  refine ⟨⟨r, s⟩, ?_, hr', hs'⟩
  unfold partitionPointI
  rw [hr, hs]
  simp only [ok_bind]
  refine make_eq_ok.mpr ⟨?_, rfl⟩
  simp [gt, lt]; omega
end
end Intervals
