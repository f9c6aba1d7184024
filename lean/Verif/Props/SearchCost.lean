import Verif.Lemmas.Algorithm
/-!
# C91: how many elements the searches look at

The predicate is arbitrary and may fail, so a search depends on every element it looks at: if it looked at an element outside `S`, then a predicate that agrees
on `S` and fails on that element would change the outcome.
-/
set_option linter.unusedSectionVars false
namespace Intervals.Props
open Intervals CppVal Spec
universe u v w

/-- the outcome of `f` on the range `a` depends only on the length of the range and on what `g` returns for at most `n` of its elements (which elements, may
depend on `a` and `g`) -/
def LooksAt {V : Type u} {R : Type v} {ρ : Type w} (f : (V → Outcome ρ) → List V → Outcome R) (a : List V) (n : Nat) : Prop :=
  ∀ g : V → Outcome ρ, ∃ S : List Nat, S.length ≤ n ∧ (∀ i ∈ S, i < a.length) ∧
    ∀ (g' : V → Outcome ρ) (a' : List V), a'.length = a.length → (∀ i ∈ S, (a'[i]?).map g' = (a[i]?).map g) → f g' a' = f g a

private theorem ppLoop_looks {V : Type _} (pred : V → Outcome Bool) (a : List V) : ∀ (k len first : Nat), len < 2^k → first + len ≤ a.length →
    ∃ S : List Nat, S.length ≤ k ∧ (∀ i ∈ S, i < a.length) ∧
      ∀ (pred' : V → Outcome Bool) (a' : List V), (∀ i ∈ S, (a'[i]?).map pred' = (a[i]?).map pred) →
        ppLoop pred' a' first len = ppLoop pred a first len := by
  intro k
  induction k with
  | zero =>
    intro len first hk _
    exact ⟨[], by simp, by simp, fun _ _ _ => by unfold ppLoop; rw [if_pos (by simpa using hk), if_pos (by simpa using hk)]⟩
  | succ k ih =>
    intro len first hk h
    rw [Nat.pow_succ] at hk
    by_cases hl : len = 0
    · exact ⟨[], by simp, by simp, fun _ _ _ => by unfold ppLoop; rw [if_pos hl, if_pos hl]⟩
    have hlt : first + len / 2 < a.length := by omega
    have e := List.getElem?_eq_getElem hlt
    have step : ∀ (pred' : V → Outcome Bool) (a' : List V), (a'[first + len / 2]?).map pred' = (a[first + len / 2]?).map pred →
        ppLoop pred' a' first len = match pred a[first + len / 2] with
          | .error e => .error e
          | .ok true => ppLoop pred' a' (first + len / 2 + 1) (len - len / 2 - 1)
          | .ok false => ppLoop pred' a' first (len / 2) := by
      intro pred' a' h
      rw [e] at h
      conv_lhs => unfold ppLoop
      rw [if_neg hl]
      cases e' : a'[first + len / 2]? with
      | none => rw [e'] at h; cases h
      | some v =>
        rw [e'] at h
        have : pred' v = pred a[first + len / 2] := by simpa using h
        simp only [this]
        rfl
    cases hp : pred a[first + len / 2] with
    | error err =>
      refine ⟨[first + len / 2], by simp, by simpa using hlt, fun pred' a' h => ?_⟩
      rw [step pred' a' (h _ (by simp)), step pred a rfl, hp]
    | ok b =>
      cases b with
      | true =>
        obtain ⟨S, s1, s2, s3⟩ := ih (len - len / 2 - 1) (first + len / 2 + 1) (by omega) (by omega)
        refine ⟨(first + len / 2) :: S, by simp; omega, by simpa using ⟨hlt, s2⟩, fun pred' a' h => ?_⟩
        rw [step pred' a' (h _ (by simp)), step pred a rfl, hp]
        exact s3 pred' a' fun i hi => h i (by simp [hi])
      | false =>
        obtain ⟨S, s1, s2, s3⟩ := ih (len / 2) first (by omega) (by omega)
        refine ⟨(first + len / 2) :: S, by simp; omega, by simpa using ⟨hlt, s2⟩, fun pred' a' h => ?_⟩
        rw [step pred' a' (h _ (by simp)), step pred a rfl, hp]
        exact s3 pred' a' fun i hi => h i (by simp [hi])

private theorem ofInt_val (n : Nat) (m : Int) : (BInt.ofInt 0 n m).map (fun r => r.val) = if 0 ≤ m ∧ m ≤ n then .ok m else .error .ub := by
  unfold BInt.ofInt
  split <;> rfl

private theorem std_val {V : Type _} (pred : V → Outcome Bool) (a : List V) : (stdPartitionPoint pred a).map (fun r => r.val) =
    (ppLoop pred a 0 a.length >>= fun j => if 0 ≤ (j : Int) ∧ (j : Int) ≤ a.length then .ok (j : Int) else .error .ub) := by
  unfold stdPartitionPoint
  cases ppLoop pred a 0 a.length with
  | error e => rfl
  | ok j => exact ofInt_val _ _

/-- C91 for `partition_point` with a Boolean predicate: of fewer than `2^k` elements it looks at no more than `k`. -/
theorem C91_partition_point {V : Type _} (a : List V) (k : Nat) (hk : a.length < 2^k) :
    LooksAt (fun (pred : V → Outcome Bool) a => (partitionPointS pred a).map (fun r => r.val)) a k := by
  intro pred
  obtain ⟨S, s1, s2, s3⟩ := ppLoop_looks pred a k a.length 0 hk (by omega)
  refine ⟨S, s1, s2, fun pred' a' hl h => ?_⟩
  simp only [partitionPointS, std_val, hl, s3 pred' a' h]

private theorem map_of_map {V A B : Type _} {g g' : V → Outcome A} (k : A → B) {o o' : Option V} (h : o'.map g' = o.map g) :
    o'.map (fun v => do return k (← g' v)) = o.map (fun v => do return k (← g v)) := by
  cases o with
  | none => cases o' with
    | none => rfl
    | some v' => cases h
  | some v => cases o' with
    | none => cases h
    | some v' =>
      simp only [Option.map_some, Option.some.injEq] at h ⊢
      rw [h]

/-- C91 for `partition_point` with a predicate that returns a condition: it looks at no more than `2k` of fewer than `2^k` elements, `k` for each bound of the
position. -/
theorem C91_partition_point_interval {V T : Type _} [CppVal T] (a : List V) (k : Nat) (hk : a.length < 2^k) :
    LooksAt (fun (pred : V → Outcome (Cond T)) a => (partitionPointI pred a).map (fun R => (R.lo.val, R.hi.val))) a (2 * k) := by
  intro pred
  obtain ⟨S1, s1, s2, s3⟩ := ppLoop_looks (fun v => do return BoolSet.always (← pred v).truth) a k a.length 0 hk (by omega)
  obtain ⟨S2, t1, t2, t3⟩ := ppLoop_looks (fun v => do return BoolSet.possibly (← pred v).truth) a k a.length 0 hk (by omega)
  refine ⟨S1 ++ S2, by simp; omega, fun i hi => ?_, fun pred' a' hl h => ?_⟩
  · rcases List.mem_append.mp hi with h | h
    · exact s2 i h
    · exact t2 i h
  have e1 := s3 (fun v => do return BoolSet.always (← pred' v).truth) a' fun i hi => map_of_map _ (h i (by simp [hi]))
  have e2 := t3 (fun v => do return BoolSet.possibly (← pred' v).truth) a' fun i hi => map_of_map _ (h i (by simp [hi]))
  have key : ∀ (p : V → Outcome (Cond T)) (b : List V), (partitionPointI p b).map (fun R => (R.lo.val, R.hi.val)) =
      ((stdPartitionPoint (fun v => do return BoolSet.always (← p v).truth) b).map (fun r => r.val) >>= fun l =>
        (stdPartitionPoint (fun v => do return BoolSet.possibly (← p v).truth) b).map (fun r => r.val) >>= fun h =>
          if h < l then .error .contract else .ok (l, h)) := by
    intro p b
    unfold partitionPointI
    cases stdPartitionPoint (fun v => do return BoolSet.always (← p v).truth) b with
    | error e => rfl
    | ok r => cases stdPartitionPoint (fun v => do return BoolSet.possibly (← p v).truth) b with
      | error e => rfl
      | ok s =>
        show (Ivl.make r s).map _ = if s.val < r.val then _ else _
        unfold Ivl.make
        by_cases g : s.val < r.val
        · simp [gt, lt, g, Except.map]
        · simp [gt, lt, g, Except.map, pure, Except.pure]
  simp only [key, std_val, hl, e1, e2]

/-- C91 for `lower_bound` and `upper_bound` with an interval value: their results depend on at most `2k` of fewer than `2^k` elements. -/
theorem C91_bounds {T : Type _} [CppVal T] (kind : Search) (dbg dE : Bool) (value : Operand T) (a : List T) (k : Nat) (hk : a.length < 2^k) :
    ∃ S : List Nat, S.length ≤ 2 * k ∧ (∀ i ∈ S, i < a.length) ∧ ∀ a' : List T, a'.length = a.length → (∀ i ∈ S, a'[i]? = a[i]?) →
      (kind.findI dbg dE a' value).map (fun R => (R.lo.val, R.hi.val)) = (kind.findI dbg dE a value).map (fun R => (R.lo.val, R.hi.val)) := by
  obtain ⟨S, s1, s2, s3⟩ := C91_partition_point_interval a k hk (kind.predI dbg dE value)
  refine ⟨S, s1, s2, fun a' hl h => ?_⟩
  have := s3 (kind.predI dbg dE value) a' hl fun i hi => by rw [h i hi]
  cases kind <;> exact this

/-- C91 for constraining by a partition: it looks at no more than two elements, however long the range is. -/
theorem C91_constrain {V T : Type _} [CppVal T] [CppStep T] (dbg d : Bool) (id : Nat) (x : Ivl T) (J : Arg Index) (a : List V) :
    LooksAt (fun (pred : V → Outcome (Cond T)) a => constrainAt dbg d id x a pred J) a 2 := by
  intro pred
  refine ⟨[(J.lo.val - 1).toNat, J.hi.val.toNat].filter (· < a.length), List.length_filter_le _ _, by simp, fun pred' a' hl h => ?_⟩
  have rd : ∀ i : Int, (0 ≤ i → i < a.length → i.toNat ∈ [(J.lo.val - 1).toNat, J.hi.val.toNat]) →
      (rangeAt a' i >>= pred') = (rangeAt a i >>= pred) := by
    intro i hi
    unfold rangeAt
    by_cases h0 : i < 0
    · rw [if_pos h0, if_pos h0]; rfl
    rw [if_neg h0, if_neg h0]
    by_cases h1 : i < a.length
    · have := h i.toNat (by rw [List.mem_filter]; exact ⟨hi (by omega) h1, by simp; omega⟩)
      revert this
      cases a'[i.toNat]? <;> cases a[i.toNat]? <;> intro this <;> simp at this ⊢
      exact this
    · rw [List.getElem?_eq_none (by omega), List.getElem?_eq_none (by omega)]; rfl
  have e1 := rd (J.lo.val - 1) (by simp)
  have e2 := rd J.hi.val (by simp)
  have emp : a'.isEmpty = a.isEmpty := by cases a <;> cases a' <;> simp_all
  have unf : ∀ (p : V → Outcome (Cond T)) (b : List V), constrainAt dbg d id x b p J = (do
      expects J.assigned
      expectsDebug dbg (decide (0 ≤ J.lo.val) && decide (J.hi.val ≤ b.length))
      if b.isEmpty then return x
      let xlo ← if 0 < J.lo.val then ((rangeAt b (J.lo.val - 1) >>= p) >>= fun c => constrain dbg d id x c) else pure x
      let xhi ← if J.hi.val < b.length then ((rangeAt b J.hi.val >>= p) >>= fun c => Cond.mkNot dbg c >>= fun c' => constrain dbg d id x c') else pure x
      expectsDebug dbg (ge xlo.hi xhi.lo && le xlo.lo xhi.hi)
      Ivl.make (cmax xlo.lo xhi.lo) (cmin xlo.hi xhi.hi)) := by
    intro p b
    unfold constrainAt partitionAt constrainPart
    simp only [bind_assoc, pure_bind]
  simp only [unf, e1, e2, emp, hl]

/-! Seven elements, three looked at; with a predicate that fails on every other element the search still succeeds. -/
example : [10, 20, 30, 40, 50, 60, 70].length < 2^3 ∧
    ((partitionPointS (fun v : Nat => if v = 40 ∨ v = 60 ∨ v = 50 then .ok (decide (v < 45)) else .error .contract) [10, 20, 30, 40, 50, 60, 70]).map
      (fun r => r.val)) = .ok 4 := by decide +kernel
end Intervals.Props
