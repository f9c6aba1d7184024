import Verif.Props.OverloadSets
/-!
# C75: `if_else`, `constrain`, `assign`, `merge`; plain arguments
-/
set_option linter.unusedSimpArgs false
set_option linter.unusedTactic false
set_option linter.unreachableTactic false
set_option linter.unnecessarySeqFocus false
set_option linter.unusedVariables false
namespace Intervals.Props
open Intervals.Traits Intervals.Overload Intervals.Spec CppType

set_option maxHeartbeats 1000000

@[local simp] theorem di_interval_flt (n : Nat) : deduceInterval (interval (flt n)) = some (flt n) := rfl
@[local simp] theorem di_interval_int (n : Nat) : deduceInterval (interval (int n)) = some (int n) := rfl
@[local simp] theorem di_interval_iter (n : Nat) : deduceInterval (interval (iter n)) = some (iter n) := rfl
@[local simp] theorem di_cinterval_flt (n : Nat) : deduceInterval (cinterval (flt n)) = some (flt n) := rfl
@[local simp] theorem di_cinterval_int (n : Nat) : deduceInterval (cinterval (int n)) = some (int n) := rfl
@[local simp] theorem di_cinterval_iter (n : Nat) : deduceInterval (cinterval (iter n)) = some (iter n) := rfl
@[local simp] theorem di_flt (n : Nat) : deduceInterval (flt n) = none := rfl
@[local simp] theorem di_int (n : Nat) : deduceInterval (int n) = none := rfl
@[local simp] theorem di_iter (n : Nat) : deduceInterval (iter n) = none := rfl
@[local simp] theorem di_enum (n : Nat) : deduceInterval (enum n) = none := rfl
@[local simp] theorem di_bool : deduceInterval .bool = none := rfl
@[local simp] theorem di_set (v : CppType) (n : Nat) : deduceInterval (.set v n) = none := rfl
@[local simp] theorem di_cond (k : CondKind) (v w : CppType) : deduceInterval (.cond k v w) = none := rfl

/-- `if_else` on arithmetic values, truth values, enumerations -/
theorem lift_ifElse {env : Env} (he : EnvOk env) {v c t u : CppType} (hv : (okInterval env v = true ∧ isIterValue v = false) ∨ v = .bool ∨ ∃ n, v = enum n)
    (hc : Variant .bool c) (ht : Variant v t) (hu : Variant v u) (hi : SetFor .bool c ∨ SetFor v t ∨ SetFor v u) :
    ∃ s, call env .ifElse [c, t, u] = .ok s ∧ SetFor v s := by
  have b1 := rank_bool env
  have s1 := rank_set he
  have c1 := rank_cond he
  have n1 : ¬ SetFor .bool .bool := by intro h; cases h
  rcases hv with ⟨ho, hv⟩ | rfl | ⟨n, rfl⟩
  · have hs := setFor_interval ho
    have n2 : ¬ SetFor v v := by cases v <;> simp_all [okInterval] <;> intro h <;> cases h
    have hvar : ∀ t, Variant v t → t = v ∨ t = interval v ∨ t = cinterval v := by
      intro t ht
      rcases ht with rfl | h
      · exact .inl rfl
      · cases v <;> simp_all [okInterval] <;> cases h <;> simp
    have hv3 : (∃ n, v = flt n) ∨ ∃ n, v = int n ∧ env.signed n = true := by cases v <;> simp_all [okInterval, isIterValue]
    rcases variant_bool hc with rfl | rfl | ⟨k, l, r, rfl⟩ <;> rcases hvar t ht with rfl | rfl | rfl <;> rcases hvar u hu with rfl | rfl | rfl <;>
    rcases hv3 with ⟨n, rfl⟩ | ⟨n, rfl, h1⟩ <;>
    first
    | (exfalso; rcases hi with hi | hi | hi; exacts [n1 hi, n2 hi, n2 hi])
    | (refine ⟨_, by simp [call, cands, ifElseCands, b1, s1, c1, deduceSet, intervalValueT, isIntervalValue, isInterval, isSetInst, setOfT, setOfType, ranks3, exact,
        mkDefault, mkInterval, ho, isIterValue, resolve, viable, pick, better, leRanks]; rfl, ?_⟩; exact hs; done)
  · rcases variant_bool hc with rfl | rfl | ⟨k, l, r, rfl⟩ <;> rcases variant_bool ht with rfl | rfl | ⟨k', l', r', rfl⟩ <;>
    rcases variant_bool hu with rfl | rfl | ⟨k'', l'', r'', rfl⟩ <;>
    first
    | (exfalso; rcases hi with hi | hi | hi <;> exact n1 hi)
    | (refine ⟨_, by simp [call, cands, ifElseCands, b1, s1, c1, deduceSet, intervalValueT, isIntervalValue, isInterval, isSetInst, setOfT, setOfType, ranks3, exact,
        mkDefault, mkInterval, isIterValue, resolve, viable, pick, better, leRanks]; rfl, ?_⟩; constructor; done)
  · rcases variant_bool hc with rfl | rfl | ⟨k, l, r, rfl⟩ <;> rcases variant_enum ht with rfl | rfl <;> rcases variant_enum hu with rfl | rfl <;>
    (refine ⟨_, by simp [call, cands, ifElseCands, b1, s1, c1, deduceSet, intervalValueT, isIntervalValue, isInterval, isSetInst, setOfT, setOfType, ranks3, exact,
        mkDefault, mkInterval, isIterValue, resolve, viable, pick, better, leRanks]; rfl, ?_⟩; constructor; done)

/-- `if_else` on iterators and sets of iterators does not compile -/
theorem ifElse_iter {env : Env} (he : EnvOk env) (n : Nat) {c t u : CppType} (hc : Variant .bool c) (ht : Variant (iter n) t) (hu : Variant (iter n) u)
    (hi : SetFor .bool c ∨ SetFor (iter n) t ∨ SetFor (iter n) u) : call env .ifElse [c, t, u] = .illFormed := by
  have b1 := rank_bool env
  have s1 := rank_set he
  have c1 := rank_cond he
  have n1 : ¬ SetFor .bool .bool := by intro h; cases h
  have n2 : ¬ SetFor (iter n) (iter n) := by intro h; cases h
  have hvar : ∀ t, Variant (iter n) t → t = iter n ∨ t = interval (iter n) ∨ t = cinterval (iter n) := by
    intro t ht
    rcases ht with rfl | h
    · exact .inl rfl
    · cases h <;> simp
  rcases variant_bool hc with rfl | rfl | ⟨k, l, r, rfl⟩ <;> rcases hvar t ht with rfl | rfl | rfl <;> rcases hvar u hu with rfl | rfl | rfl <;>
  first
  | (exfalso; rcases hi with hi | hi | hi; exacts [n1 hi, n2 hi, n2 hi])
  | (simp [call, cands, ifElseCands, b1, s1, c1, deduceSet, intervalValueT, isIntervalValue, isInterval, isSetInst, setOfT, setOfType, ranks3, exact,
        mkDefault, mkInterval, isIterValue, resolve, viable, pick, better, leRanks]; done)

/-- `constrain` compiles for a value with a truth value, and for an lvalue interval with a condition -/
theorem call_constrain {env : Env} (he : EnvOk env) {v x c : CppType} (hv : okInterval env v = true) (hx : Variant v x) (hc : Variant .bool c) :
    (call env .constrain [x, c] = .ok x ↔ (x = v ∧ c = .bool) ∨ (isInterval x = true ∧ isCondition c = true)) ∧
    (call env .constrainRvalue [x, c] = .ok x ↔ x = v ∧ c = .bool) := by
  have b1 := rank_bool env
  have s1 := rank_set he
  have c1 := rank_cond he
  have hvar : x = v ∨ x = interval v ∨ x = cinterval v := by
    rcases hx with rfl | h
    · exact .inl rfl
    · cases v <;> simp_all [okInterval] <;> cases h <;> simp
  have hval : isIntervalValue v = true ∧ isInterval v = false := by cases v <;> simp_all [okInterval, isIntervalValue, isInterval]
  have i1 : interval v ≠ v := by intro h; have := congrArg sizeOf h; simp at this
  have i2 : cinterval v ≠ v := by intro h; have := congrArg sizeOf h; simp at this
  have i3 : isIntervalValue (interval v) = false ∧ isInterval (interval v) = true := ⟨rfl, rfl⟩
  have i4 : isIntervalValue (cinterval v) = false ∧ isInterval (cinterval v) = true := ⟨rfl, rfl⟩
  rcases variant_bool hc with rfl | rfl | ⟨k, l, r, rfl⟩ <;> rcases hvar with rfl | rfl | rfl <;>
  simp [call, cands, constrainCands, b1, s1, c1, hval, i1, i2, i3, i4, ranks2, exact, isCondition, resolve, viable, pick, better, leRanks]

/-- `assign`: everything can be assigned to an interval, only values to values -/
theorem call_assign {env : Env} {v x y : CppType} (hv : okInterval env v = true) (hc : env.convertible v v = true) (hx : x = v ∨ x = interval v) (hy : Variant v y) :
    call env .assign [x, y] = .ok voidT ↔ (x = interval v ∨ y = v) := by
  have hvar : y = v ∨ y = interval v ∨ y = cinterval v := by
    rcases hy with rfl | h
    · exact .inl rfl
    · cases v <;> simp_all [okInterval] <;> cases h <;> simp
  have hv3 : (∃ n, v = flt n) ∨ (∃ n, v = int n) ∨ ∃ n, v = iter n := by cases v <;> simp_all [okInterval]
  rcases hx with rfl | rfl <;> rcases hvar with rfl | rfl | rfl <;> rcases hv3 with ⟨n, rfl⟩ | ⟨n, rfl⟩ | ⟨n, rfl⟩ <;>
  simp [call, cands, assignCands, ranks2, exact, isIntervalValue, toValueRank, toIntervalRank, intervalValueT, isScalar, hc, resolve, viable, pick, better, leRanks]

/-- `merge` and `intersect` take values, or intervals, but not both -/
theorem call_merge {env : Env} (he : EnvOk env) {v : CppType} {ts : List CppType} (hv : Wide env v) (hn : ts ≠ []) (ht : ∀ t ∈ ts, Variant v t) :
    call env .merge ts = if ts.all isIntervalValue then .ok v else if ts.all isInterval then .ok (interval v) else .noOverload := by
  obtain ⟨x, xs, rfl⟩ := List.exists_cons_of_ne_nil hn
  have hval : ∀ t, Variant v t → intervalArgValueT t = some v ∧ (isIntervalValue t = true → t = v ∧ isInterval t = false) := by
    intro t ht
    have := variant_cases hv ht
    rcases wide_cases hv with ⟨n, rfl⟩ | ⟨n, rfl, h1⟩ | ⟨n, rfl⟩ <;> rcases this with rfl | rfl | rfl <;>
      simp [intervalArgValueT, isIntervalValue, intervalValueT, isInterval]
  have hsc : isScalar v = true := by rcases wide_cases hv with ⟨n, rfl⟩ | ⟨n, rfl, h1⟩ | ⟨n, rfl⟩ <;> rfl
  have key : ∀ ts : List CppType, (∀ t ∈ ts, Variant v t) → ts.mapM intervalArgValueT = some (List.replicate ts.length v) := by
    intro ts ht
    induction ts with
    | nil => rfl
    | cons t ts ih => simp [List.mapM_cons, (hval t (ht t (by simp))).1, ih (fun x hx => ht x (by simp [hx])), List.replicate_succ]
  have hcm : commonIntervalValueT env.common (x :: xs) = some v := by
    simp only [commonIntervalValueT, key _ ht, Option.bind_eq_bind, Option.bind_some]
    exact he.common_same v _ hsc
  simp only [call, cands, mergeCands, call_tmpl2, mkCommon, hcm, Option.bind_some, mkInterval, hv.1]
  by_cases h : (x :: xs).all isIntervalValue = true
  · have hx : isIntervalValue x = true := by simp at h; exact h.1
    have hxi := (hval x (ht x (by simp))).2 hx
    have hrep : x :: xs = List.replicate (xs.length + 1) v := by
      rw [List.eq_replicate_iff]
      exact ⟨by simp, fun b hb => ((hval b (ht b hb)).2 (List.all_eq_true.mp h b hb)).1⟩
    have hco : env.common (x :: xs) = some v := by rw [hrep]; exact he.common_same v _ hsc
    have hni : (x :: xs).all isInterval = false := by simp [hxi.2]
    rw [h, hni, hco]; simp
  · rw [Bool.not_eq_true] at h
    rw [h]
    cases h' : (x :: xs).all isInterval <;> simp

end Intervals.Props
