import Verif.Props.Overload
/-!
# C75: generic code compiles with sets in place of values
-/
set_option linter.unusedSimpArgs false
set_option linter.unusedTactic false
set_option linter.unreachableTactic false
set_option linter.unnecessarySeqFocus false
namespace Intervals.Props
open Intervals.Traits Intervals.Overload Intervals.Spec CppType

/-- the value types of intervals -/
theorem wide_cases {env : Env} {v : CppType} (h : Wide env v) :
    (∃ n, v = flt n) ∨ (∃ n, v = int n ∧ env.signed n = true) ∨ ∃ n, v = iter n := by
  obtain ⟨h, -⟩ := h
  cases v <;> simp_all [okInterval]

theorem variant_cases {env : Env} {v t : CppType} (hv : Wide env v) (h : Variant v t) : t = v ∨ t = interval v ∨ t = cinterval v := by
  rcases h with rfl | h
  · exact .inl rfl
  · rcases wide_cases hv with ⟨n, rfl⟩ | ⟨n, rfl, -⟩ | ⟨n, rfl⟩ <;> cases h <;> simp

theorem setFor_interval {env : Env} {v : CppType} (h : okInterval env v = true) : SetFor v (interval v) := by
  apply SetFor.interval
  · cases v <;> simp_all [okInterval, isIntervalValue]
  · rintro rfl; simp [okInterval] at h

@[local simp] theorem ok_flt (env : Env) (n : Nat) : okInterval env (flt n) = true := rfl
@[local simp] theorem ok_iter (env : Env) (n : Nat) : okInterval env (iter n) = true := rfl
@[local simp] theorem ok_int (env : Env) (n : Nat) : okInterval env (int n) = env.signed n := rfl
@[local simp] theorem ar_flt (n : Nat) : isArithValue (flt n) = true := rfl
@[local simp] theorem ar_int (n : Nat) : isArithValue (int n) = true := rfl
@[local simp] theorem ar_iter (n : Nat) : isArithValue (iter n) = false := rfl
@[local simp] theorem ar_ivl (v : CppType) : isArithValue (interval v) = false := rfl
@[local simp] theorem ar_civl (v : CppType) : isArithValue (cinterval v) = false := rfl
@[local simp] theorem ar_enum (n : Nat) : isArithValue (enum n) = false := rfl
@[local simp] theorem ar_set (v : CppType) (n : Nat) : isArithValue (.set v n) = false := rfl

/-- computes a call whose argument types are known -/
macro "overload" "[" ts:Lean.Parser.Tactic.simpLemma,* "]" : tactic =>
  `(tactic| simp [call, cands, addCands, subCands, mulCands, divCands, negCands, posCands, minCands, infCands, arithUnCands, sgnCands, fltUnCands,
      fltTestCands, fltOpCands, prevCands, mergeCands, ifElseCands, constrainCands, assignCands, cmpCands, logCands, notCands, projCands,
      tmpl, builtinArith, ranks2, ranks3, exact, anyInterval, arithmeticOperands, floatingPointOperands, commonIntervalValueT, mkCommonArith, mkCommon,
      mkSelfArith, mkInterval, mkDefault, isInterval, isIntervalArg, isIntervalValue, isFltValue, isIntValue, isIterValue,
      isArithInterval, isFltInterval, isIntInterval, isIterInterval, isIntArg, isIterArg, intervalArgValueT, intervalValueT, intervalT, intervalOfT,
      sameValues, relationalValues, toSignRank, toSetSignRank, arithRank, signT, setSignT, setBoolT, setBase, isScalar, cmpResult, asInterval,
      deduceSet, deduceInterval, isSetInst, setOfT, setOfType, isCondition, isSetArgBool, setBoolCands, setEqCand,
      resolve, viable, pick, better, leRanks, $ts,*])
macro "overload" "[" ts:Lean.Parser.Tactic.simpLemma,* "]" "at" h:ident : tactic =>
  `(tactic| simp [call, cands, addCands, subCands, mulCands, divCands, negCands, posCands, minCands, infCands, arithUnCands, sgnCands, fltUnCands,
      fltTestCands, fltOpCands, prevCands, mergeCands, ifElseCands, constrainCands, assignCands, cmpCands, logCands, notCands, projCands,
      tmpl, builtinArith, ranks2, ranks3, exact, anyInterval, arithmeticOperands, floatingPointOperands, commonIntervalValueT, mkCommonArith, mkCommon,
      mkSelfArith, mkInterval, mkDefault, isInterval, isIntervalArg, isIntervalValue, isFltValue, isIntValue, isIterValue,
      isArithInterval, isFltInterval, isIntInterval, isIterInterval, isIntArg, isIterArg, intervalArgValueT, intervalValueT, intervalT, intervalOfT,
      sameValues, relationalValues, toSignRank, toSetSignRank, arithRank, signT, setSignT, setBoolT, setBase, isScalar, cmpResult, asInterval,
      deduceSet, deduceInterval, isSetInst, setOfT, setOfType, isCondition, isSetArgBool, setBoolCands, setEqCand,
      resolve, viable, pick, better, leRanks, $ts,*] at $h:ident)

theorem common_iter_left {env : Env} (he : EnvOk env) (n : Nat) (w : CppType) : (env.common [iter n, w]).any isArithValue = false := by
  cases h : env.common [iter n, w] with
  | none => rfl
  | some c => exact he.common_iter _ c ⟨iter n, by simp, rfl⟩ h
theorem common_iter_right {env : Env} (he : EnvOk env) (n : Nat) (w : CppType) : (env.common [w, iter n]).any isArithValue = false := by
  cases h : env.common [w, iter n] with
  | none => rfl
  | some c => exact he.common_iter _ c ⟨iter n, by simp, rfl⟩ h

set_option maxHeartbeats 1000000
theorem lift_add {env : Env} (he : EnvOk env) {v w t u r : CppType} (hv : Wide env v) (hw : Wide env w) (ht : Variant v t) (hu : Variant w u)
    (hi : isInterval t = true ∨ isInterval u = true) (hr : call env .add [v, w] = .ok r) : ∃ s, call env .add [t, u] = .ok s ∧ SetFor r s := by
  have hc := he.common_arith v w hv hw
  have ha := he.arith_ok v w
  have hn := he.narrowing_self
  have hs := @setFor_interval env
  have hd := he.diff_ok
  have ho := hv.1
  have ho' := hw.1
  have vt := variant_cases hv ht
  have wt := variant_cases hw hu
  have i1 := common_iter_left he
  have i2 := common_iter_right he
  clear ht hu
  rcases wide_cases hv with ⟨n, rfl⟩ | ⟨n, rfl, h1⟩ | ⟨n, rfl⟩ <;> rcases wide_cases hw with ⟨m, rfl⟩ | ⟨m, rfl, h2⟩ | ⟨m, rfl⟩ <;>
  (simp [ho, ho'] at hc ha) <;> overload [i1, i2] at hr <;>
  subst hr <;>
  rcases vt with rfl | rfl | rfl <;> rcases wt with rfl | rfl | rfl <;>
  first
  | (exfalso; revert hi; simp [isInterval]; done)
  | (refine ⟨_, by overload [hc, hn, ha, i1, i2, hd]; rfl, ?_⟩; exact hs (by simp [*]); done)
  | (refine ⟨_, by overload [hr]; rfl, ?_⟩; constructor; done)

theorem lift_sub {env : Env} (he : EnvOk env) {v w t u r : CppType} (hv : Wide env v) (hw : Wide env w) (ht : Variant v t) (hu : Variant w u)
    (hi : isInterval t = true ∨ isInterval u = true) (hr : call env .sub [v, w] = .ok r) : ∃ s, call env .sub [t, u] = .ok s ∧ SetFor r s := by
  have hc := he.common_arith v w hv hw
  have ha := he.arith_ok v w
  have hn := he.narrowing_self
  have hs := @setFor_interval env
  have hd := he.diff_ok
  have ho := hv.1
  have ho' := hw.1
  have vt := variant_cases hv ht
  have wt := variant_cases hw hu
  have i1 := common_iter_left he
  have i2 := common_iter_right he
  clear ht hu
  by_cases hit : (∃ n, v = iter n) ∧ ∃ m, w = iter m
  · obtain ⟨⟨n, rfl⟩, m, rfl⟩ := hit
    by_cases e : n = m
    · subst e
      overload [] at hr
      subst hr
      rcases vt with rfl | rfl | rfl <;> rcases wt with rfl | rfl | rfl <;>
      first
      | (exfalso; revert hi; simp [isInterval]; done)
      | (refine ⟨_, by overload [hd, i1]; rfl, ?_⟩; exact hs (hd _).2; done)
    · overload [e] at hr
  rcases wide_cases hv with ⟨n, rfl⟩ | ⟨n, rfl, h1⟩ | ⟨n, rfl⟩ <;> rcases wide_cases hw with ⟨m, rfl⟩ | ⟨m, rfl, h2⟩ | ⟨m, rfl⟩ <;>
  (first | (exfalso; exact hit ⟨⟨_, rfl⟩, _, rfl⟩) | skip) <;> (simp [ho, ho'] at hc ha) <;> overload [i1, i2] at hr <;>
  (try subst hr) <;>
  rcases vt with rfl | rfl | rfl <;> rcases wt with rfl | rfl | rfl <;>
  first
  | (exfalso; revert hi; simp [isInterval]; done)
  | (refine ⟨_, by overload [hc, hn, ha, i1, i2, hd]; rfl, ?_⟩; exact hs (by simp [*]); done)
  | (refine ⟨_, by overload [hr]; rfl, ?_⟩; constructor; done)

theorem lift_mul {env : Env} (he : EnvOk env) {v w t u r : CppType} (hv : Wide env v) (hw : Wide env w) (ht : Variant v t) (hu : Variant w u)
    (hi : isInterval t = true ∨ isInterval u = true) (hr : call env .mul [v, w] = .ok r) : ∃ s, call env .mul [t, u] = .ok s ∧ SetFor r s := by
  have hc := he.common_arith v w hv hw
  have ha := he.arith_ok v w
  have hn := he.narrowing_self
  have hs := @setFor_interval env
  have hd := he.diff_ok
  have ho := hv.1
  have ho' := hw.1
  have vt := variant_cases hv ht
  have wt := variant_cases hw hu
  have i1 := common_iter_left he
  have i2 := common_iter_right he
  clear ht hu
  rcases wide_cases hv with ⟨n, rfl⟩ | ⟨n, rfl, h1⟩ | ⟨n, rfl⟩ <;> rcases wide_cases hw with ⟨m, rfl⟩ | ⟨m, rfl, h2⟩ | ⟨m, rfl⟩ <;>
  (simp [ho, ho'] at hc ha) <;> overload [i1, i2] at hr <;>
  subst hr <;>
  rcases vt with rfl | rfl | rfl <;> rcases wt with rfl | rfl | rfl <;>
  first
  | (exfalso; revert hi; simp [isInterval]; done)
  | (refine ⟨_, by overload [hc, hn, ha, i1, i2, hd]; rfl, ?_⟩; exact hs (by simp [*]); done)
  | (refine ⟨_, by overload [hr]; rfl, ?_⟩; constructor; done)

theorem quotient {env : Env} (he : EnvOk env) {v w t u : CppType} (hv : Wide env v) (hw : Wide env w) (ha : isArithValue v = true) (hb : isArithValue w = true)
    (ht : Variant v t) (hu : Variant w u) : mkQuotient env t u = some (interval (env.arith v w)) := by
  have hc := he.common_arith v w hv hw ha hb
  have h1 : intervalArgValueT t = some v := by
    rcases variant_cases hv ht with rfl | rfl | rfl
    · simp [intervalArgValueT, arithValue_value ha]
    · rfl
    · rfl
  have h2 : intervalArgValueT u = some w := by
    rcases variant_cases hw hu with rfl | rfl | rfl
    · simp [intervalArgValueT, arithValue_value hb]
    · rfl
    · rfl
  have hm := he.arith_wide v w hv hw ha hb
  have h3 : (isIntValue (env.arith v w) && env.narrowing (env.arith .bool .bool) (env.arith v w)) = false := by
    rcases wide_cases hm with ⟨n, h⟩ | ⟨n, h, h'⟩ | ⟨n, h⟩
    · simp [h, isIntValue]
    · rw [h, he.narrowing_int n (h ▸ hm)]; simp
    · simp [h, isIntValue]
  simp only [mkQuotient, commonIntervalValueT, List.mapM_cons, h1, h2, Option.bind_eq_bind, Option.bind_some, hc, mkInterval, hm.1, List.mapM_nil,
    Option.pure_def, Bool.and_assoc, h3, Bool.and_false]
  simp

theorem lift_div {env : Env} (he : EnvOk env) {v w t u r : CppType} (hv : Wide env v) (hw : Wide env w) (ht : Variant v t) (hu : Variant w u)
    (hi : isInterval t = true ∨ isInterval u = true) (hr : call env .div [v, w] = .ok r) : ∃ s, call env .div [t, u] = .ok s ∧ SetFor r s := by
  have hp : isArithValue v = true ∧ isArithValue w = true ∧ r = env.arith v w := by
    rcases wide_cases hv with ⟨n, rfl⟩ | ⟨n, rfl, h1⟩ | ⟨n, rfl⟩ <;> rcases wide_cases hw with ⟨m, rfl⟩ | ⟨m, rfl, h2⟩ | ⟨m, rfl⟩ <;>
    overload [common_iter_left he, common_iter_right he] at hr <;> simp [hr]
  obtain ⟨ha, hb, rfl⟩ := hp
  have hc := he.common_arith v w hv hw ha hb
  have hq := quotient he hv hw ha hb ht hu
  have hm := he.arith_wide v w hv hw ha hb
  have h0 := (he.arith_ok v w ha hb).1
  have hval : ∀ v t, Wide env v → isArithValue v = true → Variant v t → intervalArgValueT t = some v ∧ isIntervalArg t = true ∧ (isInterval t = true → arithRank t = none) := by
    intro v t hv ha ht
    rcases variant_cases hv ht with rfl | rfl | rfl
    · have := arithValue_value ha
      exact ⟨by simp [intervalArgValueT, this], by simp [isIntervalArg, this], fun h => by simp [value_not_interval this] at h⟩
    · exact ⟨rfl, rfl, fun _ => rfl⟩
    · exact ⟨rfl, rfl, fun _ => rfl⟩
  obtain ⟨t1, t2, t3⟩ := hval v t hv ha ht
  obtain ⟨u1, u2, u3⟩ := hval w u hw hb hu
  have h1 : (anyInterval [t, u] && arithmeticOperands env [t, u]) = true := by
    simp [anyInterval, arithmeticOperands, commonIntervalValueT, t1, t2, u1, u2, hc, h0, hi]
  have h2 : ranks2 (arithRank t) (arithRank u) = none := by
    rcases hi with hi | hi
    · simp [ranks2, t3 hi]
    · simp [ranks2, u3 hi]
  refine ⟨interval (env.arith v w), ?_, setFor_interval hm.1⟩
  simp only [call, cands, divCands, h1, hq, builtinArith, h2]
  simp [tmpl, resolve, viable, pick]

theorem lift_min {env : Env} (he : EnvOk env) {v w t u r : CppType} (hv : Wide env v) (hw : Wide env w) (ht : Variant v t) (hu : Variant w u)
    (hi : isInterval t = true ∨ isInterval u = true) (hr : call env .min [v, w] = .ok r) : ∃ s, call env .min [t, u] = .ok s ∧ SetFor r s := by
  have e : v = w := by
    by_contra e
    simp only [call, cands, minCands, call_tmpl2] at hr
    simp [e] at hr
    rcases wide_cases hv with ⟨n, rfl⟩ | ⟨n, rfl, h1⟩ | ⟨n, rfl⟩ <;> rcases wide_cases hw with ⟨m, rfl⟩ | ⟨m, rfl, h2⟩ | ⟨m, rfl⟩ <;>
      simp_all [sameValues, intervalArgValueT, isIntervalValue, anyInterval, isInterval, intervalValueT]
  subst e
  have hr' : r = v := by
    have h1 : isInterval v = false := by rcases wide_cases hv with ⟨n, rfl⟩ | ⟨n, rfl, h1⟩ | ⟨n, rfl⟩ <;> rfl
    have h2 : isIntervalValue v = true := by rcases wide_cases hv with ⟨n, rfl⟩ | ⟨n, rfl, h1⟩ | ⟨n, rfl⟩ <;> rfl
    simp only [call, cands, minCands, call_tmpl2] at hr
    simp [anyInterval, h1, h2] at hr
    exact hr.symm
  subst hr'
  have hrel := he.relational_self r hv.1
  have ho := hv.1
  have vt := variant_cases hv ht
  have wt := variant_cases hv hu
  have hs := setFor_interval ho
  rcases wide_cases hv with ⟨n, rfl⟩ | ⟨n, rfl, h1⟩ | ⟨n, rfl⟩ <;>
  rcases vt with rfl | rfl | rfl <;> rcases wt with rfl | rfl | rfl <;>
  first
  | (exfalso; revert hi; simp [isInterval]; done)
  | (refine ⟨_, by overload [ho, hrel]; rfl, ?_⟩; exact hs; done)

theorem lift_cmp {env : Env} {v w t u r : CppType} (op : CmpOp) (hv : Wide env v) (hw : Wide env w) (ht : Variant v t) (hu : Variant w u)
    (hi : isInterval t = true ∨ isInterval u = true) (hr : call env (.cmp op) [v, w] = .ok r) :
    ∃ s, call env (.cmp op) [t, u] = .ok s ∧ SetFor r s := by
  have hsc : ∀ v, Wide env v → isScalar v = true := by
    intro v hv; rcases wide_cases hv with ⟨n, rfl⟩ | ⟨n, rfl, h1⟩ | ⟨n, rfl⟩ <;> rfl
  have hrel : env.relational v w = true ∧ r = .bool := by
    simp only [call, cands, cmpCands, hsc v hv, hsc w hw, Bool.and_self, if_true] at hr
    cases h : env.relational v w <;> simp [h, resolve, viable, pick] at hr
    exact ⟨rfl, hr.symm⟩
  obtain ⟨hrel, rfl⟩ := hrel
  have hval : ∀ v t, Wide env v → Variant v t → intervalArgValueT t = some v ∧ setBase t = none ∧ (isInterval t = true → isScalar t = false) := by
    intro v t hv ht
    have := variant_cases hv ht
    rcases wide_cases hv with ⟨n, rfl⟩ | ⟨n, rfl, h1⟩ | ⟨n, rfl⟩ <;> rcases this with rfl | rfl | rfl <;>
      simp [intervalArgValueT, isIntervalValue, intervalValueT, setBase, isInterval, isScalar]
  obtain ⟨t1, t2, t3⟩ := hval v t hv ht
  obtain ⟨u1, u2, u3⟩ := hval w u hw hu
  have hns : (isScalar t && isScalar u) = false := by
    rcases hi with h | h
    · simp [t3 h]
    · simp [u3 h]
  have ha : (anyInterval [t, u] && relationalValues env t u) = true := by
    simp [anyInterval, relationalValues, t1, u1, hrel, hi]
  refine ⟨cmpResult op t u, ?_, ?_⟩
  · simp only [call, cands, cmpCands, hns, ha, setEqCand, setBoolCands, t2, u2]
    cases op <;> simp [tmpl, resolve, viable, pick]
  · cases op <;> exact .cond _ _ _

theorem lift_neg {env : Env} (he : EnvOk env) {v t r : CppType} (hv : Wide env v) (ht : SetFor v t)
    (hr : call env .neg [v] = .ok r) : ∃ s, call env .neg [t] = .ok s ∧ SetFor r s := by
  have ha := hv.2
  have hn := he.narrowing_self
  have hs := @setFor_interval env
  have ho := hv.1
  have vt : t = interval v ∨ t = cinterval v := by
    rcases variant_cases hv (.inr ht) with rfl | h
    · cases ht
    · exact h
  clear ht
  rcases wide_cases hv with ⟨n, rfl⟩ | ⟨n, rfl, h1⟩ | ⟨n, rfl⟩ <;>
  (simp [ho] at ha) <;> overload [] at hr <;>
  subst hr <;>
  rcases vt with rfl | rfl <;>
  first
  | (refine ⟨_, by overload [ha, hn, ho]; rfl, ?_⟩; exact hs (by simp [*]); done)
  | (refine ⟨_, by overload [ha, hn, ho]; rfl, ?_⟩; simp only [ha]; exact hs (by simp [*]); done)
  | (refine ⟨_, by overload [ha, hn, ho]; rfl, ?_⟩; constructor; done)

theorem lift_pos {env : Env} (he : EnvOk env) {v t r : CppType} (hv : Wide env v) (ht : SetFor v t)
    (hr : call env .pos [v] = .ok r) : ∃ s, call env .pos [t] = .ok s ∧ SetFor r s := by
  have ha := hv.2
  have hn := he.narrowing_self
  have hs := @setFor_interval env
  have ho := hv.1
  have vt : t = interval v ∨ t = cinterval v := by
    rcases variant_cases hv (.inr ht) with rfl | h
    · cases ht
    · exact h
  clear ht
  rcases wide_cases hv with ⟨n, rfl⟩ | ⟨n, rfl, h1⟩ | ⟨n, rfl⟩ <;>
  (simp [ho] at ha) <;> overload [] at hr <;>
  subst hr <;>
  rcases vt with rfl | rfl <;>
  first
  | (refine ⟨_, by overload [ha, hn, ho]; rfl, ?_⟩; exact hs (by simp [*]); done)
  | (refine ⟨_, by overload [ha, hn, ho]; rfl, ?_⟩; simp only [ha]; exact hs (by simp [*]); done)
  | (refine ⟨_, by overload [ha, hn, ho]; rfl, ?_⟩; constructor; done)

theorem lift_arithUn {env : Env} (he : EnvOk env) {v t r : CppType} (hv : Wide env v) (ht : SetFor v t)
    (hr : call env .arithUn [v] = .ok r) : ∃ s, call env .arithUn [t] = .ok s ∧ SetFor r s := by
  have ha := hv.2
  have hn := he.narrowing_self
  have hs := @setFor_interval env
  have ho := hv.1
  have vt : t = interval v ∨ t = cinterval v := by
    rcases variant_cases hv (.inr ht) with rfl | h
    · cases ht
    · exact h
  clear ht
  rcases wide_cases hv with ⟨n, rfl⟩ | ⟨n, rfl, h1⟩ | ⟨n, rfl⟩ <;>
  (simp [ho] at ha) <;> overload [] at hr <;>
  subst hr <;>
  rcases vt with rfl | rfl <;>
  first
  | (refine ⟨_, by overload [ha, hn, ho]; rfl, ?_⟩; exact hs (by simp [*]); done)
  | (refine ⟨_, by overload [ha, hn, ho]; rfl, ?_⟩; simp only [ha]; exact hs (by simp [*]); done)
  | (refine ⟨_, by overload [ha, hn, ho]; rfl, ?_⟩; constructor; done)

theorem lift_sgn {env : Env} (he : EnvOk env) {v t r : CppType} (hv : Wide env v) (ht : SetFor v t)
    (hr : call env .sgn [v] = .ok r) : ∃ s, call env .sgn [t] = .ok s ∧ SetFor r s := by
  have ha := hv.2
  have hn := he.narrowing_self
  have hs := @setFor_interval env
  have ho := hv.1
  have vt : t = interval v ∨ t = cinterval v := by
    rcases variant_cases hv (.inr ht) with rfl | h
    · cases ht
    · exact h
  clear ht
  rcases wide_cases hv with ⟨n, rfl⟩ | ⟨n, rfl, h1⟩ | ⟨n, rfl⟩ <;>
  (simp [ho] at ha) <;> overload [] at hr <;>
  subst hr <;>
  rcases vt with rfl | rfl <;>
  first
  | (refine ⟨_, by overload [ha, hn, ho]; rfl, ?_⟩; exact hs (by simp [*]); done)
  | (refine ⟨_, by overload [ha, hn, ho]; rfl, ?_⟩; simp only [ha]; exact hs (by simp [*]); done)
  | (refine ⟨_, by overload [ha, hn, ho]; rfl, ?_⟩; constructor; done)

theorem lift_fltUn {env : Env} (he : EnvOk env) {v t r : CppType} (hv : Wide env v) (ht : SetFor v t)
    (hr : call env .fltUn [v] = .ok r) : ∃ s, call env .fltUn [t] = .ok s ∧ SetFor r s := by
  have ha := hv.2
  have hn := he.narrowing_self
  have hs := @setFor_interval env
  have ho := hv.1
  have vt : t = interval v ∨ t = cinterval v := by
    rcases variant_cases hv (.inr ht) with rfl | h
    · cases ht
    · exact h
  clear ht
  rcases wide_cases hv with ⟨n, rfl⟩ | ⟨n, rfl, h1⟩ | ⟨n, rfl⟩ <;>
  (simp [ho] at ha) <;> overload [] at hr <;>
  subst hr <;>
  rcases vt with rfl | rfl <;>
  first
  | (refine ⟨_, by overload [ha, hn, ho]; rfl, ?_⟩; exact hs (by simp [*]); done)
  | (refine ⟨_, by overload [ha, hn, ho]; rfl, ?_⟩; simp only [ha]; exact hs (by simp [*]); done)
  | (refine ⟨_, by overload [ha, hn, ho]; rfl, ?_⟩; constructor; done)

theorem lift_fltTest {env : Env} (he : EnvOk env) {v t r : CppType} (hv : Wide env v) (ht : SetFor v t)
    (hr : call env .fltTest [v] = .ok r) : ∃ s, call env .fltTest [t] = .ok s ∧ SetFor r s := by
  have ha := hv.2
  have hn := he.narrowing_self
  have hs := @setFor_interval env
  have ho := hv.1
  have vt : t = interval v ∨ t = cinterval v := by
    rcases variant_cases hv (.inr ht) with rfl | h
    · cases ht
    · exact h
  clear ht
  rcases wide_cases hv with ⟨n, rfl⟩ | ⟨n, rfl, h1⟩ | ⟨n, rfl⟩ <;>
  (simp [ho] at ha) <;> overload [] at hr <;>
  subst hr <;>
  rcases vt with rfl | rfl <;>
  first
  | (refine ⟨_, by overload [ha, hn, ho]; rfl, ?_⟩; exact hs (by simp [*]); done)
  | (refine ⟨_, by overload [ha, hn, ho]; rfl, ?_⟩; simp only [ha]; exact hs (by simp [*]); done)
  | (refine ⟨_, by overload [ha, hn, ho]; rfl, ?_⟩; constructor; done)

theorem lift_prev {env : Env} (he : EnvOk env) {v t r : CppType} (hv : Wide env v) (ht : SetFor v t)
    (hr : call env .prev [v] = .ok r) : ∃ s, call env .prev [t] = .ok s ∧ SetFor r s := by
  have ha := hv.2
  have hn := he.narrowing_self
  have hs := @setFor_interval env
  have ho := hv.1
  have vt : t = interval v ∨ t = cinterval v := by
    rcases variant_cases hv (.inr ht) with rfl | h
    · cases ht
    · exact h
  clear ht
  rcases wide_cases hv with ⟨n, rfl⟩ | ⟨n, rfl, h1⟩ | ⟨n, rfl⟩ <;>
  (simp [ho] at ha) <;> overload [] at hr <;>
  subst hr <;>
  rcases vt with rfl | rfl <;>
  first
  | (refine ⟨_, by overload [ha, hn, ho]; rfl, ?_⟩; exact hs (by simp [*]); done)
  | (refine ⟨_, by overload [ha, hn, ho]; rfl, ?_⟩; simp only [ha]; exact hs (by simp [*]); done)
  | (refine ⟨_, by overload [ha, hn, ho]; rfl, ?_⟩; constructor; done)

/-- the functions with several floating-point arguments -/
theorem lift_fltOp {env : Env} (he : EnvOk env) {vs ts : List CppType} {r : CppType} (hl : vs ≠ []) (hv : ∀ v ∈ vs, Wide env v)
    (ht : List.Forall₂ Variant vs ts) (hi : ∃ t ∈ ts, isInterval t = true) (hr : resolve (fltOpCands env vs) = .ok r) :
    ∃ s, resolve (fltOpCands env ts) = .ok s ∧ SetFor r s := by
  have hni : anyInterval vs = false := by
    rw [anyInterval, List.any_eq_false]
    intro v hm
    rcases wide_cases (hv v hm) with ⟨n, rfl⟩ | ⟨n, rfl, h1⟩ | ⟨n, rfl⟩ <;> simp [isInterval]
  simp only [fltOpCands, call_tmpl2, hni, Bool.false_and] at hr
  obtain ⟨v, vs', rfl⟩ := List.exists_cons_of_ne_nil hl
  by_cases hc : ((v :: vs').all isFltValue && (v :: vs').all fun t => decide ((v :: vs').head? = some t)) = true
  swap
  · rw [if_neg hc] at hr
    simp at hr
  rw [if_pos hc] at hr
  simp only [List.head?_cons, Option.elim_some, Bool.false_eq_true, if_false, Res.ok.injEq] at hr
  subst hr
  simp only [List.head?_cons, Bool.and_eq_true, List.all_eq_true, decide_eq_true_eq, Option.some.injEq] at hc
  obtain ⟨hf, hs⟩ := hc
  have hfv := hf v (by simp)
  have ho := (hv v (by simp)).1
  have hrep : v :: vs' = List.replicate (vs'.length + 1) v := by
    rw [List.eq_replicate_iff]
    exact ⟨by simp, fun b hb => (hs b hb).symm⟩
  have hval : ∀ t, Variant v t → intervalArgValueT t = some v ∧ isIntervalArg t = true ∧ (isInterval t = true → isFltValue t = false) := by
    intro t ht
    have := variant_cases (hv v (by simp)) ht
    rcases wide_cases (hv v (by simp)) with ⟨n, rfl⟩ | ⟨n, rfl, h1⟩ | ⟨n, rfl⟩ <;> rcases this with rfl | rfl | rfl <;>
      simp [intervalArgValueT, isIntervalValue, intervalValueT, isIntervalArg, isInterval, isFltValue]
  have key : ∀ (vs ts : List CppType), (∀ b ∈ vs, v = b) → List.Forall₂ Variant vs ts →
      ts.mapM intervalArgValueT = some vs ∧ ts.all isIntervalArg = true := by
    intro vs ts hs ht
    induction ht with
    | nil => exact ⟨rfl, rfl⟩
    | @cons b t bs ts hbt _ ih =>
      obtain ⟨i1, i2⟩ := ih (fun x hx => hs x (by simp [hx]))
      have hb := hs b (by simp)
      subst hb
      obtain ⟨h1, h2, -⟩ := hval t hbt
      exact ⟨by simp [List.mapM_cons, h1, i1], by simp [h2, i2]⟩
  obtain ⟨k1, k2⟩ := key _ _ hs ht
  have hsc : isScalar v = true := by cases v <;> simp_all [isFltValue, isScalar]
  have hcm : commonIntervalValueT env.common ts = some v := by
    simp only [commonIntervalValueT, k1, Option.bind_eq_bind, Option.bind_some]
    rw [hrep]; exact he.common_same v _ hsc
  have hany : anyInterval ts = true := by
    rw [anyInterval, List.any_eq_true]
    exact hi
  have hno : (ts.all isFltValue && ts.all fun t => decide (ts.head? = some t)) = false := by
    obtain ⟨t, htm, hti⟩ := hi
    have hvt : Variant v t := by
      have : ∀ (vs ts : List CppType), (∀ b ∈ vs, v = b) → List.Forall₂ Variant vs ts → ∀ t ∈ ts, Variant v t := by
        intro vs ts hs ht
        induction ht with
        | nil => simp
        | @cons b t bs ts hbt _ ih =>
          intro x hx
          rcases List.mem_cons.mp hx with rfl | hx
          · rw [hs b (by simp)]; exact hbt
          · exact ih (fun x hx => hs x (by simp [hx])) x hx
      exact this _ _ hs ht t htm
    rw [Bool.and_eq_false_iff, List.all_eq_false]
    exact .inl ⟨t, htm, by simp [(hval t hvt).2.2 hti]⟩
  refine ⟨interval v, ?_, setFor_interval ho⟩
  simp only [fltOpCands, call_tmpl2, hno, hany, floatingPointOperands, k2, hcm, Option.any_some, hfv, mkCommon, Option.bind_some, mkInterval, ho]
  simp

end Intervals.Props
