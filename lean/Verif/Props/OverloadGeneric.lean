import Verif.Props.OverloadSelect
import Mathlib.Tactic.Tauto
/-!
# C75: overload resolution

`C75_unambiguous` (Props/Overload.lean): no call is ambiguous.  Here: calls that compile with values compile with sets.
-/
set_option linter.unusedVariables false
namespace Intervals.Props
open Intervals.Traits Intervals.Overload Intervals.Spec CppType

/-! ## An environment: the arithmetic types of a 64-bit platform -/

/-- integer types: 0 `short`, 1 `int`, 2 `unsigned int`, 3 `long`, and wider signed types; 0 `float`, 1 `double`, and wider types -/
def stdArith : CppType → CppType → CppType
  | flt n, flt m => flt (max n m)
  | flt n, _ => flt n
  | _, flt m => flt m
  | int n, int m => int (max 1 (max n m))
  | int n, _ => int (max 1 n)
  | _, int m => int (max 1 m)
  | _, _ => int 1
def stdCommon (v w : CppType) : Option CppType :=
  if v = w then some v else if isArithValue v && isArithValue w then some (stdArith v w) else none
def stdCommonType : List CppType → Option CppType
  | [] => none
  | t :: ts => ts.foldlM stdCommon t
def stdNarrowing : CppType → CppType → Bool
  | flt n, flt m => decide (m < n)
  | flt _, _ => true
  | _, flt _ => true
  | int n, int m => decide (m < n)
  | s, t => decide (s ≠ t)
def stdEnv : Env where
  common := stdCommonType
  arith := stdArith
  narrowing s t := decide (s ≠ t) && stdNarrowing s t
  relational v w := (isArithValue v && isArithValue w) || (isScalar v && decide (v = w))
  diff _ := int 3
  toBool t := isArithValue t || decide (t = signT)
  convertible v w := decide (v = w) || (isArithValue v && isArithValue w)
  signed n := decide (n ≠ 2)

theorem stdArith_arith (v w : CppType) (hv : isArithValue v = true) (hw : isArithValue w = true) : isArithValue (stdArith v w) = true := by
  cases v <;> cases w <;> simp_all [isArithValue, isFltValue, isIntValue, stdArith]

theorem stdCommon_value {v w c : CppType} (hv : isIntervalValue v = true) (h : stdCommon v w = some c) : isIntervalValue c = true := by
  unfold stdCommon at h
  split at h
  · simp_all
  · split at h
    next hh =>
      simp only [Option.some.injEq] at h; subst h
      simp only [Bool.and_eq_true] at hh
      exact arithValue_value (stdArith_arith v w hh.1 hh.2)
    · simp at h
theorem stdCommon_iter {v w c : CppType} (hv : isIterValue v = true ∨ isIterValue w = true) (h : stdCommon v w = some c) : isIterValue c = true := by
  unfold stdCommon at h
  split at h
  · simp_all
  · split at h
    next hh =>
      exfalso
      cases v <;> cases w <;> simp_all [isArithValue, isIterValue, isFltValue, isIntValue]
    · simp at h

theorem stdEnv_ok : EnvOk stdEnv where
  common_iter := by
    have key : ∀ (ts : List CppType) (v c : CppType), (isIterValue v = true ∨ ∃ t ∈ ts, isIterValue t = true) → ts.foldlM stdCommon v = some c → isIterValue c = true := by
      intro ts
      induction ts with
      | nil => intro v c h hc; simp at hc; subst hc; simpa using h
      | cons t ts ih =>
        intro v c h hc
        simp only [List.foldlM_cons, Option.bind_eq_bind, Option.bind_eq_some_iff] at hc
        obtain ⟨a, ha, hc⟩ := hc
        refine ih a c ?_ hc
        rcases h with h | ⟨x, hx, hi⟩
        · exact .inl (stdCommon_iter (.inl h) ha)
        · rcases List.mem_cons.mp hx with rfl | hx
          · exact .inl (stdCommon_iter (.inr hi) ha)
          · exact .inr ⟨x, hx, hi⟩
    intro ts c h hc
    cases ts with
    | nil => simp at h
    | cons t ts =>
      have : isIterValue c = true := key ts t c (by simpa using h) hc
      cases c <;> simp_all [isIterValue, isArithValue, isFltValue, isIntValue]
  common_value := by
    have key : ∀ (ts : List CppType) (v c : CppType), isIntervalValue v = true → ts.foldlM stdCommon v = some c → isIntervalValue c = true := by
      intro ts
      induction ts with
      | nil => intro v c h hc; simp at hc; subst hc; exact h
      | cons t ts ih =>
        intro v c h hc
        simp only [List.foldlM_cons, Option.bind_eq_bind, Option.bind_eq_some_iff] at hc
        obtain ⟨a, ha, hc⟩ := hc
        exact ih a c (stdCommon_value h ha) hc
    intro ts c h hc
    cases ts with
    | nil => simp [stdEnv, stdCommonType] at hc
    | cons t ts =>
      have : isIntervalValue c = true := key ts t c (h t (by simp)) hc
      cases c <;> simp_all [isIntervalValue, isInterval, isCondition, isSetInst]
  common_same := by
    intro v n _
    simp only [stdEnv, List.replicate_succ, stdCommonType]
    induction n with
    | zero => rfl
    | succ n ih => simpa [List.replicate_succ, stdCommon] using ih
  common_arith := by
    intro v w hv hw h1 h2
    have : stdArith v v = v := hv.2 h1
    by_cases e : v = w
    · subst e; simp [stdEnv, stdCommonType, stdCommon, this]
    · simp [stdEnv, stdCommonType, stdCommon, e, h1, h2]
  arith_ok := by
    intro v w hv hw
    refine ⟨stdArith_arith v w hv hw, ?_⟩
    cases v <;> cases w <;> simp_all [isArithValue, isFltValue, isIntValue, stdEnv, stdArith, okInterval]
    omega
  arith_sign := by
    intro v w hv hw
    rcases hv with hv | rfl <;> rcases hw with hw | rfl
    · exact stdArith_arith v w hv hw
    · cases v <;> simp_all [isArithValue, isFltValue, isIntValue, stdEnv, stdArith, signT]
    · cases w <;> simp_all [isArithValue, isFltValue, isIntValue, stdEnv, stdArith, signT]
    · rfl
  narrowing_self := by simp [stdEnv]
  narrowing_int := by
    intro n h
    have h1 : stdArith (int n) (int n) = int n := h.2 rfl
    have h2 : 1 ≤ n := by simp [stdArith] at h1; omega
    simp [stdEnv, stdArith, stdNarrowing]
    omega
  arith_wide := by
    intro v w hv hw h1 h2
    rcases wide_cases hv with ⟨n, rfl⟩ | ⟨n, rfl, h3⟩ | ⟨n, rfl⟩ <;> rcases wide_cases hw with ⟨m, rfl⟩ | ⟨m, rfl, h4⟩ | ⟨m, rfl⟩ <;>
    simp_all [Wide, stdEnv, stdArith, okInterval, isArithValue, isFltValue, isIntValue]
    omega
  diff_ok := by simp [stdEnv, isIntValue, okInterval]
  relational_self := by intro v h; cases v <;> simp_all [stdEnv, okInterval, isArithValue, isScalar, isFltValue, isIntValue]
  toBool_set := by intro t h; cases t <;> simp_all [stdEnv, isInterval, isCondition, isSetInst, isArithValue, isFltValue, isIntValue, signT]

/-! ## Calls with sets -/

/-- the calls for which lifting is proved -/
inductive Covered (env : Env) : Fn → List CppType → Prop
  /-- operators, comparisons, `min` on numbers and iterators -/
  | binary (f : Fn) (v w : CppType) (hf : f ∈ [Fn.add, .sub, .mul, .div, .min] ∨ ∃ op, f = .cmp op) (hv : Wide env v) (hw : Wide env w) : Covered env f [v, w]
  | unary (f : Fn) (v : CppType) (hf : f ∈ [Fn.neg, .pos, .arithUn, .sgn, .fltUn, .fltTest, .prev, .inf]) (hv : Wide env v) : Covered env f [v]
  | fltOp (vs : List CppType) (hv : ∀ v ∈ vs, Wide env v) : Covered env .fltOp vs
  | log (op : LogOp) : Covered env (.log op) [.bool, .bool]
  | cmpBool (op : CmpOp) : Covered env (.cmp op) [.bool, .bool]
  | boolUnary (f : Fn) (hf : f ∈ [Fn.not, .proj]) : Covered env f [.bool]
  | cmpEnum (op : CmpOp) (n : Nat) (hop : op = .eq ∨ op = .ne) : Covered env (.cmp op) [enum n, enum n]
  | signMul (v : CppType) (hv : Wide env v) (ha : isArithValue v = true) : Covered env .mul [v, signT]
  | signMul' (v : CppType) (hv : Wide env v) (ha : isArithValue v = true) : Covered env .mul [signT, v]
  | signSign : Covered env .mul [signT, signT]
  | signUnary (f : Fn) (hf : f ∈ [Fn.neg, .pos]) : Covered env f [signT]
  | ifElse (v : CppType) (hv : (okInterval env v = true ∧ isIterValue v = false) ∨ v = .bool) : Covered env .ifElse [.bool, v, v]

theorem plain_wide {env : Env} {v : CppType} (h : Wide env v) : Plain v := by
  rcases wide_cases h with ⟨n, rfl⟩ | ⟨n, rfl, -⟩ | ⟨n, rfl⟩ <;> exact ⟨rfl, rfl, rfl⟩
theorem setFor_of {v t : CppType} (h : Variant v t) (hv : Plain v) (ht : ¬ Plain t) : SetFor v t := by
  rcases h with rfl | h
  · exact absurd hv ht
  · exact h
theorem interval_of {env : Env} {v t : CppType} (h : Variant v t) (hv : Wide env v) (ht : ¬ Plain t) : isInterval t = true := by
  rcases variant_cases hv h with rfl | rfl | rfl
  · exact absurd (plain_wide hv) ht
  · rfl
  · rfl
theorem forall2_one {R : CppType → CppType → Prop} {v : CppType} {ts : List CppType} (h : List.Forall₂ R [v] ts) : ∃ t, ts = [t] ∧ R v t := by
  cases h with
  | cons h1 h2 => cases h2; exact ⟨_, rfl, h1⟩
theorem forall2_two {R : CppType → CppType → Prop} {v w : CppType} {ts : List CppType} (h : List.Forall₂ R [v, w] ts) : ∃ t u, ts = [t, u] ∧ R v t ∧ R w u := by
  cases h with
  | cons h1 h2 => obtain ⟨u, rfl, h3⟩ := forall2_one h2; exact ⟨_, _, rfl, h1, h3⟩
theorem forall2_three {R : CppType → CppType → Prop} {v w x : CppType} {ts : List CppType} (h : List.Forall₂ R [v, w, x] ts) :
    ∃ t u s, ts = [t, u, s] ∧ R v t ∧ R w u ∧ R x s := by
  cases h with
  | cons h1 h2 => obtain ⟨u, s, rfl, h3, h4⟩ := forall2_two h2; exact ⟨_, _, _, rfl, h1, h3, h4⟩

/-- C75: a call that compiles with values compiles with sets in place of some of the values, and its result is a set of the results. -/
def C75_full : Prop := ∀ env, EnvOk env → ∀ f, isGeneric f = true → ∀ vs, (∀ v ∈ vs, Plain v) → Lifts env f vs

/-- C75 for the covered calls.  Missing: see `C75_violated`. -/
theorem C75_lift_partial {env : Env} (he : EnvOk env) {f : Fn} {vs : List CppType} (h : Covered env f vs) : Lifts env f vs := by
  intro ts r hts hs hr
  cases h with
  | binary _ v w hf hv hw =>
    obtain ⟨t, u, rfl, ht, hu⟩ := forall2_two hts
    have hi : isInterval t = true ∨ isInterval u = true := by
      obtain ⟨x, hx, hp⟩ := hs
      simp only [List.mem_cons, List.not_mem_nil, or_false] at hx
      rcases hx with rfl | rfl
      · exact .inl (interval_of ht hv hp)
      · exact .inr (interval_of hu hw hp)
    rcases hf with hf | ⟨op, rfl⟩
    · simp only [List.mem_cons, List.not_mem_nil, or_false] at hf
      rcases hf with rfl | rfl | rfl | rfl | rfl
      · exact lift_add he hv hw ht hu hi hr
      · exact lift_sub he hv hw ht hu hi hr
      · exact lift_mul he hv hw ht hu hi hr
      · exact lift_div he hv hw ht hu hi hr
      · exact lift_min he hv hw ht hu hi hr
    · exact lift_cmp op hv hw ht hu hi hr
  | unary _ v hf hv =>
    obtain ⟨t, rfl, ht⟩ := forall2_one hts
    have hi : SetFor v t := by
      obtain ⟨x, hx, hp⟩ := hs
      simp only [List.mem_cons, List.not_mem_nil, or_false] at hx
      subst hx
      exact setFor_of ht (plain_wide hv) hp
    simp only [List.mem_cons, List.not_mem_nil, or_false] at hf
    rcases hf with rfl | rfl | rfl | rfl | rfl | rfl | rfl | rfl
    · exact lift_neg he hv hi hr
    · exact lift_pos he hv hi hr
    · exact lift_arithUn he hv hi hr
    · exact lift_sgn he hv hi hr
    · exact lift_fltUn he hv hi hr
    · exact lift_fltTest he hv hi hr
    · exact lift_prev he hv hi hr
    · rw [call_inf hv (.inl rfl)] at hr
      cases hr
      exact ⟨_, call_inf hv ht, rfl⟩
  | fltOp _ hv =>
    have hi : ∃ t ∈ ts, isInterval t = true := by
      obtain ⟨x, hx, hp⟩ := hs
      refine ⟨x, hx, ?_⟩
      have : ∀ (vs ts : List CppType), (∀ v ∈ vs, Wide env v) → List.Forall₂ Variant vs ts → ∀ t ∈ ts, ¬ Plain t → isInterval t = true := by
        intro vs ts hv ht
        induction ht with
        | nil => simp
        | @cons b t bs ts hbt _ ih =>
          intro x hx hp
          rcases List.mem_cons.mp hx with rfl | hx
          · exact interval_of hbt (hv b (by simp)) hp
          · exact ih (fun v hm => hv v (by simp [hm])) x hx hp
      exact this _ _ hv hts x hx hp
    have hc : ∀ us : List CppType, us.length = vs.length → call env .fltOp us = resolve (fltOpCands env us) ∨ call env .fltOp vs = .noOverload := by
      intro us hl
      match us, vs, hl with
      | [], [], _ => exact .inr rfl
      | [_], [_], _ => exact .inr rfl
      | [_, _], [_, _], _ => exact .inl rfl
      | [_, _, _], [_, _, _], _ => exact .inl rfl
      | [_, _, _, _], [_, _, _, _], _ => exact .inl rfl
      | _ :: _ :: _ :: _ :: _ :: _, _ :: _ :: _ :: _ :: _ :: _, _ => exact .inr rfl
    have h1 := hc ts hts.length_eq.symm
    have h2 := hc vs rfl
    rw [hr] at h1 h2
    simp only [reduceCtorEq, or_false] at h1 h2
    rw [h1]
    refine lift_fltOp he ?_ hv hts hi h2.symm
    rintro rfl
    cases hts
    simp at hs
  | log op =>
    obtain ⟨t, u, rfl, ht, hu⟩ := forall2_two hts
    have hi : SetFor .bool t ∨ SetFor .bool u := by
      obtain ⟨x, hx, hp⟩ := hs
      simp only [List.mem_cons, List.not_mem_nil, or_false] at hx
      rcases hx with rfl | rfl
      · exact .inl (setFor_of ht ⟨rfl, rfl, rfl⟩ hp)
      · exact .inr (setFor_of hu ⟨rfl, rfl, rfl⟩ hp)
    exact lift_log he op ht hu hi
  | cmpBool op =>
    obtain ⟨t, u, rfl, ht, hu⟩ := forall2_two hts
    have hi : SetFor .bool t ∨ SetFor .bool u := by
      obtain ⟨x, hx, hp⟩ := hs
      simp only [List.mem_cons, List.not_mem_nil, or_false] at hx
      rcases hx with rfl | rfl
      · exact .inl (setFor_of ht ⟨rfl, rfl, rfl⟩ hp)
      · exact .inr (setFor_of hu ⟨rfl, rfl, rfl⟩ hp)
    have : r = .bool := by
      simp only [call, cands, cmpCands, isScalar, Bool.and_self, if_true] at hr
      cases h : env.relational .bool .bool <;> simp [h, resolve, viable, pick] at hr
      exact hr.symm
    subst this
    exact ⟨_, lift_cmp_bool he op ht hu hi, .bool⟩
  | boolUnary _ hf =>
    obtain ⟨t, rfl, ht⟩ := forall2_one hts
    have hi : SetFor .bool t := by
      obtain ⟨x, hx, hp⟩ := hs
      simp only [List.mem_cons, List.not_mem_nil, or_false] at hx
      subst hx
      exact setFor_of ht ⟨rfl, rfl, rfl⟩ hp
    simp only [List.mem_cons, List.not_mem_nil, or_false] at hf
    rcases hf with rfl | rfl
    · have : r = .bool := by
        simp [call, cands, notCands, setBase, (rank_bool env).1, resolve, viable, pick] at hr
        exact hr.symm
      subst this
      exact lift_not he hi
    · rw [call_proj he (.inl rfl)] at hr
      cases hr
      exact ⟨_, call_proj he ht, rfl⟩
  | cmpEnum op n hop =>
    obtain ⟨t, u, rfl, ht, hu⟩ := forall2_two hts
    have hi : SetFor (enum n) t ∨ SetFor (enum n) u := by
      obtain ⟨x, hx, hp⟩ := hs
      simp only [List.mem_cons, List.not_mem_nil, or_false] at hx
      rcases hx with rfl | rfl
      · exact .inl (setFor_of ht ⟨rfl, rfl, rfl⟩ hp)
      · exact .inr (setFor_of hu ⟨rfl, rfl, rfl⟩ hp)
    have : r = .bool := by
      simp only [call, cands, cmpCands, isScalar, Bool.and_self, if_true] at hr
      cases h : env.relational (enum n) (enum n) <;> simp [h, resolve, viable, pick] at hr
      exact hr.symm
    subst this
    exact ⟨_, lift_cmp_enum n hop ht hu hi, .bool⟩
  | signMul v hv ha =>
    obtain ⟨t, u, rfl, ht, hu⟩ := forall2_two hts
    have hi : SetFor v t ∨ SetFor signT u := by
      obtain ⟨x, hx, hp⟩ := hs
      simp only [List.mem_cons, List.not_mem_nil, or_false] at hx
      rcases hx with rfl | rfl
      · exact .inl (setFor_of ht (plain_wide hv) hp)
      · exact .inr (setFor_of hu ⟨rfl, rfl, rfl⟩ hp)
    have : r = v := by
      rcases wide_cases hv with ⟨n, rfl⟩ | ⟨n, rfl, h1⟩ | ⟨n, rfl⟩ <;>
      simp [call, cands, mulCands, builtinArith, tmpl, ranks2, exact, anyInterval, isInterval, isArithInterval, isArithValue,
        isFltValue, isIntValue, intervalValueT, toSignRank, toSetSignRank, arithRank, signT, setSignT, resolve, viable, pick, better, leRanks] at hr ha <;> exact hr.symm
    subst this
    exact ⟨_, (lift_sign_mul he hv ha ht hu hi).1, setFor_interval hv.1⟩
  | signMul' v hv ha =>
    obtain ⟨u, t, rfl, hu, ht⟩ := forall2_two hts
    have hi : SetFor v t ∨ SetFor signT u := by
      obtain ⟨x, hx, hp⟩ := hs
      simp only [List.mem_cons, List.not_mem_nil, or_false] at hx
      rcases hx with rfl | rfl
      · exact .inr (setFor_of hu ⟨rfl, rfl, rfl⟩ hp)
      · exact .inl (setFor_of ht (plain_wide hv) hp)
    have : r = v := by
      rcases wide_cases hv with ⟨n, rfl⟩ | ⟨n, rfl, h1⟩ | ⟨n, rfl⟩ <;>
      simp [call, cands, mulCands, builtinArith, tmpl, ranks2, exact, anyInterval, isInterval, isArithInterval, isArithValue,
        isFltValue, isIntValue, intervalValueT, toSignRank, toSetSignRank, arithRank, signT, setSignT, resolve, viable, pick, better, leRanks] at hr ha <;> exact hr.symm
    subst this
    exact ⟨_, (lift_sign_mul he hv ha ht hu hi).2, setFor_interval hv.1⟩
  | signSign =>
    obtain ⟨t, u, rfl, ht, hu⟩ := forall2_two hts
    have hi : SetFor signT t ∨ SetFor signT u := by
      obtain ⟨x, hx, hp⟩ := hs
      simp only [List.mem_cons, List.not_mem_nil, or_false] at hx
      rcases hx with rfl | rfl
      · exact .inl (setFor_of ht ⟨rfl, rfl, rfl⟩ hp)
      · exact .inr (setFor_of hu ⟨rfl, rfl, rfl⟩ hp)
    rw [(lift_sign_neg env).2.2.2.2] at hr
    cases hr
    exact ⟨_, lift_sign_sign ht hu hi, .enum 0⟩
  | signUnary _ hf =>
    obtain ⟨t, rfl, ht⟩ := forall2_one hts
    have hi : SetFor signT t := by
      obtain ⟨x, hx, hp⟩ := hs
      simp only [List.mem_cons, List.not_mem_nil, or_false] at hx
      subst hx
      exact setFor_of ht ⟨rfl, rfl, rfl⟩ hp
    have ht : t = setSignT := by
      rcases variant_enum (.inr hi) with rfl | rfl
      · cases hi
      · rfl
    subst ht
    have hn := lift_sign_neg env
    simp only [List.mem_cons, List.not_mem_nil, or_false] at hf
    rcases hf with rfl | rfl
    · rw [hn.2.2.1] at hr; cases hr; exact ⟨_, hn.1, .enum 0⟩
    · rw [hn.2.2.2.1] at hr; cases hr; exact ⟨_, hn.2.1, .enum 0⟩
  | ifElse v hv =>
    obtain ⟨c, t, u, rfl, hc, ht, hu⟩ := forall2_three hts
    have hpv : Plain v := by
      rcases hv with ⟨h, -⟩ | rfl
      · cases v <;> simp_all [okInterval, Plain, isInterval, isCondition, isSetInst]
      · exact ⟨rfl, rfl, rfl⟩
    have hi : SetFor .bool c ∨ SetFor v t ∨ SetFor v u := by
      obtain ⟨x, hx, hp⟩ := hs
      simp only [List.mem_cons, List.not_mem_nil, or_false] at hx
      rcases hx with rfl | rfl | rfl
      · exact .inl (setFor_of hc ⟨rfl, rfl, rfl⟩ hp)
      · exact .inr (.inl (setFor_of ht hpv hp))
      · exact .inr (.inr (setFor_of hu hpv hp))
    have : r = v := by
      have b1 := rank_bool env
      have hn : deduceSet v = none ∧ deduceInterval v = none ∧ isIntervalValue v = true := by
        rcases hv with ⟨h, -⟩ | rfl
        · cases v <;> simp_all [okInterval, deduceSet, deduceInterval, intervalValueT, isIntervalValue]
        · exact ⟨rfl, rfl, rfl⟩
      have h8 : (!isInterval v && !isSetInst v && (setOfT v 0).isSome) = true := by
        rcases hv with ⟨h, -⟩ | rfl
        · cases v <;> simp_all [okInterval, isInterval, isSetInst, setOfT, setOfType]
        · rfl
      simp only [call, cands, ifElseCands, hn, h8, b1] at hr
      simp [ranks3, exact, resolve, viable, pick, better, leRanks] at hr
      exact hr.symm
    subst this
    exact lift_ifElse he (by tauto) hc ht hu hi

end Intervals.Props
