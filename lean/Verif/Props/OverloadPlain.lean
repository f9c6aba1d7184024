import Verif.Props.OverloadGeneric
/-!
# C75: what does not compile, calls with plain arguments, examples
-/
set_option linter.unusedVariables false
set_option linter.unusedSimpArgs false
namespace Intervals.Props
open Intervals.Traits Intervals.Overload Intervals.Spec CppType

/-! ## Plain arguments give plain results -/

theorem pick_mem {P : Cand → Prop} : ∀ (before after : List (List Nat × Cand)), (∀ p ∈ after, P p.2) → ∀ c, pick before after = some c → P c := by
  intro before after
  induction after generalizing before with
  | nil => intro h c hc; simp [pick] at hc
  | cons a as ih =>
    intro h c hc
    rw [pick] at hc
    split at hc
    · cases hc; exact h a (by simp)
    · exact ih _ (fun p hp => h p (by simp [hp])) c hc

theorem resolve_result {cs : List Cand} {r : CppType} {P : CppType → Prop} (h : ∀ c ∈ cs, c.ranks.isSome = true → ∀ r, c.res = some r → P r)
    (hr : resolve cs = .ok r) : P r := by
  have hv : ∀ p ∈ viable cs, ∀ r, p.2.res = some r → P r := by
    intro p hp
    simp only [viable, List.mem_filterMap, Option.map_eq_some_iff] at hp
    obtain ⟨c, hc, x, hx, rfl⟩ := hp
    exact h c hc (by simp [hx])
  unfold resolve at hr
  split at hr
  · simp at hr
  · split at hr
    · simp at hr
    next c hc =>
      have := pick_mem (P := fun c => ∀ r, c.res = some r → P r) [] _ hv c hc
      cases hres : c.res with
      | none => simp [hres] at hr
      | some x => simp [hres] at hr; subst hr; exact this x hres

theorem plain_arith {v : CppType} (h : isArithValue v = true) : Plain v := by
  cases v <;> simp_all [isArithValue, isFltValue, isIntValue, Plain, isInterval, isCondition, isSetInst]
theorem plain_int {v : CppType} (h : isIntValue v = true) : Plain v := plain_arith (by simp [isArithValue, h])
theorem plain_value {v : CppType} (h : isIntervalValue v = true) : Plain v := by
  cases v <;> simp_all [isIntervalValue, Plain, isInterval, isCondition, isSetInst]

theorem plain_ifElse {env : Env} {c a b r : CppType} (hc : Plain c) (ha : Plain a) (hb : Plain b) (hn : ∀ n, a ≠ enum n)
    (hr : call env .ifElse [c, a, b] = .ok r) : Plain r := by
  have d1 : ∀ a, Plain a → deduceSet a = none ∧ deduceInterval a = none ∧ isInterval a = false ∧ isSetInst a = false := by
    intro a ha
    cases a <;> simp_all [Plain, isInterval, isCondition, isSetInst, deduceSet, deduceInterval, intervalValueT]
  have h1 : toSetBoolRank env c = (toBoolRank env c).map fun _ => 4 := by
    have : c ≠ setBoolT := by rintro rfl; simp [Plain, setBoolT, isSetInst] at hc
    simp [toSetBoolRank, this, hc.2.1]
  have hk : ∀ k, toBoolRank env c = some k → k ≤ 3 := by
    intro k hk
    unfold toBoolRank at hk
    split at hk
    · cases hk; omega
    · split at hk
      · cases hk; omega
      · cases hk
  simp only [call, cands, ifElseCands, d1 a ha, d1 b hb, h1] at hr
  by_cases e : a = b
  swap
  · simp [ranks3, exact, e, resolve, viable] at hr
  subst e
  by_cases hv : isIntervalValue a = true
  · cases hb : toBoolRank env c with
    | none => simp [hb, ranks3, exact, resolve, viable] at hr
    | some k =>
      have := hk k hb
      have hs : (setOfT a 0).isSome = true := by cases a <;> simp_all [isIntervalValue, setOfT, setOfType]
      simp [hb, hv, hs, ranks3, exact, resolve, viable, pick, better, leRanks] at hr
      have h4 : k ≤ 4 := by omega
      have h5 : k < 4 := by omega
      simp [h4, h5] at hr
      subst hr
      exact ha
  · have hs : setOfT a 0 = none := by cases a <;> simp_all [isIntervalValue, setOfT, setOfType, Plain, isInterval, isCondition, isSetInst]
    simp [hv, hs, ranks3, exact, resolve, viable] at hr

/-- classes of plain types for the arithmetic operators -/
theorem plain_class {x : CppType} (h : Plain x) :
    isInterval x = false ∧ isArithInterval x = false ∧ isIterInterval x = false ∧ isIntInterval x = false ∧ isFltInterval x = false ∧ setBase x = none ∧
    ((isArithValue x = true ∧ toSignRank x = none ∧ toSetSignRank x = none ∧ arithRank x = some 0) ∨
    (isArithValue x = false ∧ toSignRank x = some 0 ∧ toSetSignRank x = some 4 ∧ arithRank x = some 2 ∧ x = signT) ∨
    (isArithValue x = false ∧ toSignRank x = none ∧ toSetSignRank x = none ∧ arithRank x = none)) := by
  cases x with
  | enum n =>
    by_cases h : n = 0 <;>
    simp [isInterval, isArithInterval, isIterInterval, isIntInterval, isFltInterval, isArithValue, isFltValue, isIntValue, toSignRank, toSetSignRank, arithRank,
      signT, setSignT, h, setBase]
  | _ =>
    simp_all [Plain, isInterval, isCondition, isSetInst, isArithInterval, isIterInterval, isIntInterval, isFltInterval, isArithValue, isFltValue, isIntValue,
      toSignRank, toSetSignRank, arithRank, signT, setSignT, setBase]

/-- C75: with plain arguments, the result is plain. -/
def C75_plain_full : Prop := ∀ env, EnvOk env → ∀ f ts r, (∀ t ∈ ts, Plain t) → call env f ts = .ok r → Plain r

/-- C75 for plain arguments; missing: `if_else` on enumerations, see `C75_plain_violated`. -/
theorem C75_plain_partial {env : Env} (he : EnvOk env) {f : Fn} {ts : List CppType} {r : CppType} (hf : f = .ifElse → ∀ n, enum n ∉ ts) (ht : ∀ t ∈ ts, Plain t)
    (hr : call env f ts = .ok r) : Plain r := by
  have hs : Plain signT := ⟨rfl, rfl, rfl⟩
  have hv : Plain voidT := ⟨rfl, rfl, rfl⟩
  have hb : Plain .bool := ⟨rfl, rfl, rfl⟩
  have ar : ∀ {x y}, (arithRank x).isSome = true → (arithRank y).isSome = true → Plain (env.arith x y) := by
    intro x y hx hy
    have a1 : isArithValue x = true ∨ x = signT := by by_contra h; simp at h; simp [arithRank, h] at hx
    have a2 : isArithValue y = true ∨ y = signT := by by_contra h; simp at h; simp [arithRank, h] at hy
    exact plain_arith (he.arith_sign x y a1 a2)
  have any : ∀ ts : List CppType, (∀ t ∈ ts, Plain t) → anyInterval ts = false := by
    intro ts h; rw [anyInterval, List.any_eq_false]; intro x hx; simp [(h x hx).1]
  have bi : ∀ {x y}, ∀ c ∈ [builtinArith env x y], c.ranks.isSome = true → ∀ r, c.res = some r → Plain r := by
    intro x y c hc h r hr
    simp only [List.mem_singleton] at hc
    subst hc
    cases hx : arithRank x with
    | none => simp [builtinArith, ranks2, hx] at h
    | some a =>
      cases hy : arithRank y with
      | none => simp [builtinArith, ranks2, hx, hy] at h
      | some b => simp [builtinArith] at hr; subst hr; exact ar (by simp [hx]) (by simp [hy])
  revert hr
  unfold call cands
  split <;> intro hr
  case h_1 x y =>
    have hx := ht x (by simp); have hy := ht y (by simp)
    have ha := any _ ht
    refine resolve_result ?_ hr
    intro c hc
    simp only [addCands, ha, Bool.false_and, tmpl, List.mem_cons, List.not_mem_nil, or_false] at hc
    rcases hc with rfl | rfl | rfl | rfl | rfl | rfl
    · simp
    · simp
    · simp
    · exact bi _ (List.mem_singleton.mpr rfl)
    · intro _ r hr; cases hr; exact hx
    · intro _ r hr; cases hr; exact hy
  case h_2 x y =>
    have hx := ht x (by simp); have hy := ht y (by simp)
    have ha := any _ ht
    refine resolve_result ?_ hr
    intro c hc
    simp only [subCands, ha, Bool.false_and, tmpl, List.mem_cons, List.not_mem_nil, or_false] at hc
    rcases hc with rfl | rfl | rfl | rfl | rfl | rfl
    · simp
    · simp
    · simp
    · exact bi _ (List.mem_singleton.mpr rfl)
    · intro _ r hr; cases hr; exact hx
    · intro h r hr
      cases hr
      cases x <;> simp [isIterValue] at h
      exact plain_int (he.diff_ok _).1
  case h_3 x y =>
    have hx := ht x (by simp); have hy := ht y (by simp)
    have ha := any _ ht
    have aa := @ar x y
    obtain ⟨-, x2, -, -, -, -, hx1⟩ := plain_class hx
    obtain ⟨-, y2, -, -, -, -, hy1⟩ := plain_class hy
    simp only [mulCands, ha, builtinArith] at hr
    rcases hx1 with ⟨a1, a2, a3, a4⟩ | ⟨a1, a2, a3, a4, a5⟩ | ⟨a1, a2, a3, a4⟩ <;> rcases hy1 with ⟨b1, b2, b3, b4⟩ | ⟨b1, b2, b3, b4, b5⟩ | ⟨b1, b2, b3, b4⟩ <;>
    simp [a1, a2, a3, a4, b1, b2, b3, b4, x2, y2, tmpl, ranks2, exact, resolve, viable, pick, better, leRanks] at hr aa <;> subst hr <;> assumption
  case h_4 x y =>
    have ha := any _ ht
    refine resolve_result ?_ hr
    intro c hc
    simp only [divCands, ha, Bool.false_and, tmpl, List.mem_cons, List.not_mem_nil, or_false] at hc
    rcases hc with rfl | rfl
    · simp
    · exact bi _ (List.mem_singleton.mpr rfl)
  case h_5 x =>
    have hx := ht x (by simp)
    have aa := @ar x x
    obtain ⟨-, x2, -, -, -, -, hx1⟩ := plain_class hx
    simp only [negCands] at hr
    rcases hx1 with ⟨a1, a2, a3, a4⟩ | ⟨a1, a2, a3, a4, a5⟩ | ⟨a1, a2, a3, a4⟩ <;>
    simp [a1, a2, a3, a4, x2, tmpl, resolve, viable, pick, better, leRanks] at hr aa <;> subst hr <;> assumption
  case h_6 x =>
    have hx := ht x (by simp)
    have aa := @ar x x
    obtain ⟨-, x2, -, -, -, -, hx1⟩ := plain_class hx
    simp only [posCands] at hr
    rcases hx1 with ⟨a1, a2, a3, a4⟩ | ⟨a1, a2, a3, a4, a5⟩ | ⟨a1, a2, a3, a4⟩ <;>
    simp [a1, a2, a3, a4, x2, tmpl, resolve, viable, pick, better, leRanks] at hr aa <;> subst hr <;> assumption
  case h_7 op x y =>
    have ha := any _ ht
    have hx := (plain_class (ht x (by simp))).2.2.2.2.2.1; have hy := (plain_class (ht y (by simp))).2.2.2.2.2.1
    refine resolve_result ?_ hr
    intro c hc
    simp only [cmpCands, setEqCand, setBoolCands, ha, hx, hy, tmpl] at hc
    split at hc
    · simp only [List.mem_cons, List.not_mem_nil, or_false] at hc
      subst hc
      intro _ r hr; cases hr; exact hb
    · simp at hc
      subst hc
      simp
  case h_8 op x y =>
    have hx := plain_class (ht x (by simp)); have hy := plain_class (ht y (by simp))
    have px := ht x (by simp); have py := ht y (by simp)
    refine resolve_result ?_ hr
    intro c hc
    simp only [logCands, setBoolCands, hx.2.2.2.2.2.1, hy.2.2.2.2.2.1, px.2.1, py.2.1, tmpl] at hc
    split at hc
    · simp only [List.mem_cons, List.not_mem_nil, or_false] at hc
      subst hc
      intro h r hr; cases hr
      simp at h
      refine plain_arith (he.arith_sign x y (.inl ?_) (.inl ?_)) <;> simp [isArithValue, h]
    · cases op <;> simp at hc <;> subst hc <;> simp
  case h_9 x =>
    have hx := plain_class (ht x (by simp))
    simp only [notCands, hx.2.2.2.2.2.1] at hr
    refine resolve_result ?_ hr
    intro c hc
    simp at hc
    subst hc
    intro h r hr; cases hr; exact hb
  case h_10 x =>
    refine resolve_result ?_ hr
    intro c hc
    simp only [projCands, List.mem_cons, List.not_mem_nil, or_false] at hc
    rcases hc with rfl | rfl <;> intro h r hr <;> cases hr <;> exact hb
  case h_11 x y =>
    have ha := any _ ht
    refine resolve_result ?_ hr
    intro c hc
    simp only [minCands, ha, tmpl, List.mem_cons, List.not_mem_nil, or_false] at hc
    rcases hc with rfl | rfl
    · intro _ r hr; cases hr; exact ht x (by simp)
    · simp
  case h_12 x =>
    have hx := ht x (by simp)
    refine resolve_result ?_ hr
    intro c hc
    simp only [infCands, hx.1, tmpl, List.mem_cons, List.not_mem_nil, or_false] at hc
    rcases hc with rfl | rfl
    · intro _ r hr; cases hr; exact hx
    · simp
  case h_13 x =>
    have hx := ht x (by simp)
    refine resolve_result ?_ hr
    intro c hc
    simp only [arithUnCands, (plain_class hx).2.1, tmpl, List.mem_cons, List.not_mem_nil, or_false] at hc
    rcases hc with rfl | rfl
    · intro _ r hr; cases hr; exact hx
    · simp
  case h_14 x =>
    have hx := ht x (by simp)
    refine resolve_result ?_ hr
    intro c hc
    simp only [sgnCands, (plain_class hx).2.1, tmpl, List.mem_cons, List.not_mem_nil, or_false] at hc
    rcases hc with rfl | rfl
    · intro _ r hr; cases hr; exact hs
    · simp
  case h_15 x =>
    have hx := ht x (by simp)
    refine resolve_result ?_ hr
    intro c hc
    simp only [fltUnCands, (plain_class hx).2.2.2.2.1, tmpl, List.mem_cons, List.not_mem_nil, or_false] at hc
    rcases hc with rfl | rfl
    · intro _ r hr; cases hr; exact hx
    · simp
  case h_16 x =>
    have hx := ht x (by simp)
    refine resolve_result ?_ hr
    intro c hc
    simp only [fltTestCands, (plain_class hx).2.2.2.2.1, tmpl, List.mem_cons, List.not_mem_nil, or_false] at hc
    rcases hc with rfl | rfl
    · intro _ r hr; cases hr; exact hb
    · simp
  case h_17 x y =>
    have ha := any _ ht
    refine resolve_result ?_ hr
    intro c hc
    simp only [fltOpCands, ha, tmpl, List.mem_cons, List.not_mem_nil, or_false] at hc
    rcases hc with rfl | rfl
    · intro _ r hr; cases hr; exact ht x (by simp)
    · simp
  case h_18 x y z =>
    have ha := any _ ht
    refine resolve_result ?_ hr
    intro c hc
    simp only [fltOpCands, ha, tmpl, List.mem_cons, List.not_mem_nil, or_false] at hc
    rcases hc with rfl | rfl
    · intro _ r hr; cases hr; exact ht x (by simp)
    · simp
  case h_19 x y z w =>
    have ha := any _ ht
    refine resolve_result ?_ hr
    intro c hc
    simp only [fltOpCands, ha, tmpl, List.mem_cons, List.not_mem_nil, or_false] at hc
    rcases hc with rfl | rfl
    · intro _ r hr; cases hr; exact ht x (by simp)
    · simp
  case h_20 x =>
    have hx := ht x (by simp)
    refine resolve_result ?_ hr
    intro c hc
    simp only [prevCands, (plain_class hx).2.2.1, tmpl, List.mem_cons, List.not_mem_nil, or_false] at hc
    rcases hc with rfl | rfl
    · intro _ r hr; cases hr; exact hx
    · simp
  case h_21 x xs =>
    have hx := ht x (by simp)
    refine resolve_result ?_ hr
    intro c hc
    simp only [mergeCands, tmpl, List.mem_cons, List.not_mem_nil, or_false] at hc
    rcases hc with rfl | rfl
    · intro h r hr
      refine he.common_value (x :: xs) r ?_ hr
      intro t hm
      by_contra hn
      have : (x :: xs).all isIntervalValue = false := by rw [List.all_eq_false]; exact ⟨t, hm, hn⟩
      simp [this] at h
    · simp [hx.1]
  case h_22 c a b =>
    exact plain_ifElse (ht c (by simp)) (ht a (by simp)) (ht b (by simp)) (fun n h => hf rfl n (by simp [h])) hr
  case h_23 x c =>
    have hx := ht x (by simp)
    refine resolve_result ?_ hr
    intro c hc
    simp only [constrainCands, hx.1, List.mem_cons, List.not_mem_nil, or_false] at hc
    rcases hc with rfl | rfl | rfl | rfl | rfl <;> intro h r hr <;> cases hr <;> exact hx
  case h_24 x c =>
    have hx := ht x (by simp)
    refine resolve_result ?_ hr
    intro c hc
    simp only [constrainCands, hx.1, List.mem_cons, List.not_mem_nil, or_false] at hc
    rcases hc with rfl | rfl | rfl | rfl | rfl <;> intro h r hr <;> cases hr <;> exact hx
  case h_25 x y =>
    refine resolve_result ?_ hr
    intro c hc
    simp only [assignCands, List.mem_cons, List.not_mem_nil, or_false] at hc
    rcases hc with rfl | rfl | rfl <;> intro h r hr <;> cases hr <;> exact hv
  case h_26 => simp [resolve, viable] at hr

theorem sf_int (n : Nat) : SetFor (int n) (interval (int n)) := .interval _ rfl (by simp)
theorem sf_flt (n : Nat) : SetFor (flt n) (interval (flt n)) := .interval _ rfl (by simp)
theorem sf_iter (n : Nat) : SetFor (iter n) (interval (iter n)) := .interval _ rfl (by simp)

/-- C75, full statement for plain arguments, is violated: `if_else` with a `bool` and two values of an enumeration returns a set (the overload of logic.hpp:51
takes interval values only; interval.hpp:1547 takes the call). -/
theorem C75_plain_violated : ¬ C75_plain_full := by
  intro h
  have := h stdEnv stdEnv_ok .ifElse [.bool, enum 7, enum 7] (.set (enum 7) 0) (by simp [Plain, isInterval, isCondition, isSetInst]) (by decide)
  simp [Plain, isSetInst] at this

/-- C75 is violated: `interval<short>` + `interval<short>` (narrowing), `merge` of a value and an interval, `<` on sets of an enumeration, `if_else` on
intervals of iterators do not compile, although the same calls with values do. -/
theorem C75_violated : ¬ C75_full ∧
    ¬ Lifts stdEnv .add [int 0, int 0] ∧ ¬ Lifts stdEnv .neg [int 0] ∧ ¬ Lifts stdEnv .merge [flt 1, flt 1] ∧ ¬ Lifts stdEnv (.cmp .lt) [enum 7, enum 7] ∧
    ¬ Lifts stdEnv .ifElse [.bool, iter 0, iter 0] := by
  have h1 : ¬ Lifts stdEnv .add [int 0, int 0] := by
    intro h
    obtain ⟨s, h, -⟩ := h [interval (int 0), interval (int 0)] (int 1) (by simp [Variant, sf_int, sf_flt, sf_iter, isIntervalValue]) ⟨interval (int 0), by simp, by simp [Plain, isInterval]⟩ (by decide)
    rw [show call stdEnv .add [interval (int 0), interval (int 0)] = .illFormed by decide] at h
    cases h
  refine ⟨fun h => h1 (h stdEnv stdEnv_ok .add rfl _ (by simp [Plain, isInterval, isCondition, isSetInst])), h1, ?_, ?_, ?_, ?_⟩
  · intro h
    obtain ⟨s, h, -⟩ := h [interval (int 0)] (int 1) (by simp [Variant, sf_int, sf_flt, sf_iter, isIntervalValue]) ⟨interval (int 0), by simp, by simp [Plain, isInterval]⟩ (by decide)
    rw [show call stdEnv .neg [interval (int 0)] = .illFormed by decide] at h
    cases h
  · intro h
    obtain ⟨s, h, -⟩ := h [flt 1, interval (flt 1)] (flt 1) (by simp [Variant, sf_int, sf_flt, sf_iter, isIntervalValue]) ⟨interval (flt 1), by simp, by simp [Plain, isInterval]⟩ (by decide)
    rw [show call stdEnv .merge [flt 1, interval (flt 1)] = .noOverload by decide] at h
    cases h
  · intro h
    obtain ⟨s, h, -⟩ := h [.set (enum 7) 0, .set (enum 7) 0] .bool (by simp [Variant, SetFor.enum]) ⟨.set (enum 7) 0, by simp, by simp [Plain, isSetInst]⟩ (by decide)
    rw [show call stdEnv (.cmp .lt) [.set (enum 7) 0, .set (enum 7) 0] = .noOverload by decide] at h
    cases h
  · intro h
    obtain ⟨s, h, -⟩ := h [.bool, interval (iter 0), iter 0] (iter 0) (by simp [Variant, sf_int, sf_flt, sf_iter, isIntervalValue]) ⟨interval (iter 0), by simp, by simp [Plain, isInterval]⟩ (by decide)
    rw [show call stdEnv .ifElse [.bool, interval (iter 0), iter 0] = .illFormed by decide] at h
    cases h

/-- Where exactly the arithmetic operators fail for integer types narrower than `int`: with an interval among the operands, `+` and `-` never compile, `/`
only with a divisor that is a value, `*` always; unary `-` does not compile, unary `+` does. -/
theorem C75_short {env : Env} (he : EnvOk env) {n : Nat} (hn : Short env n) {t u : CppType} (ht : Variant (int n) t) (hu : Variant (int n) u)
    (hi : isInterval t = true ∨ isInterval u = true) :
    call env .add [t, u] = .illFormed ∧ call env .sub [t, u] = .illFormed ∧ call env .mul [t, u] = .ok (interval (int n)) ∧
    call env .div [t, u] = (if isInterval u then .illFormed else .ok (interval (int n))) ∧
    (isInterval t = true → call env .neg [t] = .illFormed ∧ call env .pos [t] = .ok (interval (int n))) := by
  obtain ⟨h1, h2, h3⟩ := hn
  have hc : env.common [int n, int n] = some (int n) := he.common_same (int n) 1 rfl
  have hb : ∀ t, Variant (int n) t → t = int n ∨ t = interval (int n) ∨ t = cinterval (int n) := by
    rintro t (rfl | h)
    · exact .inl rfl
    · cases h <;> simp
  rcases hb t ht with rfl | rfl | rfl <;> rcases hb u hu with rfl | rfl | rfl <;>
  first
  | (exfalso; revert hi; simp [isInterval]; done)
  | (overload [hc, h1, h2, h3, isArithValue, okInterval, mkQuotient])

/-! ## The functions that treat values and sets differently -/

/-- `constrain(x, c)` compiles for a value with a truth value, and for an interval with a condition if it is an lvalue. -/
theorem C75_constrain {env : Env} (he : EnvOk env) {v x c : CppType} (hv : okInterval env v = true) (hx : Variant v x) (hc : Variant .bool c) :
    (call env .constrain [x, c] = .ok x ↔ (x = v ∧ c = .bool) ∨ (isInterval x = true ∧ isCondition c = true)) ∧
    (call env .constrainRvalue [x, c] = .ok x ↔ x = v ∧ c = .bool) := call_constrain he hv hx hc
/-- `assign(x, y)` compiles unless a set is assigned to a value. -/
theorem C75_assign {env : Env} {v x y : CppType} (hv : okInterval env v = true) (hc : env.convertible v v = true) (hx : x = v ∨ x = interval v) (hy : Variant v y) :
    call env .assign [x, y] = .ok voidT ↔ (x = interval v ∨ y = v) := call_assign hv hc hx hy
/-- Exactly which arguments `assign`, `assign_partial` and `reset` take: an interval takes values and intervals whose value type converts to its own, a value takes
values that convert, a set of an enumeration takes a set or a value of that enumeration, a set of truth values also conditions and what converts to `bool`. -/
theorem C75_assign_iff (env : Env) (y s : CppType) :
    (∀ v, call env .assign [interval v, y] = .ok s ↔ s = voidT ∧
      (y = interval v ∨ (∃ w, (y = interval w ∨ y = cinterval w) ∧ env.convertible w v = true) ∨ isScalar y = true ∧ (y = v ∨ env.convertible y v = true))) ∧
    (∀ v, isIntervalValue v = true → (call env .assign [v, y] = .ok s ↔ s = voidT ∧ (y = v ∨ isScalar y = true ∧ env.convertible y v = true))) ∧
    (∀ e r, e ≠ .bool → (call env .assign [.set e r, y] = .ok s ↔ s = voidT ∧ (y = .set e r ∨ y = e ∨ setBase y = some (.set e r)))) ∧
    (∀ r, call env .assign [.set .bool r, y] = .ok s ↔ s = voidT ∧ (y = .set .bool r ∨ y = .bool ∨ env.toBool y = true ∨ setBase y = some (.set .bool r))) := by
  have one : ∀ o : Option (List Nat), resolve [⟨o, 0, some voidT⟩] = .ok s ↔ s = voidT ∧ o.isSome = true := by
    intro o; cases o <;> simp [resolve, viable, pick]; exact eq_comm
  have r0 : ∀ (r : Option CppType) (cs : List Cand), resolve (⟨none, 0, r⟩ :: cs) = resolve cs := fun r cs => by simp [resolve, viable]
  have r1 : ∀ (o : Option (List Nat)) (r : Option CppType), resolve [⟨o, 0, some voidT⟩, ⟨none, 0, r⟩] = resolve [⟨o, 0, some voidT⟩] := fun o r => by
    cases o <;> simp [resolve, viable]
  have n2 : ∀ o : Option Nat, ranks2 none o = none := fun _ => rfl
  have k2 : ∀ o : Option Nat, (ranks2 (some 0) o).isSome = o.isSome := fun o => by cases o <;> rfl
  refine ⟨fun v => ?_, fun v hv => ?_, fun e r he => ?_, fun r => ?_⟩
  · have : call env .assign [interval v, y] = resolve [⟨ranks2 (some 0) (toIntervalRank env v y), 0, some voidT⟩] := by
      simp only [call, cands, assignCands, exact, isIntervalValue, Bool.false_eq_true, if_false, n2, r0, r1]
    rw [this, one, k2]
    refine and_congr_right fun _ => ?_
    unfold toIntervalRank
    by_cases h : y = interval v
    · simp [h]
    · rw [if_neg h]
      cases y with
      | interval w => simp [intervalValueT, isScalar]; grind
      | cinterval w => simp [intervalValueT, isScalar]
      | _ => simp [intervalValueT, isScalar]
  · have : call env .assign [v, y] = resolve [⟨ranks2 (some 0) (toValueRank env v y), 0, some voidT⟩] := by
      simp only [call, cands, assignCands, exact, hv, if_true]
      cases v with
      | interval w => simp [isIntervalValue] at hv
      | set e r => simp [isIntervalValue] at hv
      | _ => cases ranks2 (some 0) (toValueRank env _ y) <;> simp [resolve, viable]
    rw [this, one, k2]
    refine and_congr_right fun _ => ?_
    unfold toValueRank
    by_cases h : y = v
    · simp [h]
    · simp [h]
  · have : call env .assign [.set e r, y] = resolve [⟨ranks2 (some 0) (toSetRank env (.set e r) y), 0, some voidT⟩] := by
      simp only [call, cands, assignCands, exact, isIntervalValue, Bool.false_eq_true, if_false, n2, r0, r1]
    rw [this, one, k2]
    refine and_congr_right fun _ => ?_
    unfold toSetRank
    by_cases h : y = .set e r
    · simp [h]
    · by_cases h' : setBase y = some (.set e r)
      · simp [h, h']
      · rw [if_neg h, if_neg h']
        cases e with
        | bool => exact absurd rfl he
        | _ => simp [h, h']
  · have : call env .assign [.set .bool r, y] = resolve [⟨ranks2 (some 0) (toSetRank env (.set .bool r) y), 0, some voidT⟩] := by
      simp only [call, cands, assignCands, exact, isIntervalValue, Bool.false_eq_true, if_false, n2, r0, r1]
    rw [this, one, k2]
    refine and_congr_right fun _ => ?_
    unfold toSetRank toBoolRank
    by_cases h : y = .set .bool r
    · simp [h]
    · by_cases h' : setBase y = some (.set .bool r)
      · simp [h, h']
      · rw [if_neg h, if_neg h']
        by_cases hb : y = .bool <;> by_cases ht : env.toBool y = true <;> simp [h, h', hb, ht]
/-- The conditions that comparisons of intervals return: over the two operands, intervals with identity, the same for `x > y` as for `y < x` and for `x >= y` as for
`y <= x`; the negation of a comparison has the type of the opposite comparison. -/
theorem C75_compare {env : Env} (he : EnvOk env) {v w t u : CppType} (hv : Wide env v) (hw : Wide env w) (ht : Variant v t) (hu : Variant w u)
    (hi : isInterval t = true ∨ isInterval u = true) (hr : env.relational v w = true) (hr' : env.relational w v = true) :
    ∃ l r, (l = if isInterval t then cinterval v else v) ∧ (r = if isInterval u then cinterval w else w) ∧
      (call env (.cmp .lt) [t, u] = .ok (.cond .less l r) ∧ call env (.cmp .gt) [u, t] = .ok (.cond .less l r)) ∧
      (call env (.cmp .le) [t, u] = .ok (.cond .lessEqual l r) ∧ call env (.cmp .ge) [u, t] = .ok (.cond .lessEqual l r)) ∧
      (call env (.cmp .eq) [t, u] = .ok (.cond .equal l r) ∧ call env (.cmp .ne) [t, u] = .ok (.cond .notEqual l r)) ∧
      ∀ op op' c, (op, op') ∈ [(CmpOp.lt, CmpOp.ge), (.ge, .lt), (.le, .gt), (.gt, .le), (.eq, .ne), (.ne, .eq)] →
        call env (.cmp op) [t, u] = .ok c → call env .not [c] = call env (.cmp op') [t, u] := by
  have hval : ∀ v t, Wide env v → Variant v t → intervalArgValueT t = some v ∧ setBase t = none ∧ (isInterval t = true → isScalar t = false) ∧
      asInterval t = if isInterval t then cinterval v else v := by
    intro v t hv ht
    have := variant_cases hv ht
    rcases wide_cases hv with ⟨n, rfl⟩ | ⟨n, rfl, h1⟩ | ⟨n, rfl⟩ <;> rcases this with rfl | rfl | rfl <;>
      simp [intervalArgValueT, isIntervalValue, intervalValueT, setBase, isInterval, isScalar, asInterval]
  obtain ⟨t1, t2, t3, t4⟩ := hval v t hv ht
  obtain ⟨u1, u2, u3, u4⟩ := hval w u hw hu
  have hns : (isScalar t && isScalar u) = false := by
    rcases hi with h | h
    · simp [t3 h]
    · simp [u3 h]
  have ha : (anyInterval [t, u] && relationalValues env t u) = true := by
    simp [anyInterval, relationalValues, t1, u1, hr, hi]
  have ha' : (anyInterval [u, t] && relationalValues env u t) = true := by
    simp [anyInterval, relationalValues, t1, u1, hr', hi.symm]
  have hns' : (isScalar u && isScalar t) = false := by rw [Bool.and_comm]; exact hns
  have c1 : ∀ op, call env (.cmp op) [t, u] = .ok (cmpResult op t u) := by
    intro op
    simp only [call, cands, cmpCands, hns, ha, setEqCand, setBoolCands, t2, u2]
    cases op <;> simp [tmpl, resolve, viable, pick]
  have c2 : ∀ op, call env (.cmp op) [u, t] = .ok (cmpResult op u t) := by
    intro op
    simp only [call, cands, cmpCands, hns', ha', setEqCand, setBoolCands, t2, u2]
    cases op <;> simp [tmpl, resolve, viable, pick]
  refine ⟨asInterval t, asInterval u, t4, u4, ⟨c1 _, c2 _⟩, ⟨c1 _, c2 _⟩, ⟨c1 _, c1 _⟩, ?_⟩
  intro op op' c hop hc
  rw [c1] at hc ⊢
  cases hc
  have cc := rank_cond he
  simp only [List.mem_cons, Prod.mk.injEq, List.not_mem_nil, or_false] at hop
  rcases hop with ⟨rfl, rfl⟩ | ⟨rfl, rfl⟩ | ⟨rfl, rfl⟩ | ⟨rfl, rfl⟩ | ⟨rfl, rfl⟩ | ⟨rfl, rfl⟩ <;>
    simp [call, cands, notCands, cmpResult, notType, setBase, cc, resolve, viable, pick, better, leRanks]
/-- `merge`, `intersect` take values or intervals, but not both. -/
theorem C75_merge {env : Env} (he : EnvOk env) {v : CppType} {ts : List CppType} (hv : Wide env v) (hn : ts ≠ []) (ht : ∀ t ∈ ts, Variant v t) :
    call env .merge ts = if ts.all isIntervalValue then .ok v else if ts.all isInterval then .ok (interval v) else .noOverload := call_merge he hv hn ht

/-! ## Examples -/

theorem wide_double : Wide stdEnv (flt 1) := ⟨rfl, fun _ => rfl⟩
theorem wide_float : Wide stdEnv (flt 0) := ⟨rfl, fun _ => rfl⟩
theorem wide_int : Wide stdEnv (int 1) := ⟨rfl, fun _ => rfl⟩
theorem wide_iter : Wide stdEnv (iter 3) := ⟨rfl, fun h => by simp [isArithValue, isFltValue, isIntValue] at h⟩

-- `float * interval<double>` with value types `float`, `double`
example : Lifts stdEnv .mul [flt 0, flt 1] := C75_lift_partial stdEnv_ok (.binary .mul _ _ (by simp) wide_float wide_double)
example : call stdEnv .mul [flt 0, interval (flt 1)] = .ok (interval (flt 1)) := by decide
example : call stdEnv .mul [flt 0, flt 1] = .ok (flt 1) := by decide
-- iterators
example : Lifts stdEnv .sub [iter 3, iter 3] := C75_lift_partial stdEnv_ok (.binary .sub _ _ (by simp) wide_iter wide_iter)
example : call stdEnv .sub [interval (iter 3), iter 3] = .ok (interval (int 3)) := by decide
example : call stdEnv .add [int 1, interval (iter 3)] = .ok (interval (iter 3)) := by decide
example : call stdEnv .add [interval (flt 1), interval (iter 3)] = .noOverload := by decide
-- `short`
example : call stdEnv .add [interval (int 0), int 0] = .illFormed :=
  (C75_short stdEnv_ok (n := 0) ⟨rfl, rfl, rfl⟩ (.inr (.interval _ rfl (by simp))) (.inl rfl) (.inl rfl)).1
-- comparisons
example : call stdEnv (.cmp .gt) [interval (flt 1), flt 0] = .ok (.cond .less (flt 0) (cinterval (flt 1))) ∧
    call stdEnv .not [.cond .less (flt 0) (cinterval (flt 1))] = call stdEnv (.cmp .le) [interval (flt 1), flt 0] := by
  obtain ⟨l, r, rfl, rfl, h⟩ := C75_compare stdEnv_ok wide_float wide_double (t := flt 0) (u := interval (flt 1)) (.inl rfl)
    (.inr (.interval _ rfl (by simp))) (.inr rfl) rfl rfl
  exact ⟨h.1.2, by decide⟩
-- logic and conditions
example : call stdEnv (.log .conj) [.bool, .cond .less (cinterval (flt 1)) (flt 1)] = .ok (.cond .conjunction .bool (.cond .less (cinterval (flt 1)) (flt 1))) := by decide
example : call stdEnv .not [.cond .conjunction .bool (.cond .less (cinterval (flt 1)) (flt 1))] = .ok setBoolT := by decide
-- signs
example : call stdEnv .mul [setSignT, flt 1] = .ok (interval (flt 1)) := by decide
example : call stdEnv .mul [signT, interval (int 1)] = .ok (interval (int 1)) := by decide
-- narrow integer types: `*` compiles, `+` does not, `/` only for a divisor that is a value
example : call stdEnv .div [interval (int 0), int 0] = .ok (interval (int 0)) := by decide
example : call stdEnv .div [int 0, interval (int 0)] = .illFormed := by decide
example : call stdEnv .mul [interval (int 0), interval (int 0)] = .ok (interval (int 0)) := by decide
example : call stdEnv .add [interval (int 0), interval (int 0)] = .illFormed := by decide
-- no call is ambiguous
example : call stdEnv .ifElse [.cond .less (cinterval (flt 1)) (flt 1), interval (flt 1), flt 1] ≠ .ambiguous := C75_unambiguous stdEnv_ok _ _
example : call stdEnv .ifElse [.cond .less (cinterval (flt 1)) (flt 1), interval (flt 1), flt 1] = .ok (interval (flt 1)) := by decide
-- plain arguments
example : Plain (flt 1) := C75_plain_partial stdEnv_ok (f := .fltOp) (ts := [flt 1, flt 1, flt 1]) (by simp) (by simp [Plain, isInterval, isCondition, isSetInst]) (by decide)
-- constrain, assign, merge
example : call stdEnv .constrain [cinterval (flt 1), .cond .less (cinterval (flt 1)) (flt 1)] = .ok (cinterval (flt 1)) :=
  (C75_constrain stdEnv_ok (v := flt 1) rfl (.inr (.cinterval _ rfl (by simp))) (.inr (.cond _ _ _))).1.mpr (.inr ⟨rfl, rfl⟩)
example : call stdEnv .constrainRvalue [interval (flt 1), .cond .less (cinterval (flt 1)) (flt 1)] = .illFormed := by decide
example : call stdEnv .assign [flt 1, interval (flt 1)] = .noOverload := by decide
example : call stdEnv .assign [interval (flt 1), flt 1] = .ok voidT := (C75_assign rfl rfl (.inr rfl) (.inl rfl)).mpr (.inl rfl)
example : call stdEnv .merge [interval (flt 1), cinterval (flt 1), interval (flt 1)] = .ok (interval (flt 1)) := by
  rw [C75_merge stdEnv_ok wide_double (by simp) (by simp [Variant, sf_int, sf_flt, sf_iter, show SetFor (flt 1) (cinterval (flt 1)) from .cinterval _ rfl (by simp), isIntervalValue])]; rfl

end Intervals.Props
