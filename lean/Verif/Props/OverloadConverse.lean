import Verif.Props.OverloadPlain
import Mathlib.Tactic.ByContra
/-!
# C75: calls with sets compile only if the calls with values do
-/
set_option linter.unusedSimpArgs false
set_option linter.unusedTactic false
set_option linter.unreachableTactic false
set_option linter.unnecessarySeqFocus false
namespace Intervals.Props
open Intervals.Traits Intervals.Overload Intervals.Spec CppType

@[local simp] theorem okc_flt (env : Env) (n : Nat) : okInterval env (flt n) = true := rfl
@[local simp] theorem okc_iter (env : Env) (n : Nat) : okInterval env (iter n) = true := rfl
@[local simp] theorem okc_int (env : Env) (n : Nat) : okInterval env (int n) = env.signed n := rfl
@[local simp] theorem arc_flt (n : Nat) : isArithValue (flt n) = true := rfl
@[local simp] theorem arc_int (n : Nat) : isArithValue (int n) = true := rfl
@[local simp] theorem arc_iter (n : Nat) : isArithValue (iter n) = false := rfl
@[local simp] theorem arc_ivl (v : CppType) : isArithValue (interval v) = false := rfl
@[local simp] theorem arc_civl (v : CppType) : isArithValue (cinterval v) = false := rfl

set_option maxHeartbeats 2000000

theorem conv_binary {env : Env} (he : EnvOk env) {v w t u s : CppType} (hv : Wide env v) (hw : Wide env w) (ht : Variant v t) (hu : Variant w u)
    (hi : isInterval t = true ∨ isInterval u = true) (f : Fn) (hf : f ∈ [Fn.add, .sub, .mul, .div, .min]) (hr : call env f [t, u] = .ok s) :
    ∃ r, call env f [v, w] = .ok r := by
  have vt := variant_cases hv ht
  have wt := variant_cases hw hu
  have i1 := common_iter_left he
  have i2 := common_iter_right he
  clear ht hu
  simp only [List.mem_cons, List.not_mem_nil, or_false] at hf
  rcases hf with rfl | rfl | rfl | rfl | rfl <;>
  rcases wide_cases hv with ⟨n, rfl⟩ | ⟨n, rfl, h1⟩ | ⟨n, rfl⟩ <;> rcases wide_cases hw with ⟨m, rfl⟩ | ⟨m, rfl, h2⟩ | ⟨m, rfl⟩ <;>
  first
  | (overload []; done)
  | (exfalso; rcases vt with rfl | rfl | rfl <;> rcases wt with rfl | rfl | rfl <;>
      first
      | (revert hi; simp [isInterval]; done)
      | (overload [i1, i2] at hr; done))
  | (have e : n = m := by
      rcases vt with rfl | rfl | rfl <;> rcases wt with rfl | rfl | rfl <;>
      first
      | (revert hi; simp [isInterval]; done)
      | (by_contra e; overload [i1, i2, e] at hr; done)
     subst e; overload []; done)
  | skip

theorem conv_unary {env : Env} {v t s : CppType} (hv : Wide env v) (ht : SetFor v t) (f : Fn)
    (hf : f ∈ [Fn.neg, .pos, .arithUn, .sgn, .fltUn, .fltTest, .prev, .inf, .not, .proj]) (hb : env.toBool t = false) (hr : call env f [t] = .ok s) :
    ∃ r, call env f [v] = .ok r := by
  have vt : t = interval v ∨ t = cinterval v := by
    rcases variant_cases hv (.inr ht) with rfl | h
    · cases ht
    · exact h
  clear ht
  simp only [List.mem_cons, List.not_mem_nil, or_false] at hf
  rcases hf with rfl | rfl | rfl | rfl | rfl | rfl | rfl | rfl | rfl | rfl <;>
  rcases wide_cases hv with ⟨n, rfl⟩ | ⟨n, rfl, h1⟩ | ⟨n, rfl⟩ <;>
  first
  | (overload []; done)
  | (exfalso; rcases vt with rfl | rfl <;> (overload [toBoolRank, toSetBoolRank, hb] at hr; done))

theorem wide_variant {env : Env} {v t : CppType} (hv : Wide env v) (ht : Variant v t) :
    intervalArgValueT t = some v ∧ setBase t = none ∧ (isInterval t = true → isScalar t = false) ∧ isIntervalArg t = true ∧ (isInterval t = true → isFltValue t = false) := by
  have := variant_cases hv ht
  rcases wide_cases hv with ⟨n, rfl⟩ | ⟨n, rfl, h1⟩ | ⟨n, rfl⟩ <;> rcases this with rfl | rfl | rfl <;>
    simp [intervalArgValueT, isIntervalValue, intervalValueT, setBase, isInterval, isScalar, isIntervalArg, isFltValue]

theorem conv_cmp {env : Env} {v w t u s : CppType} (op : CmpOp) (hv : Wide env v) (hw : Wide env w) (ht : Variant v t) (hu : Variant w u)
    (hi : isInterval t = true ∨ isInterval u = true) (hr : call env (.cmp op) [t, u] = .ok s) : ∃ r, call env (.cmp op) [v, w] = .ok r := by
  have hsc : ∀ v, Wide env v → isScalar v = true := by
    intro v hv; rcases wide_cases hv with ⟨n, rfl⟩ | ⟨n, rfl, h1⟩ | ⟨n, rfl⟩ <;> rfl
  obtain ⟨t1, t2, t3, -⟩ := wide_variant hv ht
  obtain ⟨u1, u2, u3, -⟩ := wide_variant hw hu
  have hns : (isScalar t && isScalar u) = false := by
    rcases hi with h | h
    · simp [t3 h]
    · simp [u3 h]
  cases h : env.relational v w with
  | true => exact ⟨.bool, by simp [call, cands, cmpCands, hsc v hv, hsc w hw, h, resolve, viable, pick]⟩
  | false =>
    exfalso
    simp only [call, cands, cmpCands, hns, setEqCand, setBoolCands, t2, u2, relationalValues, t1, u1, h] at hr
    cases op <;> simp [tmpl, resolve, viable, pick] at hr

theorem conv_log {env : Env} {v w t u s : CppType} (op : LogOp) (hv : Wide env v) (hw : Wide env w) (ht : Variant v t) (hu : Variant w u)
    (hi : isInterval t = true ∨ isInterval u = true) (hr : call env (.log op) [t, u] = .ok s) : False := by
  obtain ⟨t1, t2, t3, -⟩ := wide_variant hv ht
  obtain ⟨u1, u2, u3, -⟩ := wide_variant hw hu
  have hns : (isScalar t && isScalar u) = false := by
    rcases hi with h | h
    · simp [t3 h]
    · simp [u3 h]
  have vt := variant_cases hv ht
  have hs : isSetArgBool t = false := by
    rcases wide_cases hv with ⟨n, rfl⟩ | ⟨n, rfl, h1⟩ | ⟨n, rfl⟩ <;> rcases vt with rfl | rfl | rfl <;> rfl
  cases op <;> simp [call, cands, logCands, hns, setBoolCands, t2, u2, hs, tmpl, resolve, viable, pick] at hr

/-- functions on values of intervals for which C75 holds in both directions -/
inductive Converse (env : Env) : Fn → List CppType → Prop
  | binary (f : Fn) (v w : CppType) (hf : f ∈ [Fn.add, .sub, .mul, .div, .min] ∨ (∃ op, f = .cmp op) ∨ ∃ op, f = .log op) (hv : Wide env v) (hw : Wide env w) :
      Converse env f [v, w]
  | unary (f : Fn) (v : CppType) (hf : f ∈ [Fn.neg, .pos, .arithUn, .sgn, .fltUn, .fltTest, .prev, .inf, .not, .proj]) (hv : Wide env v) : Converse env f [v]

/-- C75, converse: a call with an interval in place of a value compiles only if the call with values compiles.  (`pow`, `atan2`, weights and blends take operands of
different types if one of them is an interval, see `C75_floating`.) -/
theorem C75_converse {env : Env} (he : EnvOk env) {f : Fn} {vs ts : List CppType} (h : Converse env f vs) (hts : List.Forall₂ Variant vs ts)
    (hs : ∃ t ∈ ts, ¬ Plain t) {s : CppType} (hr : call env f ts = .ok s) : ∃ r, call env f vs = .ok r := by
  cases h with
  | binary v w hf hv hw =>
    obtain ⟨t, u, rfl, ht, hu⟩ := forall2_two hts
    have hi : isInterval t = true ∨ isInterval u = true := by
      obtain ⟨x, hx, hp⟩ := hs
      simp only [List.mem_cons, List.not_mem_nil, or_false] at hx
      rcases hx with rfl | rfl
      · exact .inl (interval_of ht hv hp)
      · exact .inr (interval_of hu hw hp)
    rcases hf with hf | ⟨op, rfl⟩ | ⟨op, rfl⟩
    · exact conv_binary he hv hw ht hu hi f hf hr
    · exact conv_cmp op hv hw ht hu hi hr
    · exact (conv_log op hv hw ht hu hi hr).elim
  | unary v hf hv =>
    obtain ⟨t, rfl, ht⟩ := forall2_one hts
    obtain ⟨x, hx, hp⟩ := hs
    simp only [List.mem_cons, List.not_mem_nil, or_false] at hx
    subst hx
    exact conv_unary hv (setFor_of ht (plain_wide hv) hp) f hf (he.toBool_set _ (.inl (interval_of ht hv hp))) hr

/-- C75: `pow`, `atan2`, `fractional_weights`, `blend_fractions` and `blend_linear` with at least one interval among the arguments compile exactly if the value types
have a common type that is a floating-point type; the result is an interval of this type. -/
theorem C75_floating {env : Env} {vs ts : List CppType} (hl : vs.length ∈ [2, 3, 4]) (hv : ∀ v ∈ vs, Wide env v)
    (ht : List.Forall₂ Variant vs ts) (hi : ∃ t ∈ ts, ¬ Plain t) (s : CppType) :
    call env .fltOp ts = .ok s ↔ ∃ c, env.common vs = some (flt c) ∧ s = interval (flt c) := by
  have hc : call env .fltOp ts = resolve (fltOpCands env ts) := by
    have := ht.length_eq
    match ts, hl, this with
    | [], hl, e => simp [e] at hl
    | [_], hl, e => simp [e] at hl
    | [_, _], _, _ => rfl
    | [_, _, _], _, _ => rfl
    | [_, _, _, _], _, _ => rfl
    | _ :: _ :: _ :: _ :: _ :: _, hl, e => simp [e] at hl
  have key : ∀ (vs ts : List CppType), (∀ b ∈ vs, Wide env b) → List.Forall₂ Variant vs ts →
      ts.mapM intervalArgValueT = some vs ∧ ts.all isIntervalArg = true ∧ ∀ t ∈ ts, ¬ Plain t → isInterval t = true ∧ isFltValue t = false := by
    intro vs ts hs ht
    induction ht with
    | nil => exact ⟨rfl, rfl, by simp⟩
    | @cons b t bs ts hbt _ ih =>
      obtain ⟨i1, i2, i3⟩ := ih (fun x hx => hs x (by simp [hx]))
      have hb := hs b (by simp)
      obtain ⟨h1, -, -, h2, h3⟩ := wide_variant hb hbt
      refine ⟨by simp [List.mapM_cons, h1, i1], by simp [h2, i2], fun x hx hp => ?_⟩
      rcases List.mem_cons.mp hx with rfl | hx
      · have := interval_of hbt hb hp; exact ⟨this, h3 this⟩
      · exact i3 x hx hp
  obtain ⟨k1, k2, k3⟩ := key vs ts hv ht
  obtain ⟨t, htm, htp⟩ := hi
  obtain ⟨t1, t2⟩ := k3 t htm htp
  have hcm : commonIntervalValueT env.common ts = env.common vs := by
    simp only [commonIntervalValueT, k1, Option.bind_eq_bind, Option.bind_some]
  have hany : anyInterval ts = true := by rw [anyInterval, List.any_eq_true]; exact ⟨t, htm, t1⟩
  have hno : (ts.all isFltValue && ts.all fun t => decide (ts.head? = some t)) = false := by
    rw [Bool.and_eq_false_iff, List.all_eq_false]
    exact .inl ⟨t, htm, by simp [t2]⟩
  rw [hc]
  simp only [fltOpCands, call_tmpl2, hno, hany, floatingPointOperands, k2, hcm, mkCommon, mkInterval]
  cases h : env.common vs with
  | none => simp
  | some c => cases c <;> simp [isFltValue, mkInterval, okInterval, eq_comm]

theorem viable_of_ok {cs : List Cand} {s : CppType} (h : resolve cs = .ok s) : ∃ c ∈ cs, c.ranks ≠ none := by
  by_contra hn
  push Not at hn
  have : viable cs = [] := by
    unfold viable
    rw [List.filterMap_eq_nil_iff]
    intro c hc
    simp [hn c hc]
  simp [resolve, this] at h

/-- C75: `+`, `-`, `/`, `min`, `max`, and order comparisons with an interval take values and intervals only; products also signs and sets of signs. -/
theorem C75_operands {env : Env} (he : EnvOk env) {f : Fn} {t u s : CppType} (hf : f ∈ [Fn.add, .sub, .mul, .div, .min] ∨ ∃ op, f = .cmp op ∧ op ≠ .eq ∧ op ≠ .ne)
    (hi : isInterval t = true ∨ isInterval u = true) (hr : call env f [t, u] = .ok s) :
    (isIntervalArg t = true ∧ isIntervalArg u = true) ∨ (f = .mul ∧ (t ∈ [signT, setSignT] ∨ u ∈ [signT, setSignT])) := by
  obtain ⟨c, hc, hs⟩ := viable_of_ok hr
  have ia : ∀ {x}, isInterval x = true → isIntervalArg x = true := fun h => by simp [isIntervalArg, h]
  have op : arithmeticOperands env [t, u] = true → isIntervalArg t = true ∧ isIntervalArg u = true := fun h => by
    simp only [arithmeticOperands, List.all_cons, List.all_nil, Bool.and_true, Bool.and_eq_true] at h; exact h.1
  have av : ∀ {x}, isIntArg x = true → isIntervalArg x = true := fun {x} h => by cases x <;> simp_all [isIntArg, isIntervalArg, isIntValue, isIntInterval, isIntervalValue]
  have iv : ∀ {x}, isIterArg x = true → isIntervalArg x = true := fun {x} h => by cases x <;> simp_all [isIterArg, isIntervalArg, isIterValue, isIterInterval, isIntervalValue]
  have na : ∀ {x}, isInterval x = true → arithRank x = none ∧ isIterValue x = false ∧ isIntValue x = false := interval_scalar
  have argv : ∀ {x v}, intervalArgValueT x = some v → isIntervalArg x = true := fun {x v} h => by
    cases x <;> simp_all [intervalArgValueT, isIntervalArg, isIntervalValue, intervalValueT, isInterval]
  have sv : sameValues t u = true → isIntervalArg t = true ∧ isIntervalArg u = true := fun h => by
    unfold sameValues at h
    cases h1 : intervalArgValueT t <;> cases h2 : intervalArgValueT u <;> simp only [h1, h2] at h
    all_goals first | exact ⟨argv h1, argv h2⟩ | exact absurd h (by simp)
  have rv : relationalValues env t u = true → isIntervalArg t = true ∧ isIntervalArg u = true := fun h => by
    unfold relationalValues at h
    cases h1 : intervalArgValueT t <;> cases h2 : intervalArgValueT u <;> simp only [h1, h2] at h
    all_goals first | exact ⟨argv h1, argv h2⟩ | exact absurd h (by simp)
  have tm : ∀ {b n r}, (tmpl b n r).ranks ≠ none → b = true := fun {b n r} h => by cases b <;> simp [tmpl] at h ⊢
  have bi : (builtinArith env t u).ranks ≠ none → False := fun h => by
    rcases hi with hi | hi
    · simp [builtinArith, ranks2, (na hi).1] at h
    · cases ht : arithRank t <;> simp [builtinArith, ranks2, (na hi).1, ht] at h
  have it1 : (isIterValue t && isIntValue u) = false := by rcases hi with h | h <;> simp [na h]
  have it2 : (isIntValue t && isIterValue u) = false := by rcases hi with h | h <;> simp [na h]
  have it3 : (isIterValue t && decide (t = u)) = false := by
    rcases hi with h | h
    · simp [na h]
    · by_cases e : t = u
      · subst e; simp [na h]
      · simp [e]
  have ex : ∀ {b}, exact b ≠ none → b = true := fun {b} h => by cases b <;> simp [exact] at h ⊢
  have r2 : ∀ {a b}, ranks2 a b ≠ none → a ≠ none ∧ b ≠ none := fun {a b} h => by cases a <;> cases b <;> simp [ranks2] at h ⊢
  have sg : ∀ {x}, toSignRank x ≠ none → x ∈ [signT, setSignT] := fun {x} h => by
    by_cases e : x = signT
    · simp [e]
    · simp [toSignRank, e] at h
  have ss : ∀ {x}, toSetSignRank x ≠ none → x ∈ [signT, setSignT] := fun {x} h => by
    by_cases e : x = signT
    · simp [e]
    · by_cases e' : x = setSignT
      · simp [e']
      · simp [toSetSignRank, e, e'] at h
  have nb : ∀ {x}, isInterval x = true → toBoolRank env x = none ∧ toSetBoolRank env x = none := fun {x} h => by
    have := he.toBool_set x (.inl h)
    cases x <;> simp_all [isInterval, toBoolRank, toSetBoolRank, setBoolT, isCondition]
  rcases hf with hf | ⟨op, rfl, o1, o2⟩
  · simp only [List.mem_cons, List.not_mem_nil, or_false] at hf
    rcases hf with rfl | rfl | rfl | rfl | rfl
    · left
      simp only [cands, addCands, List.mem_cons, List.not_mem_nil, or_false] at hc
      rcases hc with rfl | rfl | rfl | rfl | rfl | rfl
      · exact op ((Bool.and_eq_true_iff.mp (tm hs)).2)
      · have := tm hs; simp only [Bool.and_eq_true] at this; exact ⟨iv this.1.2, av this.2⟩
      · have := tm hs; simp only [Bool.and_eq_true] at this; exact ⟨av this.1.2, iv this.2⟩
      · exact (bi hs).elim
      · simp [it1] at hs
      · simp [it2] at hs
    · left
      simp only [cands, subCands, List.mem_cons, List.not_mem_nil, or_false] at hc
      rcases hc with rfl | rfl | rfl | rfl | rfl | rfl
      · exact op ((Bool.and_eq_true_iff.mp (tm hs)).2)
      · have := tm hs; simp only [Bool.and_eq_true] at this; exact ⟨iv this.1.2, av this.2⟩
      · exact sv ((Bool.and_eq_true_iff.mp (tm hs)).2)
      · exact (bi hs).elim
      · simp [it1] at hs
      · simp only [it3] at hs; simp at hs
    · simp only [cands, mulCands, List.mem_cons, List.not_mem_nil, or_false] at hc
      have lft : toSignRank t ≠ none ∨ toSetSignRank t ≠ none → (isIntervalArg t = true ∧ isIntervalArg u = true) ∨ (Fn.mul = .mul ∧ (t ∈ [signT, setSignT] ∨ u ∈ [signT, setSignT])) := fun h =>
        .inr ⟨rfl, .inl (h.elim sg ss)⟩
      have rgt : toSignRank u ≠ none ∨ toSetSignRank u ≠ none → (isIntervalArg t = true ∧ isIntervalArg u = true) ∨ (Fn.mul = .mul ∧ (t ∈ [signT, setSignT] ∨ u ∈ [signT, setSignT])) := fun h =>
        .inr ⟨rfl, .inr (h.elim sg ss)⟩
      rcases hc with rfl | rfl | rfl | rfl | rfl | rfl | rfl | rfl | rfl | rfl | rfl | rfl | rfl | rfl
      · exact .inl (op ((Bool.and_eq_true_iff.mp (tm hs)).2))
      · exact lft (.inl (r2 hs).1)
      · exact rgt (.inl (r2 hs).2)
      · exact lft (.inr (r2 hs).1)
      · exact rgt (.inr (r2 hs).2)
      · exact lft (.inl (r2 hs).1)
      · exact rgt (.inl (r2 hs).2)
      · exact lft (.inl (r2 hs).1)
      · exact lft (.inr (r2 hs).1)
      · exact lft (.inr (r2 hs).1)
      · exact lft (.inl (r2 hs).1)
      · exact rgt (.inr (r2 hs).2)
      · exact lft (.inr (r2 hs).1)
      · exact (bi hs).elim
    · left
      simp only [cands, divCands, List.mem_cons, List.not_mem_nil, or_false] at hc
      rcases hc with rfl | rfl
      · exact op ((Bool.and_eq_true_iff.mp (tm hs)).2)
      · exact (bi hs).elim
    · left
      simp only [cands, minCands, List.mem_cons, List.not_mem_nil, or_false] at hc
      rcases hc with rfl | rfl
      · have := tm hs
        simp only [Bool.and_eq_true, decide_eq_true_eq] at this
        obtain ⟨h, rfl⟩ := this
        exact ⟨by simp [isIntervalArg, h], by simp [isIntervalArg, h]⟩
      · exact rv ((Bool.and_eq_true_iff.mp (tm hs)).2)
  · left
    have ns : (isScalar t && isScalar u) = false := by
      have : ∀ {x}, isInterval x = true → isScalar x = false := fun {x} h => by cases x <;> simp_all [isInterval, isScalar]
      rcases hi with h | h <;> simp [this h]
    simp only [cands, cmpCands, ns, o1, o2, Bool.false_eq_true, if_false, or_self, setBoolCands, List.mem_cons] at hc
    rcases hc with rfl | hc
    · exact rv ((Bool.and_eq_true_iff.mp (tm hs)).2)
    · split at hc
      · simp at hc
      · simp only [List.mem_cons, List.not_mem_nil, or_false] at hc
        exfalso
        rcases hi with h | h
        · rcases hc with rfl | rfl | rfl <;> simp [ranks2, nb h] at hs
        · rcases hc with rfl | rfl | rfl <;> exact (r2 hs).2 (by simp [nb h])

/-- C75: the negation of a conjunction or disjunction of two conditions has the type of the disjunction or conjunction of the negations. -/
theorem C75_de_morgan {env : Env} (he : EnvOk env) {l r : CppType} (hl : isCondition l = true) (hr : isCondition r = true) :
    ∃ l' r', call env .not [l] = .ok l' ∧ call env .not [r] = .ok r' ∧
      call env .not [.cond .conjunction l r] = .ok (.cond .disjunction l' r') ∧ call env .not [.cond .disjunction l r] = .ok (.cond .conjunction l' r') := by
  have c1 := rank_cond he
  have key : ∀ c, isCondition c = true → call env .not [c] = .ok (notType c) := fun c hc => by
    cases c with
    | cond k l r =>
      by_cases h : (k = .conjunction ∨ k = .disjunction) ∧ (isCondition l && isCondition r) = false
      · have e : notType (.cond k l r) = setBoolT := by rcases h with ⟨rfl | rfl, h⟩ <;> simp [notType, h]
        rw [e]
        simp only [call, cands, notCands, setBase, Option.isNone_some]
        rw [if_pos h]
        simp [c1, resolve, viable, pick]
      · simp only [call, cands, notCands, setBase, Option.isNone_some]
        rw [if_neg h]
        simp [c1, resolve, viable, pick, better, leRanks]
    | _ => simp [isCondition] at hc
  refine ⟨notType l, notType r, key l hl, key r hr, ?_, ?_⟩ <;> rw [key _ rfl] <;> simp [notType, hl, hr]

-- neither `interval<int>` nor `int` has a square root; `pow(interval<double>, int)` compiles, `pow(interval<int>, int)` does not
example : Converse stdEnv .fltUn [int 1] ∧ call stdEnv .fltUn [interval (int 1)] = .noOverload ∧ call stdEnv .fltUn [int 1] = .noOverload :=
  ⟨.unary _ _ (by simp) wide_int, by decide, by decide⟩
example : call stdEnv .fltOp [interval (flt 1), int 1] = .ok (interval (flt 1)) :=
  (C75_floating (vs := [flt 1, int 1]) (by simp) (by simp [wide_double, wide_int])
    (.cons (.inr (.interval _ rfl (by simp))) (.cons (.inl rfl) .nil)) ⟨interval (flt 1), by simp, by simp [Plain, isInterval]⟩ _).mpr ⟨1, by decide, rfl⟩
example : call stdEnv .fltOp [interval (int 1), int 1] = .noOverload := by decide
-- `interval<iterator> - set<bool>` does not compile; `interval<double> * sign` does
example : call stdEnv .sub [interval (iter 0), setBoolT] = .noOverload ∧ call stdEnv .mul [interval (flt 1), signT] = .ok (interval (flt 1)) := by decide
-- `!((x < y & true) & (x < y))`: the first operand is not a condition over comparisons only, its negation is a `set<bool>`
example : let c := CppType.cond .less (cinterval (flt 1)) (cinterval (flt 1))
    call stdEnv .not [.cond .conjunction (.cond .conjunction c .bool) c] =
      .ok (.cond .disjunction setBoolT (.cond .lessEqual (cinterval (flt 1)) (cinterval (flt 1)))) := by decide
-- intervals of iterators can be subtracted if they have the same type, as iterators
example : call stdEnv .sub [interval (iter 0), iter 1] = .noOverload ∧ call stdEnv .sub [iter 0, iter 1] = .noOverload := by decide
end Intervals.Props
