import Verif.Spec.Overload
import Mathlib.Tactic.Tauto
import Mathlib.Tactic.ByContra
/-!
# C75: overload resolution
-/
namespace Intervals.Props
open Intervals.Traits Intervals.Overload Intervals.Spec CppType

/-- classes of types for the multiplication -/
theorem mul_class (x : CppType) :
    (isIntervalArg x = false ∧ isInterval x = false ∧ isArithInterval x = false ∧ isArithValue x = false ∧ toSignRank x = none ∧
      toSetSignRank x = none ∧ arithRank x = none) ∨
    (isArithInterval x = false ∧ isArithValue x = false ∧ toSignRank x = none ∧ toSetSignRank x = none ∧ arithRank x = none) ∨
    (isInterval x = true ∧ isArithInterval x = true ∧ isArithValue x = false ∧ toSignRank x = none ∧ toSetSignRank x = none ∧ arithRank x = none) ∨
    (isInterval x = false ∧ isArithInterval x = false ∧ isArithValue x = true ∧ toSignRank x = none ∧ toSetSignRank x = none ∧ arithRank x = some 0) ∨
    (isIntervalArg x = false ∧ isInterval x = false ∧ isArithInterval x = false ∧ isArithValue x = false ∧ toSignRank x = some 0 ∧
      toSetSignRank x = some 4 ∧ arithRank x = some 2) ∨
    (isIntervalArg x = false ∧ isInterval x = false ∧ isArithInterval x = false ∧ isArithValue x = false ∧ toSignRank x = none ∧
      toSetSignRank x = some 0 ∧ arithRank x = none) := by
  cases x with
  | enum n =>
    by_cases h : n = 0 <;>
    simp [isIntervalArg, isIntervalValue, isInterval, isArithInterval, isArithValue, isFltValue, isIntValue, toSignRank, toSetSignRank, arithRank,
      signT, setSignT, h]
  | set e r =>
    by_cases h : e = enum 0 ∧ r = 0
    · obtain ⟨rfl, rfl⟩ := h
      simp [isIntervalArg, isIntervalValue, isInterval, isArithInterval, isArithValue, isFltValue, isIntValue, toSignRank, toSetSignRank, arithRank,
        signT, setSignT]
    · left
      simp [isIntervalArg, isIntervalValue, isInterval, isArithInterval, isArithValue, isFltValue, isIntValue, toSignRank, toSetSignRank, arithRank,
        signT, setSignT] 
      tauto
  | interval v =>
    cases h : isArithValue v <;>
    simp [isIntervalArg, isIntervalValue, isInterval, isArithInterval, isArithValue, isFltValue, isIntValue, toSignRank, toSetSignRank, arithRank,
      signT, setSignT, intervalValueT] at h ⊢ <;> tauto
  | cinterval v =>
    cases h : isArithValue v <;>
    simp [isIntervalArg, isIntervalValue, isInterval, isArithInterval, isArithValue, isFltValue, isIntValue, toSignRank, toSetSignRank, arithRank,
      signT, setSignT, intervalValueT] at h ⊢ <;> tauto
  | _ =>
    simp [isIntervalArg, isIntervalValue, isInterval, isArithInterval, isArithValue, isFltValue, isIntValue, toSignRank, toSetSignRank, arithRank,
      signT, setSignT]

@[local simp] theorem elim_ne (o : Option CppType) : o.elim Res.illFormed Res.ok ≠ .ambiguous := by
  cases o <;> simp

/-- the first overload of the arithmetic operators takes interval arguments only -/
theorem arith_args {env : Env} {x y : CppType} (h : (anyInterval [x, y] && arithmeticOperands env [x, y]) = true) :
    (isInterval x = true ∨ isInterval y = true) ∧ isIntervalArg x = true ∧ isIntervalArg y = true := by
  simp [anyInterval, arithmeticOperands] at h
  tauto

theorem mul_unamb (env : Env) (x y : CppType) : resolve (mulCands env x y) ≠ .ambiguous := by
  have h1 := @arith_args env x y
  generalize hp : (anyInterval [x, y] && arithmeticOperands env [x, y]) = p at h1
  unfold mulCands
  rw [hp]
  clear hp
  rcases mul_class x with hx | hx | hx | hx | hx | hx <;> rcases mul_class y with hy | hy | hy | hy | hy | hy <;> cases p <;>
  simp_all [tmpl, ranks2, exact, builtinArith, resolve, viable, pick, better, leRanks]

/-- classes of types for `+` and `-` -/
theorem add_class (x : CppType) :
    (isIntervalArg x = false ∧ isInterval x = false ∧ isIterArg x = false ∧ isIntArg x = false ∧ isIterValue x = false ∧ isIntValue x = false) ∨
    (isInterval x = true ∧ isIterArg x = false ∧ isIntArg x = false ∧ isIterValue x = false ∧ isIntValue x = false ∧ arithRank x = none) ∨
    (isInterval x = false ∧ isIterArg x = false ∧ isIntArg x = false ∧ isIterValue x = false ∧ isIntValue x = false ∧ arithRank x = some 0) ∨
    (isInterval x = true ∧ isIterArg x = true ∧ isIntArg x = false ∧ isIterValue x = false ∧ isIntValue x = false ∧ arithRank x = none) ∨
    (isInterval x = false ∧ isIterArg x = true ∧ isIntArg x = false ∧ isIterValue x = true ∧ isIntValue x = false ∧ arithRank x = none) ∨
    (isInterval x = true ∧ isIterArg x = false ∧ isIntArg x = true ∧ isIterValue x = false ∧ isIntValue x = false ∧ arithRank x = none) ∨
    (isInterval x = false ∧ isIterArg x = false ∧ isIntArg x = true ∧ isIterValue x = false ∧ isIntValue x = true ∧ arithRank x = some 0) := by
  cases x with
  | interval v =>
    cases v <;>
    simp [isIntervalArg, isIntervalValue, isInterval, isArithValue, isFltValue, isIntValue, arithRank, isIterArg, isIntArg, isIterValue, isIterInterval,
      isIntInterval, signT, intervalValueT]
  | cinterval v =>
    cases v <;>
    simp [isIntervalArg, isIntervalValue, isInterval, isArithValue, isFltValue, isIntValue, arithRank, isIterArg, isIntArg, isIterValue, isIterInterval,
      isIntInterval, signT, intervalValueT]
  | _ =>
    simp [isIntervalArg, isIntervalValue, isInterval, isArithValue, isFltValue, isIntValue, arithRank, isIterArg, isIntArg, isIterValue, isIterInterval,
      isIntInterval, signT]

theorem iterArg_value {x : CppType} (h : isIterArg x = true) : ∃ n, intervalArgValueT x = some (iter n) := by
  cases x with
  | interval v => cases v <;> simp_all [isIterArg, isIterValue, isIterInterval, isInterval, intervalArgValueT, intervalValueT, isIntervalValue]
  | cinterval v => cases v <;> simp_all [isIterArg, isIterValue, isIterInterval, isInterval, intervalArgValueT, intervalValueT, isIntervalValue]
  | _ => simp_all [isIterArg, isIterValue, isIterInterval, isInterval, intervalArgValueT, intervalValueT, isIntervalValue]

theorem intArg_value {x : CppType} (h : isIntArg x = true) : ∃ v, intervalArgValueT x = some v ∧ isIntValue v = true := by
  cases x with
  | interval v => cases v <;> simp_all [isIntArg, isIntValue, isIntInterval, isInterval, intervalArgValueT, intervalValueT, isIntervalValue]
  | cinterval v => cases v <;> simp_all [isIntArg, isIntValue, isIntInterval, isInterval, intervalArgValueT, intervalValueT, isIntervalValue]
  | _ => simp_all [isIntArg, isIntValue, isIntInterval, isInterval, intervalArgValueT, intervalValueT, isIntervalValue]

/-- iterator intervals are no arithmetic operands -/
theorem arith_not_iter {env : Env} (he : EnvOk env) {x y : CppType} (h : arithmeticOperands env [x, y] = true) :
    isIterArg x = false ∧ isIterArg y = false := by
  simp only [arithmeticOperands, Bool.and_eq_true, Option.any_eq_true] at h
  obtain ⟨-, c, hc, hca⟩ := h
  simp only [commonIntervalValueT, List.mapM_cons, List.mapM_nil, Option.bind_eq_bind, Option.bind_eq_some_iff] at hc
  obtain ⟨vs, ⟨v, hv, ws, ⟨w, hw, ⟨_, h3, h4⟩⟩, h5⟩, hc⟩ := hc
  simp only [Option.pure_def, Option.some.injEq] at h3 h4 h5
  subst h3 h4 h5
  constructor
  · rw [Bool.eq_false_iff]
    intro hx
    obtain ⟨n, hn⟩ := iterArg_value hx
    rw [hn] at hv; cases hv
    have := he.common_iter _ c ⟨iter n, by simp, rfl⟩ hc
    simp_all
  · rw [Bool.eq_false_iff]
    intro hy
    obtain ⟨n, hn⟩ := iterArg_value hy
    rw [hn] at hw; cases hw
    have := he.common_iter _ c ⟨iter n, by simp, rfl⟩ hc
    simp_all

theorem add_unamb {env : Env} (he : EnvOk env) (x y : CppType) : resolve (addCands env x y) ≠ .ambiguous := by
  have h1 := @arith_args env x y
  have h2 : (anyInterval [x, y] && arithmeticOperands env [x, y]) = true → isIterArg x = false ∧ isIterArg y = false := by
    intro h; exact arith_not_iter he (by simp_all)
  unfold addCands
  generalize hp : (anyInterval [x, y] && arithmeticOperands env [x, y]) = p at h1 h2
  clear hp
  generalize hq : arithRank x = rx
  generalize hr : arithRank y = ry
  have e : anyInterval [x, y] = (isInterval x || isInterval y) := by simp [anyInterval]
  rw [e]
  cases p <;> 
  rcases add_class x with hx | hx | hx | hx | hx | hx | hx <;> rcases add_class y with hy | hy | hy | hy | hy | hy | hy <;>
  cases rx <;> cases ry <;>
  simp_all [tmpl, ranks2, exact, builtinArith, resolve, viable, pick, better, leRanks]

theorem interval_scalar {x : CppType} (h : isInterval x = true) : arithRank x = none ∧ isIterValue x = false ∧ isIntValue x = false := by
  cases x <;> simp_all [isInterval, arithRank, isIterValue, isIntValue, isArithValue, isFltValue, signT]

theorem sub_unamb {env : Env} (he : EnvOk env) (x y : CppType) : resolve (subCands env x y) ≠ .ambiguous := by
  have h1 := @arith_args env x y
  have h2 : (anyInterval [x, y] && arithmeticOperands env [x, y]) = true → isIterArg x = false := by
    intro h; exact (arith_not_iter (y := y) he (by simp_all)).1
  have h3 : isIterArg x = true → isIntArg y = true → sameValues x y = false := by
    intro hx hy
    obtain ⟨n, hn⟩ := iterArg_value hx
    obtain ⟨w, hw, hw'⟩ := intArg_value hy
    simp only [sameValues, hn, hw]
    cases w <;> simp_all [isIntValue]
  have h4 : isIterValue x = true → x = y → isIntValue y = false := by
    rintro h rfl
    cases x <;> simp_all [isIterValue, isIntValue]
  have h5 : isIterValue x = true → arithRank x = none := by
    cases x <;> simp [isIterValue, arithRank, isArithValue, isFltValue, isIntValue, signT]
  have e : anyInterval [x, y] = (isInterval x || isInterval y) := by simp [anyInterval]
  have h6 : x = y → isInterval x = isInterval y := by rintro rfl; rfl
  unfold subCands
  cases hi : anyInterval [x, y]
  · rw [hi] at e
    cases hx : isIterValue x
    · cases hq : arithRank x <;> cases hr : arithRank y <;>
      simp_all [tmpl, ranks2, exact, builtinArith, resolve, viable, pick, better, leRanks]
    · by_cases t : x = y
      · subst t; simp_all [tmpl, ranks2, exact, builtinArith, resolve, viable, pick, better, leRanks]
      · cases isIntValue y <;> simp_all [tmpl, ranks2, exact, builtinArith, resolve, viable, pick, better, leRanks]
  · rw [hi] at e
    have hb : ranks2 (arithRank x) (arithRank y) = none := by
      rcases Bool.or_eq_true_iff.mp e.symm with h | h
      · simp [(interval_scalar h).1, ranks2]
      · rw [(interval_scalar h).1]; cases arithRank x <;> simp [ranks2]
    have hb2 : (isIterValue x && isIntValue y) = false := by
      rcases Bool.or_eq_true_iff.mp e.symm with h | h
      · simp [(interval_scalar h).2]
      · simp [(interval_scalar h).2]
    have hb3 : (isIterValue x && decide (x = y)) = false := by
      rcases Bool.or_eq_true_iff.mp e.symm with h | h
      · simp [(interval_scalar h).2]
      · rw [Bool.and_eq_false_iff]
        by_cases t : x = y
        · left; rw [t]; exact (interval_scalar h).2.1
        · right; simp [t]
    rw [hi] at h2
    rw [hb2, hb3]
    simp only [builtinArith, hb, Bool.true_and] at h2 ⊢
    clear h1 h4 h5 h6 e hi hb hb2 hb3
    generalize arithmeticOperands env [x, y] = p at h2 ⊢
    generalize isIterArg x = q at h2 h3 ⊢
    generalize isIntArg y = r at h3 ⊢
    generalize sameValues x y = s at h3 ⊢
    cases p <;> cases q <;> cases r <;> cases s <;> first | (exfalso; revert h2 h3; decide) | simp [tmpl, resolve, viable, pick, better, leRanks]

theorem div_unamb (env : Env) (x y : CppType) : resolve (divCands env x y) ≠ .ambiguous := by
  have h1 := @arith_args env x y
  unfold divCands
  cases p : (anyInterval [x, y] && arithmeticOperands env [x, y])
  · cases hq : arithRank x <;> cases hr : arithRank y <;> simp_all [tmpl, ranks2, exact, builtinArith, resolve, viable, pick, better, leRanks]
  · have hb : ranks2 (arithRank x) (arithRank y) = none := by
      rcases (h1 p).1 with h | h
      · simp [(interval_scalar h).1, ranks2]
      · rw [(interval_scalar h).1]; cases arithRank x <;> simp [ranks2]
    simp_all [tmpl, builtinArith, resolve, viable, pick, better, leRanks]

theorem neg_unamb (env : Env) (x : CppType) : resolve (negCands env x) ≠ .ambiguous := by
  unfold negCands
  rcases mul_class x with hx | hx | hx | hx | hx | hx <;> simp_all [tmpl, resolve, viable, pick, better, leRanks]

theorem pos_unamb (env : Env) (x : CppType) : resolve (posCands env x) ≠ .ambiguous := by
  unfold posCands
  rcases mul_class x with hx | hx | hx | hx | hx | hx <;> simp_all [tmpl, resolve, viable, pick, better, leRanks]

/-- classes of types for the operators on `set<bool>` -/
theorem bool_class {env : Env} (he : EnvOk env) (x : CppType) :
    (toBoolRank env x = none ∧ toSetBoolRank env x = none ∧ isCondition x = false ∧ (isSetArgBool x = false)) ∨
    (toBoolRank env x = none ∧ toSetBoolRank env x = some 0 ∧ isCondition x = false ∧ isSetArgBool x = true ∧ (setBase x).isSome) ∨
    (toBoolRank env x = none ∧ toSetBoolRank env x = some 2 ∧ isCondition x = true ∧ isSetArgBool x = true ∧ (setBase x).isSome) ∨
    (toBoolRank env x = some 0 ∧ toSetBoolRank env x = some 4 ∧ isCondition x = false ∧ isSetArgBool x = true ∧ setBase x = none) ∨
    (toBoolRank env x = some 3 ∧ toSetBoolRank env x = some 4 ∧ isCondition x = false ∧ isSetArgBool x = false ∧ setBase x = none) := by
  have hb := he.toBool_set x
  cases h : env.toBool x
  · cases x with
    | set e r =>
      by_cases h : e = .bool ∧ r = 0
      · obtain ⟨rfl, rfl⟩ := h
        simp_all [toBoolRank, toSetBoolRank, isCondition, isSetArgBool, setBoolT, setBase]
      · left
        simp_all [toBoolRank, toSetBoolRank, isCondition, isSetArgBool, setBoolT]
    | _ => simp_all [toBoolRank, toSetBoolRank, isCondition, isSetArgBool, setBoolT, setBase]
  · cases x <;> simp_all [toBoolRank, toSetBoolRank, isCondition, isSetArgBool, setBoolT, setBase, isInterval, isSetInst]

theorem setBool_unamb {env : Env} (he : EnvOk env) (x y : CppType) : resolve (setBoolCands env x y) ≠ .ambiguous := by
  unfold setBoolCands
  rcases bool_class he x with ⟨a, b, c, d⟩ | ⟨a, b, c, d, e⟩ | ⟨a, b, c, d, e⟩ | ⟨a, b, c, d, e⟩ | ⟨a, b, c, d, e⟩ <;>
  rcases bool_class he y with ⟨a', b', c', d'⟩ | ⟨a', b', c', d', e'⟩ | ⟨a', b', c', d', e'⟩ | ⟨a', b', c', d', e'⟩ | ⟨a', b', c', d', e'⟩ <;>
  rw [a, b, a', b'] <;> split <;>
  first | (simp [ranks2, resolve, viable, pick, better, leRanks]; done) | simp_all

theorem log_unamb {env : Env} (he : EnvOk env) (op : LogOp) (x y : CppType) : resolve (logCands env op x y) ≠ .ambiguous := by
  have key : ∀ r, resolve (tmpl (isSetArgBool x && isSetArgBool y && (isCondition x || isCondition y)) 2 r :: setBoolCands env x y) ≠ .ambiguous := by
    intro r
    unfold setBoolCands
    rcases bool_class he x with ⟨a, b, c, d⟩ | ⟨a, b, c, d, e⟩ | ⟨a, b, c, d, e⟩ | ⟨a, b, c, d, e⟩ | ⟨a, b, c, d, e⟩ <;>
    rcases bool_class he y with ⟨a', b', c', d'⟩ | ⟨a', b', c', d', e'⟩ | ⟨a', b', c', d', e'⟩ | ⟨a', b', c', d', e'⟩ | ⟨a', b', c', d', e'⟩ <;>
    rw [a, b, c, d, a', b', c', d'] <;> split <;>
    first | (simp [tmpl, ranks2, resolve, viable, pick, better, leRanks]; done) | simp_all
  unfold logCands
  split
  · split <;> simp [resolve, viable, pick]
  · cases op
    · exact key _
    · exact key _
    · exact setBool_unamb he x y

theorem not_unamb {env : Env} (he : EnvOk env) (x : CppType) : resolve (notCands env x) ≠ .ambiguous := by
  unfold notCands
  split
  · cases toBoolRank env x <;> simp [resolve, viable, pick]
  · split
    · split <;> simp [toSetBoolRank, setBoolT, isCondition, resolve, viable, pick, better, leRanks]
    · cases toSetBoolRank env x <;> simp [resolve, viable, pick]

theorem proj_unamb {env : Env} (he : EnvOk env) (x : CppType) : resolve (projCands env x) ≠ .ambiguous := by
  unfold projCands
  rcases bool_class he x with hx | hx | hx | hx | hx <;> simp_all [resolve, viable, pick, better, leRanks]

theorem two_tmpl {p q : Bool} (n : Nat) (r r' : Option CppType) (h : ¬ (p = true ∧ q = true)) : resolve [tmpl p n r, tmpl q n r'] ≠ .ambiguous := by
  cases p <;> cases q <;> simp_all [tmpl, resolve, viable, pick]

theorem setBase_eq {x s : CppType} (h : setBase x = some s) : (x = s ∧ ∃ e r, s = .set e r) ∨ (isCondition x = true ∧ s = setBoolT) := by
  cases x <;> simp_all [setBase, isCondition]
  · exact ⟨_, _, h.symm⟩

theorem toSetRank_other {env : Env} (he : EnvOk env) {x y s s' : CppType} (hx : setBase x = some s) (hy : setBase y = some s') (hs : s ≠ s')
    (h : toSetRank env s y ≠ none) : ∃ e r, s = .set e r ∧ y = e := by
  have hyn : y ≠ s := by
    rintro rfl
    rcases setBase_eq hx with ⟨-, e, r, rfl⟩ | ⟨-, rfl⟩ <;> simp_all [setBase, setBoolT]
  have hyb : toBoolRank env y = none := by
    have hc : isInterval y = true ∨ isCondition y = true ∨ isSetInst y = true := by
      cases y <;> simp_all [setBase, isCondition, isSetInst]
    have hb := he.toBool_set y hc
    have hy' : y ≠ .bool := by rintro rfl; simp [setBase] at hy
    simp [toBoolRank, hb, hy']
  have h2 : setBase y ≠ some s := by rw [hy]; simpa using Ne.symm hs
  unfold toSetRank at h
  rw [if_neg hyn, if_neg h2] at h
  split at h
  · simp [hyb] at h
  · split at h
    · next e r _ hye => exact ⟨_, _, rfl, hye⟩
    · exact absurd rfl h
  · exact absurd rfl h

theorem setEq_unamb {env : Env} (he : EnvOk env) (x y : CppType) : resolve (setEqCand env x y) ≠ .ambiguous := by
  have one : ∀ a b, resolve [⟨ranks2 a b, 2, some setBoolT⟩] ≠ .ambiguous := by
    intro a b; cases a <;> cases b <;> simp [ranks2, resolve, viable, pick]
  unfold setEqCand
  cases hx : setBase x with
  | none => cases hy : setBase y with
    | none => simp [resolve, viable]
    | some s' => exact one _ _
  | some s => cases hy : setBase y with
    | none => exact one _ _
    | some s' =>
      by_cases hs : s = s'
      · simp only [hs, if_true]; exact one _ _
      · simp only [hs, if_false]
        have hn : toSetRank env s y = none ∨ toSetRank env s' x = none := by
          by_contra hc
          rw [not_or] at hc
          obtain ⟨e, r, hse, hye⟩ := toSetRank_other he hx hy hs hc.1
          obtain ⟨e', r', hse', hxe⟩ := toSetRank_other he hy hx (Ne.symm hs) hc.2
          have hx' : x = .set e r := by
            rcases setBase_eq hx with ⟨h, -⟩ | ⟨-, h⟩
            · rw [h, hse]
            · rw [h] at hse; cases hse; subst hye; simp [setBase] at hy
          have hy' : y = .set e' r' := by
            rcases setBase_eq hy with ⟨h, -⟩ | ⟨-, h⟩
            · rw [h, hse']
            · rw [h] at hse'; cases hse'; subst hxe; simp [setBase] at hx
          have h1 : sizeOf x = 1 + sizeOf e + sizeOf r := by rw [hx']; simp
          have h2 : sizeOf y = 1 + sizeOf e' + sizeOf r' := by rw [hy']; simp
          rw [hye] at h2; rw [hxe] at h1
          omega
        rcases hn with h | h
        · rw [h]; cases toSetRank env s x <;> cases toSetRank env s' x <;> cases toSetRank env s' y <;> simp [ranks2, resolve, viable, pick]
        · rw [h]; cases toSetRank env s x <;> cases toSetRank env s y <;> simp [ranks2, resolve, viable, pick]

theorem relational_args {env : Env} {x y : CppType} (h : relationalValues env x y = true) : setBase x = none ∧ setBase y = none := by
  unfold relationalValues at h
  cases x <;> cases y <;> simp_all [intervalArgValueT, isIntervalValue, intervalValueT, setBase]

theorem cmp_unamb {env : Env} (he : EnvOk env) (op : CmpOp) (x y : CppType) : resolve (cmpCands env op x y) ≠ .ambiguous := by
  unfold cmpCands
  split
  · split <;> simp [resolve, viable, pick]
  · cases h : relationalValues env x y
    · simp only [Bool.and_false]
      have : ∀ cs, resolve (tmpl false 2 (some (cmpResult op x y)) :: cs) = resolve cs := by intro cs; simp [tmpl, resolve, viable]
      rw [this]
      split
      · exact setEq_unamb he x y
      · exact setBool_unamb he x y
    · obtain ⟨hx, hy⟩ := relational_args h
      simp only [setEqCand, setBoolCands, hx, hy, Bool.and_true]
      cases anyInterval [x, y] <;> simp [tmpl, resolve, viable, pick]

theorem value_not_interval {x : CppType} (h : isIntervalValue x = true) : isInterval x = false := by
  cases x <;> simp_all [isIntervalValue, isInterval]
theorem arithValue_value {x : CppType} (h : isArithValue x = true) : isIntervalValue x = true := by
  cases x <;> simp_all [isIntervalValue, isArithValue, isFltValue, isIntValue]
theorem fltValue_value {x : CppType} (h : isFltValue x = true) : isIntervalValue x = true := by
  cases x <;> simp_all [isIntervalValue, isFltValue]
theorem iterValue_value {x : CppType} (h : isIterValue x = true) : isIntervalValue x = true := by
  cases x <;> simp_all [isIntervalValue, isIterValue]

theorem deduce_class (a : CppType) :
    (∃ e i, deduceSet a = some (e, i) ∧ deduceInterval a = none ∧ isIntervalValue a = false ∧ isInterval a = false ∧
      (isSetInst a = true ∨ setOfT a 0 = none) ∧ a ≠ e ∧ (a = .set e 0 ∨ e = .bool)) ∨
    (∃ v, deduceInterval a = some v ∧ deduceSet a = none ∧ isIntervalValue a = false ∧ isInterval a = true ∧ isIntervalValue v = true) ∨
    (deduceSet a = none ∧ deduceInterval a = none) := by
  cases a with
  | set e r =>
    by_cases h : r = 0
    · subst h
      left
      refine ⟨e, 0, by simp [deduceSet], by simp [deduceInterval, intervalValueT], rfl, rfl, .inl rfl, fun h => ?_, .inl rfl⟩
      have := congrArg sizeOf h
      simp at this
    · simp [deduceSet, deduceInterval, intervalValueT, h]
  | interval v => cases h : isIntervalValue v <;> simp [deduceSet, deduceInterval, intervalValueT, h, isInterval, isIntervalValue]
  | cinterval v => cases h : isIntervalValue v <;> simp [deduceSet, deduceInterval, intervalValueT, h, isInterval, isIntervalValue]
  | cond k l r => simp [deduceSet, deduceInterval, intervalValueT, isIntervalValue, isInterval, setOfT, setOfType]
  | _ => simp [deduceSet, deduceInterval, intervalValueT]

theorem ifElse_unamb {env : Env} (he : EnvOk env) (c a b : CppType) : resolve (ifElseCands env c a b) ≠ .ambiguous := by
  unfold ifElseCands
  rcases deduce_class a with ⟨e, i, a1, a2, a3, a4, a5, a6, a7⟩ | ⟨v, a1, a2, a3, a4, a5⟩ | ⟨a1, a2⟩ <;>
  rcases deduce_class b with ⟨e', j, b1, b2, b3, b4, b5, b6, b7⟩ | ⟨w, b1, b2, b3, b4, b5⟩ | ⟨b1, b2⟩
  · have h8 : (!isInterval a && !isSetInst a && (setOfT a 0).isSome) = false := by rcases a5 with h | h <;> simp [h]
    simp only [a1, a2, b1, b2, a3, h8]
    by_cases h1 : e = e'
    · subst h1
      have h2 : b ≠ e := b6
      simp only [a6, h2]
      cases toSetBoolRank env c <;> cases toBoolRank env c <;> simp [ranks3, exact, resolve, viable, pick]
    · simp only [h1, if_false]
      by_cases h2 : a = e'
      · have h3 : b ≠ e := by
          rintro rfl
          rcases a7 with h | h
          · rcases b7 with h' | h'
            · have := congrArg sizeOf h; have h'' := congrArg sizeOf h'
              simp at this h''; subst h2; omega
            · subst h2; subst h'; simp [deduceSet] at a1
          · subst h; simp [deduceSet] at b1
        simp only [h2, h3]
        cases toSetBoolRank env c <;> cases toBoolRank env c <;> simp [ranks3, exact, resolve, viable, pick]
      · simp only [h2]
        cases toSetBoolRank env c <;> cases toBoolRank env c <;> by_cases h3 : b = e <;> simp [h3, ranks3, exact, resolve, viable, pick]
  · have h8 : (!isInterval a && !isSetInst a && (setOfT a 0).isSome) = false := by rcases a5 with h | h <;> simp [h]
    have h6 : a ≠ w := by rintro rfl; simp [a3] at b5
    simp only [a1, a2, b1, b2, a3, h8, h6]
    cases toSetBoolRank env c <;> cases toBoolRank env c <;> by_cases h3 : b = e <;> simp [h3, ranks3, exact, resolve, viable, pick]
  · have h8 : (!isInterval a && !isSetInst a && (setOfT a 0).isSome) = false := by rcases a5 with h | h <;> simp [h]
    simp only [a1, a2, b1, b2, a3, h8]
    cases toSetBoolRank env c <;> cases toBoolRank env c <;> by_cases h3 : b = e <;> simp [h3, ranks3, exact, resolve, viable, pick]
  · have h7 : b ≠ v := by rintro rfl; simp [b3] at a5
    simp only [a1, a2, b1, b2, a3, a4, h7]
    cases toSetBoolRank env c <;> cases toBoolRank env c <;> by_cases h3 : a = e' <;> simp [h3, ranks3, exact, resolve, viable, pick]
  · have h6 : a ≠ w := by rintro rfl; simp [a3] at b5
    have h7 : b ≠ v := by rintro rfl; simp [b3] at a5
    simp only [a1, a2, b1, b2, a3, a4, h6, h7]
    cases toSetBoolRank env c <;> cases toBoolRank env c <;> by_cases h3 : v = w <;> simp [h3, ranks3, exact, resolve, viable, pick]
  · simp only [a1, a2, b1, b2, a3, a4]
    cases toSetBoolRank env c <;> cases toBoolRank env c <;> by_cases h3 : b = v <;> simp [h3, ranks3, exact, resolve, viable, pick]
  · have h8 : a ≠ b := by rintro rfl; simp [a1] at b1
    simp only [a1, a2, b1, b2, h8]
    cases toSetBoolRank env c <;> cases toBoolRank env c <;> by_cases h3 : a = e' <;> cases isIntervalValue a <;>
      cases (!isInterval a && !isSetInst a && (setOfT a 0).isSome) <;> simp [h3, ranks3, exact, resolve, viable, pick]
  · have h8 : a ≠ b := by rintro rfl; simp [a2] at b1
    simp only [a1, a2, b1, b2, h8]
    cases toSetBoolRank env c <;> cases toBoolRank env c <;> by_cases h3 : a = w <;> cases isIntervalValue a <;>
      cases (!isInterval a && !isSetInst a && (setOfT a 0).isSome) <;> simp [h3, ranks3, exact, resolve, viable, pick]
  · simp only [a1, a2, b1, b2]
    generalize (!isInterval a && !isSetInst a && (setOfT a 0).isSome) = p
    generalize isIntervalValue a = q
    generalize decide (a = b) = r
    rcases bool_class he c with ⟨h, h', -⟩ | ⟨h, h', -⟩ | ⟨h, h', -⟩ | ⟨h, h', -⟩ | ⟨h, h', -⟩ <;> rw [h, h'] <;>
    cases p <;> cases q <;> cases r <;> simp [ranks3, exact, resolve, viable, pick, better, leRanks]

theorem constrain_unamb {env : Env} (he : EnvOk env) (x c : CppType) (lv : Bool) : resolve (constrainCands env x lv c) ≠ .ambiguous := by
  unfold constrainCands
  have hv := @value_not_interval x
  cases hi : isInterval x
  · cases isIntervalValue x <;> cases toBoolRank env c <;> simp [ranks2, exact, resolve, viable, pick]
  · have hv' : isIntervalValue x = false := by cases h : isIntervalValue x <;> simp_all
    rw [hv']
    rcases bool_class he c with ⟨h, h', h'', -⟩ | ⟨h, h', h'', -⟩ | ⟨h, h', h'', -⟩ | ⟨h, h', h'', -⟩ | ⟨h, h', h'', -⟩ <;> rw [h, h', h''] <;>
    cases lv <;> simp [ranks2, exact, resolve, viable, pick, better, leRanks]

theorem assign_unamb (env : Env) (x y : CppType) : resolve (assignCands env x y) ≠ .ambiguous := by
  unfold assignCands
  generalize toValueRank env x y = q
  cases x with
  | interval v => cases h : toIntervalRank env v y <;> simp [ranks2, exact, isIntervalValue, resolve, viable, pick, h]
  | set e r => cases h : toSetRank env (.set e r) y <;> simp [ranks2, exact, isIntervalValue, resolve, viable, pick, h]
  | _ => cases q <;> simp [ranks2, exact, isIntervalValue, resolve, viable, pick]

/-- C75: no call of a library function or operator is ambiguous, whatever the argument types. -/
theorem C75_unambiguous {env : Env} (he : EnvOk env) (f : Fn) (ts : List CppType) : call env f ts ≠ .ambiguous := by
  have nil : resolve [] ≠ .ambiguous := by simp [resolve, viable]
  have flt : ∀ ts, ts ≠ [] → resolve (fltOpCands env ts) ≠ .ambiguous := by
    intro ts _
    refine two_tmpl _ _ _ ?_
    rintro ⟨h1, h2⟩
    simp only [Bool.and_eq_true, List.all_eq_true, anyInterval, List.any_eq_true] at h1 h2
    obtain ⟨⟨t, ht, hi⟩, -⟩ := h2
    rw [value_not_interval (fltValue_value (h1.1 t ht))] at hi
    simp at hi
  unfold call
  fun_cases cands env f ts
  · exact add_unamb he _ _
  · exact sub_unamb he _ _
  · exact mul_unamb env _ _
  · exact div_unamb env _ _
  · exact neg_unamb env _
  · exact pos_unamb env _
  · exact cmp_unamb he _ _ _
  · exact log_unamb he _ _ _
  · exact not_unamb he _
  · exact proj_unamb he _
  · refine two_tmpl _ _ _ ?_
    rintro ⟨h1, h2⟩
    simp only [Bool.and_eq_true, decide_eq_true_eq] at h1
    obtain ⟨h1, rfl⟩ := h1
    simp [anyInterval, value_not_interval h1] at h2
  · refine two_tmpl _ _ _ ?_
    rintro ⟨h1, h2⟩; rw [value_not_interval h1] at h2; simp at h2
  · refine two_tmpl _ _ _ ?_
    rintro ⟨h1, h2⟩; simp [isArithInterval, value_not_interval (arithValue_value h1)] at h2
  · refine two_tmpl _ _ _ ?_
    rintro ⟨h1, h2⟩; simp [isArithInterval, value_not_interval (arithValue_value h1)] at h2
  · refine two_tmpl _ _ _ ?_
    rintro ⟨h1, h2⟩; simp [isFltInterval, value_not_interval (fltValue_value h1)] at h2
  · refine two_tmpl _ _ _ ?_
    rintro ⟨h1, h2⟩; simp [isFltInterval, value_not_interval (fltValue_value h1)] at h2
  · exact flt _ (by simp)
  · exact flt _ (by simp)
  · exact flt _ (by simp)
  · refine two_tmpl _ _ _ ?_
    rintro ⟨h1, h2⟩; simp [isIterInterval, value_not_interval (iterValue_value h1)] at h2
  · refine two_tmpl _ _ _ ?_
    rintro ⟨h1, h2⟩
    simp only [List.all_cons, Bool.and_eq_true] at h1 h2
    rw [value_not_interval h1.2.1] at h2
    simp at h2
  · exact ifElse_unamb he _ _ _
  · exact constrain_unamb he _ _ _
  · exact constrain_unamb he _ _ _
  · exact assign_unamb env _ _
  · exact nil

theorem call_tmpl2 {p q : Bool} {n : Nat} {r r' : Option CppType} :
    resolve [tmpl p n r, tmpl q n r'] = if p then (if q then .ambiguous else r.elim .illFormed .ok) else
      if q then r'.elim .illFormed .ok else .noOverload := by
  cases p <;> cases q <;> simp [tmpl, resolve, viable, pick, better, leRanks]

end Intervals.Props
