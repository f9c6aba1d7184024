import Verif.Props.OverloadLift
/-!
# C75: calls with `set<bool>`, conditions, `set<sign>`; `if_else`, `constrain`, `assign`, `merge`; plain arguments
-/
set_option linter.unusedSimpArgs false
set_option linter.unusedTactic false
set_option linter.unreachableTactic false
set_option linter.unnecessarySeqFocus false
set_option linter.unusedVariables false
namespace Intervals.Props
open Intervals.Traits Intervals.Overload Intervals.Spec CppType

theorem variant_bool {t : CppType} (h : Variant .bool t) : t = .bool ∨ t = .set .bool 0 ∨ ∃ k l r, t = .cond k l r := by
  rcases h with rfl | h
  · exact .inl rfl
  · cases h with
    | interval _ _ hb => exact absurd rfl hb
    | cinterval _ _ hb => exact absurd rfl hb
    | bool => exact .inr (.inl rfl)
    | cond k l r => exact .inr (.inr ⟨_, _, _, rfl⟩)

theorem rank_bool (env : Env) : toBoolRank env .bool = some 0 ∧ toSetBoolRank env .bool = some 4 := by
  simp [toBoolRank, toSetBoolRank, setBoolT, isCondition]
theorem rank_set {env : Env} (he : EnvOk env) : toBoolRank env (.set .bool 0) = none ∧ toSetBoolRank env (.set .bool 0) = some 0 := by
  simp [toBoolRank, toSetBoolRank, setBoolT, isCondition, he.toBool_set (.set .bool 0) (by simp [isSetInst])]
theorem rank_cond {env : Env} (he : EnvOk env) (k : CondKind) (l r : CppType) :
    toBoolRank env (.cond k l r) = none ∧ toSetBoolRank env (.cond k l r) = some 2 := by
  simp [toBoolRank, toSetBoolRank, setBoolT, isCondition, he.toBool_set (.cond k l r) (by simp [isCondition])]

/-- operators on truth values: with a set or a condition among the operands the result is a set of truth values or a condition -/
theorem lift_log {env : Env} (he : EnvOk env) (op : LogOp) {t u : CppType} (ht : Variant .bool t) (hu : Variant .bool u)
    (hi : SetFor .bool t ∨ SetFor .bool u) : ∃ s, call env (.log op) [t, u] = .ok s ∧ SetFor .bool s := by
  have b1 := rank_bool env
  have s1 := rank_set he
  have c1 := rank_cond he
  have n1 : ¬ SetFor .bool .bool := by intro h; cases h
  rcases variant_bool ht with rfl | rfl | ⟨k, l, r, rfl⟩ <;> rcases variant_bool hu with rfl | rfl | ⟨k', l', r', rfl⟩ <;> cases op <;>
  first
  | (exfalso; rcases hi with hi | hi <;> exact n1 hi)
  | (refine ⟨_, by simp [call, cands, logCands, setBoolCands, isScalar, setBase, isSetArgBool, isCondition, tmpl, ranks2, b1, s1, c1, resolve, viable, pick, better,
      leRanks, setBoolT]; rfl, ?_⟩; constructor; done)

theorem lift_not {env : Env} (he : EnvOk env) {t : CppType} (ht : SetFor .bool t) : ∃ s, call env .not [t] = .ok s ∧ SetFor .bool s := by
  have hn : ∀ c, SetFor .bool (notType c) := by
    intro c
    cases c with
    | cond k l r => cases k <;> simp only [notType] <;> (try split) <;> constructor
    | _ => exact .bool
  have b1 := rank_bool env
  have s1 := rank_set he
  have c1 := rank_cond he
  rcases variant_bool (.inr ht) with rfl | rfl | ⟨k, l, r, rfl⟩
  · cases ht
  · exact ⟨_, by simp [call, cands, notCands, setBase, s1, resolve, viable, pick]; rfl, .bool⟩
  · by_cases h : (k = .conjunction ∨ k = .disjunction) ∧ (isCondition l && isCondition r) = false
    · refine ⟨setBoolT, ?_, .bool⟩
      simp only [call, cands, notCands, setBase, Option.isNone_some]
      rw [if_pos h]
      simp [c1, resolve, viable, pick]
    · refine ⟨notType (.cond k l r), ?_, hn _⟩
      simp only [call, cands, notCands, setBase, Option.isNone_some]
      rw [if_neg h]
      simp [c1, resolve, viable, pick, better, leRanks]

theorem lift_cmp_bool {env : Env} (he : EnvOk env) (op : CmpOp) {t u : CppType} (ht : Variant .bool t) (hu : Variant .bool u)
    (hi : SetFor .bool t ∨ SetFor .bool u) : call env (.cmp op) [t, u] = .ok setBoolT := by
  have b1 := rank_bool env
  have s1 := rank_set he
  have c1 := rank_cond he
  have n1 : ¬ SetFor .bool .bool := by intro h; cases h
  rcases variant_bool ht with rfl | rfl | ⟨k, l, r, rfl⟩ <;> rcases variant_bool hu with rfl | rfl | ⟨k', l', r', rfl⟩ <;> cases op <;>
  first
  | (exfalso; rcases hi with hi | hi <;> exact n1 hi)
  | (simp [call, cands, cmpCands, setEqCand, setBoolCands, anyInterval, isInterval, isScalar, setBase, toSetRank, tmpl, ranks2, b1, s1, c1, resolve, viable, pick, better,
      leRanks, setBoolT]; done)

theorem call_proj {env : Env} (he : EnvOk env) {t : CppType} (ht : Variant .bool t) : call env .proj [t] = .ok .bool := by
  have b1 := rank_bool env
  have s1 := rank_set he
  have c1 := rank_cond he
  rcases variant_bool ht with rfl | rfl | ⟨k, l, r, rfl⟩ <;>
  simp [call, cands, projCands, b1, s1, c1, resolve, viable, pick, better, leRanks]

theorem call_inf {env : Env} {v t : CppType} (hv : Wide env v) (ht : Variant v t) : call env .inf [t] = .ok v := by
  have := variant_cases hv ht
  simp only [call, cands, infCands, call_tmpl2]
  rcases wide_cases hv with ⟨n, rfl⟩ | ⟨n, rfl, h1⟩ | ⟨n, rfl⟩ <;> rcases this with rfl | rfl | rfl <;> simp [isIntervalValue, isInterval, intervalValueT]

theorem variant_enum {n : Nat} {t : CppType} (h : Variant (enum n) t) : t = enum n ∨ t = .set (enum n) 0 := by
  rcases h with rfl | h
  · exact .inl rfl
  · cases h with
    | interval _ h _ => simp [isIntervalValue] at h
    | cinterval _ h _ => simp [isIntervalValue] at h
    | enum => exact .inr rfl

theorem lift_cmp_enum {env : Env} (n : Nat) {op : CmpOp} (hop : op = .eq ∨ op = .ne) {t u : CppType} (ht : Variant (enum n) t) (hu : Variant (enum n) u)
    (hi : SetFor (enum n) t ∨ SetFor (enum n) u) : call env (.cmp op) [t, u] = .ok setBoolT := by
  have n1 : ¬ SetFor (enum n) (enum n) := by intro h; cases h
  rcases variant_enum ht with rfl | rfl <;> rcases variant_enum hu with rfl | rfl <;> rcases hop with rfl | rfl <;>
  first
  | (exfalso; rcases hi with hi | hi <;> exact n1 hi)
  | (simp [call, cands, cmpCands, setEqCand, anyInterval, isInterval, isScalar, setBase, toSetRank, tmpl, ranks2, resolve, viable, pick, better, leRanks]; done)

/-- ordering operators do not take sets of an enumeration -/
theorem cmp_enum_none {env : Env} (n : Nat) (hn : env.toBool (enum n) = false) (he : EnvOk env) {op : CmpOp} (hop : ¬ (op = .eq ∨ op = .ne)) {t u : CppType} (ht : Variant (enum n) t)
    (hu : Variant (enum n) u) (hi : SetFor (enum n) t ∨ SetFor (enum n) u) : call env (.cmp op) [t, u] = .noOverload := by
  have n1 : ¬ SetFor (enum n) (enum n) := by intro h; cases h
  have n2 := he.toBool_set (.set (enum n) 0) (by simp [isSetInst])
  have n3 := fun k l r => he.toBool_set (.cond k l r) (by simp [isCondition])
  rcases variant_enum ht with rfl | rfl <;> rcases variant_enum hu with rfl | rfl <;> cases op <;>
  first
  | (exfalso; rcases hi with hi | hi <;> exact n1 hi)
  | (exfalso; simp at hop; done)
  | (simp [call, cands, cmpCands, setBoolCands, anyInterval, isInterval, isScalar, setBase, toSetRank, tmpl, ranks2, resolve, viable, pick, better, leRanks,
      toBoolRank, toSetBoolRank, setBoolT, n2, hn, isCondition]; done)

/-- `sign` as a factor -/
theorem lift_sign_mul {env : Env} (he : EnvOk env) {v t u : CppType} (hv : Wide env v) (ha : isArithValue v = true) (ht : Variant v t) (hu : Variant signT u)
    (hi : SetFor v t ∨ SetFor signT u) :
    call env .mul [t, u] = .ok (interval v) ∧ call env .mul [u, t] = .ok (interval v) := by
  have hv2 := hv.2 ha
  have hs := he.narrowing_self
  have n1 : ¬ SetFor signT signT := by intro h; cases h
  have n2 : ¬ SetFor v v := by rcases wide_cases hv with ⟨n, rfl⟩ | ⟨n, rfl, h1⟩ | ⟨n, rfl⟩ <;> intro h <;> cases h
  have ho := hv.1
  have := variant_cases hv ht
  rcases variant_enum hu with rfl | rfl <;> rcases this with rfl | rfl | rfl <;>
  rcases wide_cases hv with ⟨n, rfl⟩ | ⟨n, rfl, h1⟩ | ⟨n, rfl⟩ <;>
  first
  | (exfalso; rcases hi with hi | hi; exacts [n2 hi, n1 hi])
  | (exfalso; revert ha; simp [isArithValue, isFltValue, isIntValue]; done)
  | (simp only [call, cands, mulCands, builtinArith, mkSelfArith, mkInterval, intervalValueT, Option.bind_eq_bind, Option.bind_some, hv2, hs, ho]
     simp [tmpl, ranks2, exact, anyInterval, arithmeticOperands, isInterval, isIntervalArg, isIntervalValue, isArithInterval, isArithValue, isFltValue, isIntValue, intervalValueT,
      toSignRank, toSetSignRank, arithRank, signT, setSignT, resolve, viable, pick, better, leRanks]; done)

theorem lift_sign_sign {env : Env} {t u : CppType} (ht : Variant signT t) (hu : Variant signT u) (hi : SetFor signT t ∨ SetFor signT u) :
    call env .mul [t, u] = .ok setSignT := by
  have n1 : ¬ SetFor signT signT := by intro h; cases h
  rcases variant_enum ht with rfl | rfl <;> rcases variant_enum hu with rfl | rfl <;>
  first
  | (exfalso; rcases hi with hi | hi <;> exact n1 hi)
  | (simp [call, cands, mulCands, builtinArith, tmpl, ranks2, exact, anyInterval, arithmeticOperands, isInterval, isIntervalArg, isIntervalValue, isArithInterval, isArithValue,
      isFltValue, isIntValue, intervalValueT, toSignRank, toSetSignRank, arithRank, signT, setSignT, resolve, viable, pick, better, leRanks]; done)

theorem lift_sign_neg (env : Env) : call env .neg [setSignT] = .ok setSignT ∧ call env .pos [setSignT] = .ok setSignT ∧
    call env .neg [signT] = .ok signT ∧ call env .pos [signT] = .ok signT ∧ call env .mul [signT, signT] = .ok signT := by
  simp [call, cands, negCands, posCands, mulCands, builtinArith, tmpl, ranks2, exact, anyInterval, arithmeticOperands, isInterval, isIntervalArg, isIntervalValue, isArithInterval, isArithValue,
      isFltValue, isIntValue, intervalValueT, toSignRank, toSetSignRank, arithRank, signT, setSignT, resolve, viable, pick, better, leRanks]

end Intervals.Props
