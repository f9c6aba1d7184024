import Verif.Model.Deduce
import Verif.Spec.Overload
import Verif.Props.OverloadPlain
/-!
# C79: class template argument deduction for `interval` and `set`

README.md:71–72, 309–311, 523–530, 727.
-/
set_option linter.unusedSectionVars false
namespace Intervals.Props
open Intervals.Traits Intervals.Overload Intervals.Spec CppType

/-- The full claim: `interval(x)` is the plain interval for every interval argument `x`; `interval(x, y)` is the interval over the common type for any two values;
`set(x)` and `set{ x }` give the set type of every truth value, enumeration value, set or condition. -/
def C79_full : Prop := ∀ env, EnvOk env →
  (∀ b v t, okInterval env v = true → Variant v t → deduceIntervalClass env b [t] = .ok (interval v)) ∧
  (∀ b v w, okInterval env v = true → okInterval env w = true → ∀ c, env.common [v, w] = some c → okInterval env c = true →
    deduceIntervalClass env b [v, w] = .ok (interval c)) ∧
  (∀ b v t, v = .bool ∨ (∃ n, v = enum n) → Variant v t → deduceSetClass b [t] = .ok (.set v 0))

/-- C79: `interval(x)` and `interval{ x }` for a value or a plain interval.  Missing: an interval with identity (`C79_violated_all`). -/
theorem C79_interval_partial {env : Env} (he : EnvOk env) (b : Bool) {v : CppType} (hv : okInterval env v = true) :
    deduceIntervalClass env b [v] = .ok (interval v) ∧ deduceIntervalClass env b [interval v] = .ok (interval v) := by
  have hn := he.narrowing_self v
  cases v <;> simp_all [okInterval, deduceIntervalClass, guidesInterval, resolve, viable, pick, isIntervalValue, mkInterval, intervalValueT, better, leRanks,
    initInterval, isScalar]

/-- C79: `interval(x, y)` is the interval over the common type of the values; with braces, it compiles exactly if neither conversion is narrowing. -/
theorem C79_bounds (env : Env) {v w c : CppType} (hv : okInterval env v = true) (hw : okInterval env w = true) (hc : env.common [v, w] = some c)
    (ho : okInterval env c = true) :
    deduceIntervalClass env false [v, w] = .ok (interval c) ∧
    deduceIntervalClass env true [v, w] = (if env.narrowing v c = true ∨ env.narrowing w c = true then .illFormed else .ok (interval c)) := by
  have key : ∀ v, okInterval env v = true → isIntervalValue v = true ∧ isScalar v = true := by
    intro v h; cases v <;> simp_all [okInterval, isIntervalValue, isScalar]
  obtain ⟨h1, h2⟩ := key v hv
  obtain ⟨h3, h4⟩ := key w hw
  simp [deduceIntervalClass, guidesInterval, resolve, viable, pick, h1, h2, h3, h4, hc, mkInterval, ho, initInterval]
  cases env.narrowing v c <;> cases env.narrowing w c <;> simp

/-- C79: whenever `interval(x...)` compiles, its type is the one of `interval_of_t` or `common_interval_t`. -/
theorem C79_type (env : Env) (b : Bool) (ts : List CppType) (r : CppType) (h : deduceIntervalClass env b ts = .ok r) :
    commonIntervalT (fun l => match l with | [v] => some v | l => env.common l) ts = some r ∧ ∃ v, r = interval v ∧ okInterval env v = true := by
  have key : ∀ r, resolve (guidesInterval env ts) = .ok r →
      commonIntervalT (fun l => match l with | [v] => some v | l => env.common l) ts = some r ∧ ∃ v, r = interval v ∧ okInterval env v = true := by
    intro r h
    match ts, h with
    | [], h => simp [guidesInterval, resolve, viable] at h
    | [x], h =>
      cases x with
      | interval v =>
        have e : resolve (guidesInterval env [interval v]) = (mkInterval env v).elim .illFormed .ok := by
          have hi : isIntervalValue (interval v) = false := rfl
          cases hv : isIntervalValue v <;> simp [guidesInterval, resolve, viable, pick, better, leRanks, hv, hi, intervalValueT]
        rw [e] at h
        simp only [mkInterval] at h
        split at h
        · rename_i ho; cases h
          exact ⟨rfl, _, rfl, ho⟩
        · cases h
      | _ =>
        simp only [guidesInterval, resolve, viable, pick, isIntervalValue, mkInterval, List.filterMap_cons, Option.map_none, Option.map_some, List.filterMap_nil,
          if_true, if_false, Bool.false_eq_true, List.all_nil, Bool.and_self] at h
        first
        | (cases h; done)
        | (split at h
           · rename_i ho; cases h
             exact ⟨rfl, _, rfl, ho⟩
           · cases h)
    | [x, y], h =>
      simp only [guidesInterval, resolve, viable, List.filterMap_cons, List.filterMap_nil] at h
      cases hx : isIntervalValue x <;> cases hy : isIntervalValue y <;> cases hc : env.common [x, y] <;>
        simp only [hx, hy, hc, Option.isSome_none, Option.isSome_some, Bool.and_true, Bool.and_false, Bool.and_self, Bool.false_and, Option.map_none, if_true, if_false,
          Bool.false_eq_true, Option.map_some, pick, List.all_nil, Option.bind_some, mkInterval, reduceCtorEq] at h
      rename_i c
      split at h
      · rename_i ho; cases h
        exact ⟨by simp [commonIntervalT, commonIntervalValueT, intervalArgValueT, hx, hy, hc], _, rfl, ho⟩
      · cases h
    | _ :: _ :: _ :: _, h => simp [guidesInterval, resolve, viable] at h
  unfold deduceIntervalClass at h
  split at h
  · rename_i v hv
    split at h
    · cases h; exact key _ hv
    · cases h
  · exact key _ h

/-- C79: `set(x, y...)` and `set{ x, y... }` for truth values or enumeration values: compiles exactly if all have the same type, and is the set of that type. -/
theorem C79_set (b : Bool) {v : CppType} (hv : v = .bool ∨ ∃ n, v = enum n) (ts : List CppType) :
    deduceSetClass b (v :: ts) = if ∀ t ∈ ts, t = v then .ok (.set v 0) else .illFormed := by
  have hm : mkSet v = some (.set v 0) := by rcases hv with rfl | ⟨n, rfl⟩ <;> rfl
  have hb : setBase v = none := by rcases hv with rfl | ⟨n, rfl⟩ <;> rfl
  have ha : (ts.all (fun t => decide (t = v)) = true) ↔ ∀ t ∈ ts, t = v := by simp
  by_cases h : ∀ t ∈ ts, t = v
  · rw [if_pos h]
    have h' := ha.mpr h
    cases b
    · cases ts with
      | nil =>
        rcases hv with rfl | ⟨n, rfl⟩ <;> simp [deduceSetClass, guidesSet, resolve, viable, pick, better, leRanks, mkSet]
      | cons y ts => simp only [deduceSetClass, Bool.false_and, Bool.false_eq_true, if_false, guidesSet, h', if_true, hm]; rfl
    · simp [deduceSetClass, hb, h', hm]
  · rw [if_neg h]
    have h' : ts.all (fun t => decide (t = v)) = false := by
      rw [Bool.eq_false_iff]; exact fun e => h (ha.mp e)
    cases ts with
    | nil => exact absurd (by simp) h
    | cons y ts => simp only [deduceSetClass, h', Bool.and_false, Bool.false_eq_true, if_false, guidesSet]; rfl

/-- C79: `set(s)` and `set{ s }` for a set `s` are copies, with any reflector. -/
theorem C79_set_copy (b : Bool) (e : CppType) (r : Nat) : deduceSetClass b [.set e r] = .ok (.set e r) := by
  cases b <;> simp [deduceSetClass, guidesSet, resolve, viable, pick, better, leRanks, setBase]

/-- C79: exactly these uses of `set(x...)` and `set{ x... }` compile. -/
theorem C79_set_iff (b : Bool) (ts : List CppType) (r : CppType) : deduceSetClass b ts = .ok r ↔
    (∃ v, (v = .bool ∨ ∃ n, v = enum n) ∧ ts ≠ [] ∧ (∀ t ∈ ts, t = v) ∧ r = .set v 0) ∨ ∃ e k, ts = [.set e k] ∧ r = .set e k := by
  constructor
  · intro h
    have hm : ∀ {x r}, mkSet x = some r → (x = .bool ∨ ∃ n, x = enum n) ∧ r = .set x 0 := by
      intro x r h
      cases x <;> simp_all [mkSet]
    cases ts with
    | nil => simp [deduceSetClass] at h
    | cons x rest =>
      by_cases hx : x = .bool ∨ ∃ n, x = enum n
      · rw [C79_set b hx] at h
        split at h
        · rename_i hall
          cases h
          exact .inl ⟨x, hx, by simp, by simpa using hall, rfl⟩
        · cases h
      · have hn : mkSet x = none := by
          cases e : mkSet x with
          | none => rfl
          | some r => exact absurd (hm e).1 hx
        right
        cases rest with
        | nil =>
          cases x <;> cases b <;>
            simp_all [deduceSetClass, guidesSet, resolve, viable, pick, better, leRanks, setBase] <;> exact ⟨_, _, h.symm⟩
        | cons y rest =>
          exfalso
          simp only [deduceSetClass] at h
          split at h
          · rw [hn] at h; cases h
          · revert h
            simp [guidesSet, resolve, viable, pick, hn]
  · rintro (⟨v, hv, hne, hall, rfl⟩ | ⟨e, k, rfl, rfl⟩)
    · cases ts with
      | nil => exact absurd rfl hne
      | cons x rest =>
        have : x = v := hall x (by simp)
        subst this
        rw [C79_set b hv, if_pos fun t ht => hall t (by simp [ht])]
    · exact C79_set_copy b e k
example : ∀ r, deduceSetClass true [interval (int 1)] ≠ .ok r := fun r h => by
  rcases (C79_set_iff _ _ _).mp h with ⟨v, hv, _, h1, _⟩ | ⟨e, k, h1, _⟩
  · have := h1 _ (List.mem_singleton.mpr rfl)
    rcases hv with rfl | ⟨n, rfl⟩ <;> cases this
  · cases h1

/-- C79 is violated for every interval with identity, as `constrain` returns it, and for every condition: `interval(x)` and `set(x < y)` do not compile. -/
theorem C79_violated_all (env : Env) (b : Bool) : (∀ v, deduceIntervalClass env b [cinterval v] = .noOverload) ∧
    (∀ k l r, deduceSetClass b [.cond k l r] = .illFormed) := by
  refine ⟨fun v => rfl, fun k l r => ?_⟩
  cases b <;> simp [deduceSetClass, guidesSet, resolve, viable, pick, better, leRanks, setBase, mkSet]
theorem C79_violated : ¬ C79_full := by
  intro h
  have := (h stdEnv stdEnv_ok).1 false (flt 1) (cinterval (flt 1)) rfl (.inr (.cinterval _ rfl (by simp)))
  rw [(C79_violated_all stdEnv false).1] at this
  cases this

/-! Examples: `interval{ 2 }`, `interval{ 0., 3. }`, `interval(i, d)` (README.md:523, 71), `set{ false, true }` (README.md:727). -/
example : deduceIntervalClass stdEnv true [int 1] = .ok (interval (int 1)) := (C79_interval_partial stdEnv_ok true rfl).1
example : deduceIntervalClass stdEnv true [flt 1, flt 1] = .ok (interval (flt 1)) := by decide
example : deduceIntervalClass stdEnv false [int 1, flt 1] = .ok (interval (flt 1)) := (C79_bounds stdEnv rfl rfl rfl rfl).1
example : deduceIntervalClass stdEnv true [.bool] = .illFormed := by decide
example : deduceSetClass true [.bool, .bool] = .ok (.set .bool 0) := (C79_set true (.inl rfl) _).trans (by simp)
example : deduceSetClass true [.bool, enum 3] = .illFormed := by decide
end Intervals.Props
