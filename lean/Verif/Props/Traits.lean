import Verif.Model.Traits
import Mathlib.Data.List.Forall2
/-!
# C65: type traits

Specification: which type of element a type stands for, and whether it is plain.
-/
namespace Intervals.Props
open Intervals.Traits CppType

/-- `t` stands for one value or a set of values of type `v`. -/
inductive Holds : CppType → CppType → Prop
  | set (e : CppType) (r : Nat) : Holds (.set e r) e
  | interval (v : CppType) : Holds (interval v) v
  | cinterval (v : CppType) : Holds (cinterval v) v
  | cond (k : CondKind) (l r : CppType) : Holds (.cond k l r) .bool
  | plain (t : CppType) (h1 : ∀ e r, t ≠ .set e r) (h2 : ∀ v, t ≠ .interval v) (h3 : ∀ v, t ≠ .cinterval v)
      (h4 : ∀ k l r, t ≠ .cond k l r) : Holds t t

/-- Is it one of the two class templates for sets of values? -/
def IsSetType (t : CppType) : Prop := (∃ e r, t = .set e r) ∨ (∃ v, t = interval v) ∨ ∃ v, t = cinterval v

theorem holds_unique {t v w : CppType} (h1 : Holds t v) (h2 : Holds t w) : v = w := by
  cases h1 <;> cases h2 <;> simp_all

theorem holds_exists (t : CppType) : ∃ v, Holds t v := by
  cases t with
  | set e r => exact ⟨_, .set e r⟩
  | interval v => exact ⟨_, .interval v⟩
  | cinterval v => exact ⟨_, .cinterval v⟩
  | cond k l r => exact ⟨_, .cond k l r⟩
  | _ => exact ⟨_, .plain _ (by simp) (by simp) (by simp) (by simp)⟩

/-- C65: `set_of_t<T>` is a set type with the same type of values; on a plain type it is defined exactly for `bool`, enumerations, arithmetic types and
random-access iterators; it leaves sets and intervals alone, strips identities, and is idempotent. -/
theorem C65_set_of (t : CppType) :
    (∀ c, setOfT t 0 = some c → IsSetType c ∧ (∀ v, Holds c v ↔ Holds t v) ∧ setOfT c 0 = some c) ∧
    (setOfT t 0 = none ↔ (∃ n, t = other n) ∨ (∃ u, t = intervalOf u) ∨ ∃ k l r, t = .cond k l r) ∧
    (∀ e r, t = .set e r → setOfT t 0 = some t) ∧ (∀ v, t = interval v → setOfT t 0 = some t) := by
  have step : ∀ {c t : CppType} {v : CppType}, Holds c v → Holds t v → ∀ w, Holds c w ↔ Holds t w := by
    intro c t v h1 h2 w
    exact ⟨fun h => (holds_unique h h1) ▸ h2, fun h => (holds_unique h h2) ▸ h1⟩
  refine ⟨?_, ?_, ?_, ?_⟩
  · intro c hc
    cases t <;> simp only [setOfT, setOfType, if_true, Option.some.injEq, reduceCtorEq] at hc
    all_goals subst hc
    · exact ⟨.inl ⟨_, _, rfl⟩, step (.set _ _) (.plain _ (by simp) (by simp) (by simp) (by simp)), rfl⟩
    · exact ⟨.inl ⟨_, _, rfl⟩, step (.set _ _) (.plain _ (by simp) (by simp) (by simp) (by simp)), rfl⟩
    · exact ⟨.inr (.inl ⟨_, rfl⟩), step (.interval _) (.plain _ (by simp) (by simp) (by simp) (by simp)), rfl⟩
    · exact ⟨.inr (.inl ⟨_, rfl⟩), step (.interval _) (.plain _ (by simp) (by simp) (by simp) (by simp)), rfl⟩
    · exact ⟨.inr (.inl ⟨_, rfl⟩), step (.interval _) (.plain _ (by simp) (by simp) (by simp) (by simp)), rfl⟩
    · exact ⟨.inl ⟨_, _, rfl⟩, fun _ => Iff.rfl, rfl⟩
    · exact ⟨.inr (.inl ⟨_, rfl⟩), fun _ => Iff.rfl, rfl⟩
    · exact ⟨.inr (.inl ⟨_, rfl⟩), step (.interval _) (.cinterval _), rfl⟩
  · cases t <;> simp [setOfT, setOfType]
  · rintro e r rfl; rfl
  · rintro v rfl; rfl

/-- C65: `propagate_set_t<S, T>` is `T` itself if `S` is plain, and the set type for `T` if `S` is a set type; so the result of a generic function is a set
type exactly if it has to be. -/
theorem C65_propagate (s t : CppType) :
    (¬ IsSetType s → propagateSetT s t 0 = some t) ∧
    (∀ c, IsSetType s → propagateSetT s t 0 = some c → IsSetType c ∧ ∀ v, Holds c v ↔ Holds t v) ∧
    (∀ s', IsSetType s → IsSetType s' → propagateSetT s t 0 = propagateSetT s' t 0) := by
  have key : ∀ s, IsSetType s → propagateSetT s t 0 = setOfT t 0 := by
    rintro s (⟨e, r, rfl⟩ | ⟨v, rfl⟩ | ⟨v, rfl⟩) <;> rfl
  refine ⟨?_, ?_, ?_⟩
  · intro h
    cases s <;> first | rfl | (exfalso; apply h; simp [IsSetType])
  · intro c hs hc
    rw [key s hs] at hc
    obtain ⟨h1, h2, -⟩ := (C65_set_of t).1 c hc
    exact ⟨h1, h2⟩
  · intro s' hs hs'
    rw [key s hs, key s' hs']

/-- C65: `interval_arg_value_t`, `interval_of_t`, `interval_of` and `interval_t`: the first three are defined exactly for interval arguments, the last
exactly for intervals, and they give the type of the values and the plain interval of them. -/
theorem C65_interval_of (t : CppType) :
    ((∃ v, intervalArgValueT t = some v) ↔ isIntervalArg t = true) ∧
    ((∃ i, intervalOfT t = some i) ↔ isIntervalArg t = true) ∧ ((∃ i, intervalOfType t = some i) ↔ isIntervalArg t = true) ∧
    ((∃ i, intervalT t = some i) ↔ ∃ v, t = interval v ∨ t = cinterval v) ∧
    (∀ v, intervalArgValueT t = some v → Holds t v ∧ intervalOfT t = some (interval v)) ∧
    (∀ i, intervalT t = some i → intervalOfT t = some i ∧ intervalT i = some i ∧ intervalOfT i = some i) := by
  cases t <;> simp [intervalArgValueT, intervalValueT, isIntervalArg, isIntervalValue, isInterval, intervalOfT, intervalOfType, intervalT]
  all_goals first | exact .plain _ (by simp) (by simp) (by simp) (by simp) | exact .interval _ | exact .cinterval _

/-- C65: interval arguments are the arithmetic types (among them `bool`), random-access iterators, and intervals of values. -/
theorem C65_interval_arg (t : CppType) : isIntervalArg t = true ↔
    t = .bool ∨ (∃ n, t = flt n ∨ t = int n ∨ t = iter n) ∨ ∃ v, t = interval v ∨ t = cinterval v := by
  cases t <;> simp [isIntervalArg, isIntervalValue, isInterval]

/-- C65: the common interval type of interval arguments is the interval of the common type of their values; it does not depend on whether an argument is
a scalar, an interval, or an interval with identity. -/
theorem C65_common (common : List CppType → Option CppType) (ts us : List CppType) (hs : ∀ t ∈ ts, isIntervalArg t = true)
    (hu : ∀ t ∈ us, isIntervalArg t = true) (h : List.Forall₂ (fun t u => ∃ v, Holds t v ∧ Holds u v) ts us) :
    commonIntervalT common ts = commonIntervalT common us ∧
    ∀ c, commonIntervalT common ts = some c → ∃ vs v, List.Forall₂ Holds ts vs ∧ common vs = some v ∧ c = interval v := by
  have hv : ∀ t, isIntervalArg t = true → ∀ v, Holds t v → intervalArgValueT t = some v := by
    intro t ht v hv
    obtain ⟨w, hw⟩ := (C65_interval_of t).1.mpr ht
    rw [hw, holds_unique hv ((C65_interval_of t).2.2.2.2.1 w hw).1]
  have main : ∃ vs, List.Forall₂ Holds ts vs ∧ ts.mapM intervalArgValueT = some vs ∧ us.mapM intervalArgValueT = some vs := by
    induction h with
    | nil => exact ⟨[], .nil, rfl, rfl⟩
    | @cons t u ts us htu hts ih =>
      obtain ⟨vs, h1, h2, h3⟩ := ih (fun x hx => hs x (List.mem_cons_of_mem _ hx)) (fun x hx => hu x (List.mem_cons_of_mem _ hx))
      obtain ⟨v, ht, hu'⟩ := htu
      refine ⟨v :: vs, .cons ht h1, ?_, ?_⟩
      · simp [List.mapM_cons, hv t (hs t (by simp)) v ht, h2]
      · simp [List.mapM_cons, hv u (hu u (by simp)) v hu', h3]
  obtain ⟨vs, h1, h2, h3⟩ := main
  refine ⟨by simp only [commonIntervalT, commonIntervalValueT, h2, h3], fun c hc => ?_⟩
  simp only [commonIntervalT, commonIntervalValueT, h2] at hc
  cases hcv : common vs with
  | none => simp [hcv] at hc
  | some v => simp [hcv] at hc; exact ⟨vs, v, h1, hcv, hc.symm⟩

/-- The full claim, for every reflector: the set type of an enumeration uses the reflector that was asked for, `interval_of<T>::type` is an interval, and
`propagate_set_t` propagates from every class that is a set, also from the conditions that comparisons return. -/
def C65_full : Prop := (∀ n r, setOfT (enum n) r = some (.set (enum n) r)) ∧ (∀ t c, intervalOfType t = some c → ∃ v, c = interval v) ∧
  ∀ k l r t, propagateSetT (.cond k l r) t 0 = setOfT t 0
/-- All parts are violated: `set_of_t` drops the reflector (type_traits.hpp:57), the member type of `interval_of` names the trait itself
(type_traits.hpp:30), and a condition, though derived from `set<bool>`, propagates like a plain value (type_traits.hpp:61). -/
theorem C65_violated_all : (∀ n r, r ≠ 0 → setOfT (enum n) r ≠ some (.set (enum n) r)) ∧
    (∀ t, isIntervalArg t = true → ∃ c, intervalOfType t = some c ∧ ¬ ∃ v, c = interval v) ∧
    (∀ k l r t, propagateSetT (.cond k l r) t 0 = some t ∧
      (propagateSetT (.cond k l r) t 0 = setOfT t 0 ↔ (∃ e r, t = .set e r) ∨ ∃ v, t = interval v)) := by
  refine ⟨?_, ?_, fun k l r t => ⟨rfl, ?_⟩⟩
  · intro n r hr h
    simp [setOfT, setOfType] at h; exact hr h.symm
  · intro t ht
    exact ⟨intervalOf t, by simp [intervalOfType, ht], by simp⟩
  · cases t <;> simp [propagateSetT, setOfT, setOfType]
theorem C65_violated : ¬ C65_full := fun h => C65_violated_all.1 0 1 (by decide) (h.1 0 1)
/-- what holds instead: with the default reflector, and through the alias template -/
theorem C65_partial : (∀ n, setOfT (enum n) 0 = some (.set (enum n) 0)) ∧ (∀ n r, setOfType (enum n) r = some (.set (enum n) r)) ∧
    ∀ t c, intervalOfT t = some c → ∃ v, c = interval v := by
  refine ⟨fun _ => rfl, fun _ _ => rfl, fun t c h => ?_⟩
  simp only [intervalOfT, Option.map_eq_some_iff] at h
  obtain ⟨v, -, rfl⟩ := h
  exact ⟨v, rfl⟩

/-! Examples -/
example : setOfT (enum 3) 0 = some (.set (enum 3) 0) ∧ setOfT (cinterval (flt 64)) 0 = some (interval (flt 64)) := ⟨rfl, rfl⟩
example : propagateSetT (interval (int 32)) .bool 0 = some (.set .bool 0) ∧ propagateSetT (int 32) .bool 0 = some .bool := ⟨rfl, rfl⟩
example : List.Forall₂ (fun t u => ∃ v, Holds t v ∧ Holds u v) [int 32, cinterval (flt 64)] [interval (int 32), interval (flt 64)] :=
  .cons ⟨_, .plain _ (by simp) (by simp) (by simp) (by simp), .interval _⟩ (.cons ⟨_, .cinterval _, .interval _⟩ .nil)
end Intervals.Props
