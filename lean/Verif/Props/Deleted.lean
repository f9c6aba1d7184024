import Verif.Model.Deleted
import Verif.Props.OverloadPlain
/-!
# C88: code that is not interval-aware does not compile
-/
namespace Intervals.Props
open Intervals Overload Traits CppType Spec

theorem toBoolRank_plain {env : Env} (he : EnvOk env) {x : CppType} (h : (toBoolRank env x).isSome = true) : Plain x := by
  unfold toBoolRank at h
  have hb := he.toBool_set x
  split at h
  · next e => subst e; exact ⟨rfl, rfl, rfl⟩
  · split at h
    · next e =>
      refine ⟨?_, ?_, ?_⟩ <;> by_contra hc <;> simp at hc <;> simp [hb, hc] at e
    · cases h

/-- C88: only a plain value can be the condition of `if`, `while` or `?:`.  The result of comparing intervals, or of a logical operation with it, cannot. -/
theorem C88_branch {env : Env} (he : EnvOk env) (x : CppType) (h : branchOk env x = true) : Plain x := toBoolRank_plain he h

/-- C88: `x && y` and `x || y` compile exactly if both operands convert to `bool`; in particular they do not if an operand is a set, an interval or a
condition, also not together with a plain `bool`. -/
theorem C88_short_circuit {env : Env} (he : EnvOk env) (x y : CppType) :
    (∀ t, callShortCircuit env x y = .ok t ↔ t = .bool ∧ branchOk env x = true ∧ branchOk env y = true) ∧
    (¬ (Plain x ∧ Plain y) → callShortCircuit env x y = .illFormed ∨ callShortCircuit env x y = .noOverload) := by
  have key : (branchOk env x = true ∧ branchOk env y = true → callShortCircuit env x y = .ok .bool) ∧
      (¬ (branchOk env x = true ∧ branchOk env y = true) → callShortCircuit env x y = .illFormed ∨ callShortCircuit env x y = .noOverload) := by
    unfold callShortCircuit shortCircuitCands branchOk
    rcases bool_class he x with ⟨a, b, c, d⟩ | ⟨a, b, c, d, e⟩ | ⟨a, b, c, d, e⟩ | ⟨a, b, c, d, e⟩ | ⟨a, b, c, d, e⟩ <;>
    rcases bool_class he y with ⟨a', b', c', d'⟩ | ⟨a', b', c', d', e'⟩ | ⟨a', b', c', d', e'⟩ | ⟨a', b', c', d', e'⟩ | ⟨a', b', c', d', e'⟩ <;>
    rw [a, b, a', b'] <;> split <;>
    first | (simp [ranks2, resolve, viable, pick, better, leRanks]; done) | simp_all
  refine ⟨fun t => ⟨fun h => ?_, fun ⟨e, h⟩ => e ▸ key.1 h⟩, fun h => key.2 fun hb => h ⟨C88_branch he x hb.1, C88_branch he y hb.2⟩⟩
  by_cases hb : branchOk env x = true ∧ branchOk env y = true
  · rw [key.1 hb] at h; cases h; exact ⟨rfl, hb⟩
  · rcases key.2 hb with e | e <;> rw [e] at h <;> cases h

/-- C88: `x = y` does not compile if `x` is a set, an interval or a condition, whatever `y` is; for scalars it compiles exactly if `y` converts to the type of
`x`, so in particular not for an interval `y`. -/
theorem C88_assign {env : Env} (x y : CppType) :
    (¬ Plain x → callAssignOp env x y = .illFormed ∨ callAssignOp env x y = .noOverload) ∧
    (isScalar x = true → ∀ t, callAssignOp env x y = .ok t ↔ t = x ∧ (y = x ∨ isScalar y = true ∧ env.convertible y x = true)) := by
  have one : ∀ o : Option (List Nat), resolve [⟨o, 2, none⟩] = .illFormed ∨ resolve [⟨o, 2, none⟩] = .noOverload := by
    intro o; cases o <;> simp [resolve, viable, pick]
  constructor
  · intro h
    unfold callAssignOp assignOpCands
    cases x with
    | set e r => exact one _
    | interval v => exact one _
    | cinterval v => exact one _
    | cond k l r => exact one _
    | _ => exact absurd ⟨rfl, rfl, rfl⟩ h
  · intro h t
    have e : callAssignOp env x y = resolve [⟨(toValueRank env x y).map ([·]), 2, some x⟩] := by
      cases x <;> first | (simp [isScalar] at h; done) | simp [callAssignOp, assignOpCands, isScalar]
    rw [e]
    have ok : ∀ n : Nat, (resolve [⟨some [n], 2, some x⟩] = Res.ok t ↔ t = x) := fun n => by
      simp [resolve, viable, pick]; exact eq_comm
    have no : resolve [⟨none, 2, some x⟩] = Res.ok t ↔ False := by simp [resolve, viable]
    unfold toValueRank
    by_cases h1 : y = x
    · rw [if_pos h1]; exact (ok 0).trans ⟨fun h => ⟨h, .inl h1⟩, fun h => h.1⟩
    · rw [if_neg h1]
      by_cases h2 : (isScalar y && env.convertible y x) = true
      · rw [if_pos h2]; rw [Bool.and_eq_true] at h2
        exact (ok 3).trans ⟨fun h => ⟨h, .inr h2⟩, fun h => h.1⟩
      · rw [if_neg h2]; rw [Bool.and_eq_true] at h2
        exact no.trans ⟨fun h => h.elim, fun h => h.2.elim h1 h2⟩

/-- C88: what to write instead compiles: `x & y` and `x | y` for sets of truth values and conditions, also mixed with `bool`; the projections, whose results
can be branched on; `assign`, `assign_partial` and `reset` for intervals. -/
theorem C88_replacement {env : Env} (he : EnvOk env) :
    (∀ t u, Variant .bool t → Variant .bool u → ¬ (t = .bool ∧ u = .bool) → ∀ op, ∃ s, call env (.log op) [t, u] = .ok s ∧ SetFor .bool s) ∧
    (∀ t, Variant .bool t → ∃ s, call env .proj [t] = .ok s ∧ branchOk env s = true) ∧
    (∀ v y, okInterval env v = true → env.convertible v v = true → Variant v y → call env .assign [interval v, y] = .ok voidT) := by
  have n1 : ∀ {t}, Variant .bool t → t ≠ .bool → SetFor .bool t := fun h h' => h.resolve_left h'
  refine ⟨fun t u ht hu hn op => lift_log he op ht hu ?_, fun t ht => ⟨_, call_proj he ht, by simp [branchOk, toBoolRank]⟩,
    fun v y hv hc hy => (C75_assign hv hc (.inr rfl) hy).mpr (.inl rfl)⟩
  by_cases h : t = .bool
  · exact .inr (n1 hu fun h' => hn ⟨h, h'⟩)
  · exact .inl (n1 ht h)

/-! The conventional `if (a < b && b < c) x = b;`: with intervals of `double` neither `a < b && b < c` nor `x = b` compiles, with `double` both do. -/
example : let c := CppType.cond .less (cinterval (flt 1)) (cinterval (flt 1))
    call stdEnv (.cmp .lt) [interval (flt 1), interval (flt 1)] = .ok c ∧ branchOk stdEnv c = false ∧ callShortCircuit stdEnv c c = .illFormed ∧
    callShortCircuit stdEnv c .bool = .illFormed ∧ callAssignOp stdEnv (interval (flt 1)) (interval (flt 1)) = .illFormed ∧
    callShortCircuit stdEnv .bool .bool = .ok .bool ∧ callAssignOp stdEnv (flt 1) (flt 1) = .ok (flt 1) := by decide +kernel
end Intervals.Props
