/-!
# Outcomes of C++ functions

A C++ call can return, violate a contract, throw `gsl::narrowing_error`, or have undefined behaviour.
-/
namespace Intervals

/-- The ways in which a call of the library can fail to return a value.
* `contract` — a violated `gsl_Expects`, `gsl_ExpectsDebug`, `gsl_Assert`, `gsl_AssertDebug`, or an executed `gsl_FailFast`
  (e.g. include/intervals/interval.hpp:734, 599–607; detail/interval.hpp:464).
* `narrowing` — `gsl::narrowing_error` thrown by `gsl::narrow` (interval.hpp:1408).
* `ub` — undefined behaviour: signed overflow, division by zero, iterator out of range. -/
inductive Err where
  | contract
  | narrowing
  | ub
  deriving DecidableEq, Repr

/-- Result of running a C++ function. -/
abbrev Outcome (α : Type _) := Except Err α

instance instDecEqOutcome {α : Type _} [DecidableEq α] : DecidableEq (Outcome α)
  | .ok a, .ok b => if h : a = b then isTrue (by rw [h]) else isFalse (fun e => h (Except.ok.inj e))
  | .error a, .error b => if h : a = b then isTrue (by rw [h]) else isFalse (fun e => h (Except.error.inj e))
  | .ok _, .error _ => isFalse (fun e => nomatch e)
  | .error _, .ok _ => isFalse (fun e => nomatch e)

/-- `gsl_Expects(b)`, `gsl_Assert(b)`: always active (gsl-lite; used e.g. in interval.hpp:734, detail/interval.hpp:464). -/
def expects (b : Bool) : Outcome Unit := if b then .ok () else .error .contract

/-- `gsl_ExpectsDebug(b)`, `gsl_AssertDebug(b)`: active only in debug builds (`dbg = true`)
(used e.g. in interval.hpp:114, detail/interval.hpp:459). -/
def expectsDebug (dbg b : Bool) : Outcome Unit := if dbg && !b then .error .contract else .ok ()

@[simp] theorem expects_true : expects true = .ok () := rfl
@[simp] theorem expects_false : expects false = .error .contract := rfl
@[simp] theorem expectsDebug_true (dbg : Bool) : expectsDebug dbg true = .ok () := by simp [expectsDebug]
@[simp] theorem expectsDebug_release (b : Bool) : expectsDebug false b = .ok () := by simp [expectsDebug]
@[simp] theorem expectsDebug_debug_false : expectsDebug true false = .error .contract := rfl

@[simp] theorem ok_bind {α β : Type _} (a : α) (f : α → Outcome β) :
    (((Except.ok a : Outcome α) >>= f) : Outcome β) = f a := rfl
@[simp] theorem error_bind {α β : Type _} (e : Err) (f : α → Outcome β) :
    (((Except.error e : Outcome α) >>= f) : Outcome β) = .error e := rfl

theorem bind_eq_ok {α β : Type _} {x : Outcome α} {f : α → Outcome β} {b : β} :
    (x >>= f) = .ok b ↔ ∃ a, x = .ok a ∧ f a = .ok b := by
  cases x <;> simp

theorem expects_eq_ok {b : Bool} {u : Unit} : expects b = .ok u ↔ b = true := by
  cases b <;> simp

theorem expectsDebug_eq_ok {dbg b : Bool} {u : Unit} :
    expectsDebug dbg b = .ok u ↔ (dbg = true → b = true) := by
  cases b <;> cases dbg <;> simp

end Intervals
