import Verif.Model.Constraint
/-!
# Conditions that compare intervals of several value types (include/intervals/detail/interval.hpp:103–111, 271–289, 319–432, 435–676)

`(i < j) & (x <= y)` with integers `i`, `j` and floating-point numbers `x`, `y`: the comparisons keep the types of their operands, and the operands of `&`, `|`, `!`
are any conditions, sets of truth values (`isfinite(x) & (x < y)`) or truth values.  `σ` names the value types of a program, `Ty s` is the type named `s`.

Simplification: the two operands of one comparison have one value type.
-/
namespace Intervals
variable {σ : Type} {Ty : σ → Type}

/-- A condition object: a `set<bool>` or `bool` (not derived from `condition`), a comparison of operands with value type `Ty s`, `constraint_conjunction` or
`constraint_disjunction` with its truth set (detail/interval.hpp:319–379). -/
inductive HCond (Ty : σ → Type) where
  | plain (b : BoolSet)
  | cmp (s : σ) (c : Cond (Ty s))
  | conj (b : BoolSet) (l r : HCond Ty)
  | disj (b : BoolSet) (l r : HCond Ty)

namespace HCond
/-- The `set<bool>` base (`as_bool_set_arg`, detail/interval.hpp:322–331). -/
def truth : HCond Ty → BoolSet
  | plain b => b
  | cmp _ c => c.truth
  | conj b _ _ => b
  | disj b _ _ => b
/-- `std::derived_from<..., condition>`. -/
def isCond : HCond Ty → Bool
  | plain _ => false
  | _ => true
/-- `operator &` (detail/interval.hpp:381–387; two plain operands use `set<bool>`'s operator). -/
def mkAnd (l r : HCond Ty) : HCond Ty :=
  let b := BoolSet.and l.truth r.truth
  if l.isCond || r.isCond then conj b l r else plain b
/-- `operator |` (detail/interval.hpp:389–395). -/
def mkOr (l r : HCond Ty) : HCond Ty :=
  let b := BoolSet.or l.truth r.truth
  if l.isCond || r.isCond then disj b l r else plain b
/-- `operator !` (detail/interval.hpp:397–432).  A compound condition with a plain operand has no overload of its own, so
`set<bool>`'s operator applies and the constraint is lost. -/
def mkNot (dbg : Bool) : HCond Ty → Outcome (HCond Ty)
  | plain b => do return plain (← BoolSet.not dbg b)
  | cmp s c => do return cmp s (← Cond.mkNot dbg c)
  | conj b l r => do
    let b' ← BoolSet.not dbg b
    if l.isCond && r.isCond then return disj b' (← mkNot dbg l) (← mkNot dbg r) else return plain b'
  | disj b l r => do
    let b' ← BoolSet.not dbg b
    if l.isCond && r.isCond then return conj b' (← mkNot dbg l) (← mkNot dbg r) else return plain b'

/-- What `constrain` of an interval with value type `Ty s` sees: `can_compare_id_v` (detail/interval.hpp:103–111) is false for the operands of a comparison of another
type, whose overload hence returns the interval and does not touch `constraintConsidered` (441–627), as does the overload for a `set<bool>` (435–440). -/
def view [DecidableEq σ] (s : σ) : HCond Ty → Cond (Ty s)
  | plain b => .plain b
  | cmp t c => if h : t = s then h ▸ c else .plain c.truth
  | conj b l r => .conj b (l.view s) (r.view s)
  | disj b l r => .disj b (l.view s) (r.view s)
end HCond

/-- `constrain(x, c)` (interval.hpp:1499–1507) of the interval with value type `Ty s` at address `id`. -/
def constrainH [DecidableEq σ] (dbg d : Bool) (s : σ) [CppVal (Ty s)] [CppStep (Ty s)] (id : Nat) (x : Ivl (Ty s)) (c : HCond Ty) : Outcome (Ivl (Ty s)) :=
  constrain dbg d id x (c.view s)

end Intervals
