import Verif.Model.Programs
/-!
# The variants of `max` in the README that lead up to set-valued comparison (README.md:275–330, 385–465)
-/
namespace Intervals
open CppVal
variable {T : Type _} [CppVal T]

/-- `max(T a, T b)` (README.md:277–291) for intervals, if `a < b` is a truth value `sem a b`. -/
def maxTwoValued (sem : Ivl T → Ivl T → Bool) (a b : Ivl T) : Ivl T := if sem a b then b else a
/-- The mirror image for the minimum: `if (a < b) x = a; else x = b;`. -/
def minTwoValued (sem : Ivl T → Ivl T → Bool) (a b : Ivl T) : Ivl T := if sem a b then a else b

variable [CppLimits T]
/-- `max(T a, T b)` with `possibly` and plain assignments (README.md:390–405). -/
def maxPlain (dbg d : Bool) (a b : Ivl T) : Outcome (Ivl T) := do
  let x := Ivl.unassigned
  let c ← condLt dbg (.ident d 0 a) (.ident d 1 b)
  let x := if BoolSet.possibly c.truth then b else x
  let nc ← Cond.mkNot dbg c
  let x := if BoolSet.possibly nc.truth then a else x
  return x

/-- `max2(T a, T b)` (README.md:437–452). -/
def max2 (dbg d : Bool) (a b : Ivl T) : Outcome (Ivl T) := do
  let x := Ivl.unassigned
  let c ← condLt dbg (.ident d 0 a) (.ident d 1 b)
  let x ← if BoolSet.possibly c.truth then Ivl.assignPartial x b else pure x
  let nc ← Cond.mkNot dbg c
  let x ← if BoolSet.possibly nc.truth then Ivl.assignPartial x a else pure x
  return x
end Intervals
