import Verif.Model.ConstraintMixed
/-!
# Compound conditions over comparisons with operands of several value types (include/intervals/detail/interval.hpp:319–432, 435–676, interval.hpp:109–186, 1499–1507)

As Model/Constraint, but every comparison has an operand of a value type of its own (Model/ConstraintMixed).

Simplification: one interval `x` is fixed.  A comparison has `x` with its current bounds on one side and something else on the other, or it does not mention `x` at all; of the latter only the truth
set is kept, because `constrain` does not look further.
-/
namespace Intervals
open CppVal

/-- The value types of the other operands, indexed by `ι`, with the conversions to the value type of `x` and the steps `detail::pred`, `detail::succ` (detail/interval.hpp:244–269) on each. -/
structure OperandTypes {ι : Type} (V : ι → Type) (T : Type) where
  cv : ∀ i, V i → T
  pr : ∀ i, V i → Outcome (V i)
  su : ∀ i, V i → Outcome (V i)

/-- The condition structs (detail/interval.hpp:319–379), each with its truth set. -/
inductive MCond {ι : Type} (V : ι → Type) where
  /-- a `bool` or `set<bool>` operand of `&` and `|` -/
  | plain (s : BoolSet)
  /-- a comparison of `x` with an operand of value type `V i` -/
  | cmp (s : BoolSet) (i : ι) (r : Arg (V i)) (k : XRel)
  /-- a comparison that does not mention `x` -/
  | away (s : BoolSet)
  | conj (s : BoolSet) (l r : MCond V)
  | disj (s : BoolSet) (l r : MCond V)

namespace MCond
variable {ι : Type} {V : ι → Type}
/-- The `set<bool>` base of a condition (`as_bool_set_arg`, detail/interval.hpp:322–331). -/
def truth : MCond V → BoolSet
  | plain s => s
  | cmp s _ _ _ => s
  | away s => s
  | conj s _ _ => s
  | disj s _ _ => s
/-- Is the condition a `constraint_disjunction`? -/
def isDisj : MCond V → Bool
  | disj _ _ _ => true
  | _ => false
/-- `std::derived_from<..., condition>`. -/
def isCond : MCond V → Bool
  | plain _ => false
  | _ => true
/-- `operator &` (detail/interval.hpp:381–387). -/
def mkAnd (l r : MCond V) : MCond V :=
  let s := BoolSet.and l.truth r.truth
  if l.isCond || r.isCond then conj s l r else plain s
/-- `operator |` (detail/interval.hpp:389–395). -/
def mkOr (l r : MCond V) : MCond V :=
  let s := BoolSet.or l.truth r.truth
  if l.isCond || r.isCond then disj s l r else plain s
/-- `operator !` (detail/interval.hpp:397–432). -/
def mkNot (dbg : Bool) : MCond V → Outcome (MCond V)
  | plain s => do return plain (← BoolSet.not dbg s)
  | cmp s i r k => do return cmp (← BoolSet.not dbg s) i r k.neg
  | away s => do return away (← BoolSet.not dbg s)
  | conj s l r => do
    let s' ← BoolSet.not dbg s
    if l.isCond && r.isCond then return disj s' (← mkNot dbg l) (← mkNot dbg r) else return plain s'
  | disj s l r => do
    let s' ← BoolSet.not dbg s
    if l.isCond && r.isCond then return conj s' (← mkNot dbg l) (← mkNot dbg r) else return plain s'
end MCond

section
variable {ι : Type} {V : ι → Type} [∀ i, CppVal (V i)] [∀ i, CppNum (V i)] {T : Type} [CppVal T] [CppNum T] (E : OperandTypes V T)
/-- the comparison operators (interval.hpp:109–186) applied to `x` and another operand -/
def mkCmp (dbg : Bool) (x : Ivl T) (i : ι) (r : Arg (V i)) (k : XRel) : Outcome (MCond V) := do
  expectsDebug dbg (x.assigned && r.assigned)
  return .cmp (k.compare (E.cv i) x r) i r k

variable [CppStep T]
/-- `detail::constrain` (detail/interval.hpp:435–676) for the interval `x`, see Model/Constraint for the disjunctions below a conjunction. -/
def detailConstrainT (dbg d : Bool) (x : Ivl T) : MCond V → Bool → Bool → Outcome (Ivl T × Bool)
  | .plain _, considered, _ => .ok (x, considered)                                        -- 435–440
  | .away _, considered, _ => .ok (x, considered)                                         -- 489, 539, 571, 626
  | .cmp s i r k, _, optional_ =>                                                         -- 441–627
    if BoolSet.contains s true then do return (← constrainRel (E.cv i) (E.pr i) (E.su i) d dbg s x r k, true)
    else do
      expects optional_
      return (x, true)
  | .conj s l r, considered, optional_ => do                                              -- 628–646
    let (xl, considered) ← (if l.isDisj then .ok (x, considered) else detailConstrainT dbg d x l considered optional_)
    let (xr, considered) ← (if r.isDisj then .ok (x, considered) else detailConstrainT dbg d x r considered optional_)
    if BoolSet.contains s true then do
      expectsDebug dbg (ge xl.hi xr.lo && le xl.lo xr.hi)
      return (← Ivl.make (cmax xl.lo xr.lo) (cmin xl.hi xr.hi), considered)
    else return (x, considered)
  | .disj s l r, _, optional_ => do                                                       -- 647–676
    let (xl, considered1) ← detailConstrainT dbg d x l false true
    let (xr, considered2) ← detailConstrainT dbg d x r false true
    let blhs := considered1 && BoolSet.possibly l.truth
    let brhs := considered2 && BoolSet.possibly r.truth
    expects (BoolSet.contains s true || optional_)
    if blhs && brhs then return (← Ivl.make (cmin xl.lo xr.lo) (cmax xl.hi xr.hi), considered1 || considered2)
    else if blhs then return (xl, considered1 || considered2)
    else if brhs then return (xr, considered1 || considered2)
    else return (x, considered1 || considered2)

/-- `constrain(x, c)` (interval.hpp:1499–1507). -/
def constrainT (dbg d : Bool) (x : Ivl T) (c : MCond V) : Outcome (Ivl T) := do
  let (xc, considered) ← detailConstrainT E dbg d x c false false
  expects considered
  return xc
end
end Intervals
