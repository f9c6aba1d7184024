import Verif.Model.Interval
/-!
# Conditions and `constrain()` (include/intervals/detail/interval.hpp:30–676, interval.hpp:109–186, 1499–1507)

Simplification: all operands of one condition share the value type `T` (the common type of the C++ operands); what an operand's own
type contributes is the flag `disc` (integral or iterator value type), on which `succ`/`pred` dispatch.  Model/ConstraintMixed is without this
simplification (C101_converted relates the two).
-/
namespace Intervals
open CppVal

/-- An operand stored in a comparison condition: a scalar, an interval without identity (an rvalue was compared) or a
`constrained_interval`, i.e. a snapshot of the bounds together with the address it was taken from
(detail/interval.hpp:30–100; `as_interval`, 210–242). `disc`: the operand's value type is integral or an iterator. -/
inductive Operand (T : Type _) where
  | scalar (disc : Bool) (v : T)
  | anon (disc : Bool) (X : Ivl T)
  | ident (disc : Bool) (id : Nat) (X : Ivl T)

namespace Operand
variable {T : Type _}
/-- The operand as seen by `lower`, `upper`, `assigned`. -/
def arg : Operand T → Arg T
  | scalar _ v => .scalar v
  | anon _ X => .ivl X
  | ident _ _ X => .ivl X
/-- Is the operand's value type discrete? -/
def disc : Operand T → Bool
  | scalar d _ => d
  | anon d _ => d
  | ident d _ _ => d
/-- `matches_identity(x, operand)` (detail/interval.hpp:271–289, `can_compare_id_v` 103–111) for an interval at address `id` whose
value type is discrete iff `d`. -/
def matchesId (d : Bool) (id : Nat) : Operand T → Bool
  | ident d' id' _ => d == d' && id == id'
  | _ => false
end Operand

/-- The condition structs (detail/interval.hpp:319–379), each with its truth set; `plain` is a `bool` or `set<bool>` operand of `&`
and `|`. -/
inductive Cond (T : Type _) where
  | plain (s : BoolSet)
  | leq (s : BoolSet) (l r : Operand T)
  | less (s : BoolSet) (l r : Operand T)
  | equal (s : BoolSet) (l r : Operand T)
  | notEqual (s : BoolSet) (l r : Operand T)
  | conj (s : BoolSet) (l r : Cond T)
  | disj (s : BoolSet) (l r : Cond T)

namespace Cond
variable {T : Type _}
/-- The `set<bool>` base of a condition (`as_bool_set_arg`, detail/interval.hpp:322–331). -/
def truth : Cond T → BoolSet
  | plain s => s
  | leq s _ _ => s
  | less s _ _ => s
  | equal s _ _ => s
  | notEqual s _ _ => s
  | conj s _ _ => s
  | disj s _ _ => s
/-- Is the condition a `constraint_disjunction`? -/
def isDisj : Cond T → Bool
  | disj _ _ _ => true
  | _ => false
/-- `std::derived_from<..., condition>`. -/
def isCond : Cond T → Bool
  | plain _ => false
  | _ => true

/-- `operator &` (detail/interval.hpp:381–387; two plain operands use `set<bool>`'s operator). -/
def mkAnd (l r : Cond T) : Cond T :=
  let s := BoolSet.and l.truth r.truth
  if l.isCond || r.isCond then conj s l r else plain s
/-- `operator |` (detail/interval.hpp:389–395). -/
def mkOr (l r : Cond T) : Cond T :=
  let s := BoolSet.or l.truth r.truth
  if l.isCond || r.isCond then disj s l r else plain s
/-- `operator !` (detail/interval.hpp:397–432).  A compound condition with a plain operand has no overload of its own, so
`set<bool>`'s operator applies and the constraint is lost. -/
def mkNot (dbg : Bool) : Cond T → Outcome (Cond T)
  | plain s => do return plain (← BoolSet.not dbg s)
  | less s l r => do return leq (← BoolSet.not dbg s) r l
  | leq s l r => do return less (← BoolSet.not dbg s) r l
  | equal s l r => do return notEqual (← BoolSet.not dbg s) l r
  | notEqual s l r => do return equal (← BoolSet.not dbg s) l r
  | conj s l r => do
    let s' ← BoolSet.not dbg s
    if l.isCond && r.isCond then return disj s' (← mkNot dbg l) (← mkNot dbg r) else return plain s'
  | disj s l r => do
    let s' ← BoolSet.not dbg s
    if l.isCond && r.isCond then return conj s' (← mkNot dbg l) (← mkNot dbg r) else return plain s'
end Cond

section ops
variable {T : Type _} [CppVal T]
/-- `operator ==` (interval.hpp:109–121). -/
def condEq (dbg : Bool) (l r : Operand T) : Outcome (Cond T) := do
  return .equal (← opEq dbg l.arg r.arg) l r
/-- `operator !=` (interval.hpp:122–134). -/
def condNe (dbg : Bool) (l r : Operand T) : Outcome (Cond T) := do
  return .notEqual (← opNe dbg l.arg r.arg) l r
/-- `operator <` (interval.hpp:135–147). -/
def condLt (dbg : Bool) (l r : Operand T) : Outcome (Cond T) := do
  return .less (← opLt dbg l.arg r.arg) l r
/-- `operator <=` (interval.hpp:148–160). -/
def condLe (dbg : Bool) (l r : Operand T) : Outcome (Cond T) := do
  return .leq (← opLe dbg l.arg r.arg) l r
/-- `operator >` (interval.hpp:161–173). -/
def condGt (dbg : Bool) (l r : Operand T) : Outcome (Cond T) := do
  return .less (← opGt dbg l.arg r.arg) r l
/-- `operator >=` (interval.hpp:174–186). -/
def condGe (dbg : Bool) (l r : Operand T) : Outcome (Cond T) := do
  return .leq (← opGe dbg l.arg r.arg) r l
end ops

section constrain
variable {T : Type _} [CppVal T] [CppStep T]

/-- `detail::succ` (detail/interval.hpp:244–256). -/
def succStep (d : Bool) (v : T) : Outcome T :=
  if d then (match CppStep.succ v with | some w => .ok w | none => .error .ub) else .ok v
/-- `detail::pred` (detail/interval.hpp:257–269). -/
def predStep (d : Bool) (v : T) : Outcome T :=
  if d then (match CppStep.pred v with | some w => .ok w | none => .error .ub) else .ok v

/-- `detail::constrain` (detail/interval.hpp:435–676) for the interval at address `id` with current bounds `x`, whose value type is
discrete iff `d`.  Takes and returns the reference parameter `constraintConsidered`.

The overload for conjunctions (628–646) calls `detail::constrain` by its qualified name.  A qualified name is not a dependent name, so it is
looked up where the template is defined, and there is no argument-dependent lookup ([temp.dep], [temp.nondep], [basic.lookup.argdep]): only the
overloads declared up to line 630 are candidates.  The overload for disjunctions is declared after it (649) and not forward-declared, hence an
operand of a conjunction that is a disjunction goes to the overload for any `set<bool>` argument (435–440), which does nothing.  The overload
for disjunctions itself sees all of them, and so does `constrain` (interval.hpp:1504). -/
def detailConstrain (dbg d : Bool) (id : Nat) (x : Ivl T) : Cond T → Bool → Bool → Outcome (Ivl T × Bool)
  | .plain _, considered, _ => .ok (x, considered)                                       -- 435–440
  | .leq s l r, considered, optional_ =>                                                  -- 441–490
    if l.matchesId d id then
      if BoolSet.contains s true then do
        expectsDebug dbg (le x.lo r.arg.hi)
        return (← Ivl.make x.lo (cmin x.hi r.arg.hi), true)
      else do
        expects optional_
        if r.matchesId d id then do
          expects optional_
          return (x, true)
        else return (x, true)
    else if r.matchesId d id then
      if BoolSet.contains s true then do
        expectsDebug dbg (le l.arg.lo x.hi)
        return (← Ivl.make (cmax l.arg.lo x.lo) x.hi, true)
      else do
        expects optional_
        return (x, true)
    else .ok (x, considered)
  | .less s l r, considered, optional_ =>                                                 -- 491–540
    if l.matchesId d id then
      if BoolSet.contains s true then do
        expectsDebug dbg (lt x.lo r.arg.hi)
        return (← Ivl.make x.lo (cmin x.hi (← predStep r.disc r.arg.hi)), true)
      else do
        expects optional_
        if r.matchesId d id then do
          expects optional_
          return (x, true)
        else return (x, true)
    else if r.matchesId d id then
      if BoolSet.contains s true then do
        expectsDebug dbg (lt l.arg.lo x.hi)
        return (← Ivl.make (cmax (← succStep l.disc l.arg.lo) x.lo) x.hi, true)
      else do
        expects optional_
        return (x, true)
    else .ok (x, considered)
  | .equal s l r, considered, optional_ =>                                                -- 541–572
    if l.matchesId d id || r.matchesId d id then
      if BoolSet.contains s true then do
        expectsDebug dbg (ge r.arg.hi l.arg.lo && le r.arg.lo l.arg.hi)
        return (← Ivl.make (cmax l.arg.lo r.arg.lo) (cmin l.arg.hi r.arg.hi), true)
      else do
        expects optional_
        return (x, true)
    else .ok (x, considered)
  | .notEqual s l r, considered, optional_ =>                                             -- 573–627
    if l.matchesId d id || r.matchesId d id then
      if BoolSet.contains s true then do
        expectsDebug dbg (ne l.arg.lo r.arg.hi || ne l.arg.hi r.arg.lo)
        if d && l.matchesId d id && ne l.arg.lo l.arg.hi && eq r.arg.lo r.arg.hi && eq l.arg.lo r.arg.lo then
          return (← Ivl.make (← succStep l.disc l.arg.lo) l.arg.hi, true)
        else if d && l.matchesId d id && ne l.arg.lo l.arg.hi && eq r.arg.lo r.arg.hi && eq l.arg.hi r.arg.lo then
          return (← Ivl.make l.arg.lo (← predStep l.disc l.arg.hi), true)
        else if d && r.matchesId d id && ne r.arg.lo r.arg.hi && eq l.arg.lo l.arg.hi && eq r.arg.lo l.arg.lo then
          return (← Ivl.make (← succStep r.disc r.arg.lo) r.arg.hi, true)
        else if d && r.matchesId d id && ne r.arg.lo r.arg.hi && eq l.arg.lo l.arg.hi && eq r.arg.hi l.arg.lo then
          return (← Ivl.make r.arg.lo (← predStep r.disc r.arg.hi), true)
        else return (x, true)
      else do
        expects optional_
        return (x, true)
    else .ok (x, considered)
  | .conj s l r, considered, optional_ => do                                              -- 628–646
    let (xl, considered) ← (if l.isDisj then .ok (x, considered) else detailConstrain dbg d id x l considered optional_)
    let (xr, considered) ← (if r.isDisj then .ok (x, considered) else detailConstrain dbg d id x r considered optional_)
    if BoolSet.contains s true then do
      expectsDebug dbg (ge xl.hi xr.lo && le xl.lo xr.hi)
      return (← Ivl.make (cmax xl.lo xr.lo) (cmin xl.hi xr.hi), considered)
    else return (x, considered)
  | .disj s l r, _, optional_ => do                                                       -- 647–676
    let (xl, considered1) ← detailConstrain dbg d id x l false true
    let (xr, considered2) ← detailConstrain dbg d id x r false true
    let blhs := considered1 && BoolSet.possibly l.truth
    let brhs := considered2 && BoolSet.possibly r.truth
    expects (BoolSet.contains s true || optional_)
    if blhs && brhs then return (← Ivl.make (cmin xl.lo xr.lo) (cmax xl.hi xr.hi), considered1 || considered2)
    else if blhs then return (xl, considered1 || considered2)
    else if brhs then return (xr, considered1 || considered2)
    else return (x, considered1 || considered2)

/-- `constrain(x, c)` (interval.hpp:1499–1507). -/
def constrain (dbg d : Bool) (id : Nat) (x : Ivl T) (c : Cond T) : Outcome (Ivl T) := do
  let (xc, considered) ← detailConstrain dbg d id x c false false
  expects considered
  return xc

end constrain
end Intervals
