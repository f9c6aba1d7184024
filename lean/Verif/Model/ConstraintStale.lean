import Verif.Model.ConstraintMixed
/-!
# Conditions used after the interval has changed (include/intervals/detail/interval.hpp:441–627, interval.hpp:1499–1507)

As Model/ConstraintMixed, for a condition that was formed when the interval had the bounds `x₀`; the condition holds a copy of these (detail/interval.hpp:319–363), and `constrain` is called
when the interval has the bounds `x`.

Simplification: `x` is assigned.
-/
namespace Intervals
open CppVal
section
variable {V T : Type _} [CppVal V] [CppNum V] [CppVal T] [CppNum T] [CppStep T]
/-- `detail::constrain` (detail/interval.hpp:441–627) with `optional` false: the overloads for `<` and `<=` read the bounds of `x`, those for `==` and `!=` the bounds in the condition;
`s` is the truth set of the condition. -/
def constrainRelOld (cv : V → T) (pr su : V → Outcome V) (d dbg : Bool) (s : BoolSet) (x₀ x : Ivl T) (r : Arg V) (k : XRel) : Outcome (Ivl T) :=
  if BoolSet.contains s true then
    match k with
    | .xLess => do                                                                        -- 502–511
      expectsDebug dbg (lt x.lo (cv r.hi))
      Ivl.make x.lo (cmin x.hi (cv (← pr r.hi)))
    | .lessX => do                                                                        -- 524–533
      expectsDebug dbg (lt (cv r.lo) x.hi)
      Ivl.make (cmax (cv (← su r.lo)) x.lo) x.hi
    | .xLeq => do                                                                         -- 454–463
      expectsDebug dbg (le x.lo (cv r.hi))
      Ivl.make x.lo (cmin x.hi (cv r.hi))
    | .leqX => do                                                                         -- 476–485
      expectsDebug dbg (le (cv r.lo) x.hi)
      Ivl.make (cmax (cv r.lo) x.lo) x.hi
    | .xEq => do                                                                          -- 553–562
      expectsDebug dbg (ge (cv r.hi) x₀.lo && le (cv r.lo) x₀.hi)
      Ivl.make (cmax x₀.lo (cv r.lo)) (cmin x₀.hi (cv r.hi))
    | .eqX => do
      expectsDebug dbg (ge x₀.hi (cv r.lo) && le x₀.lo (cv r.hi))
      Ivl.make (cmax (cv r.lo) x₀.lo) (cmin (cv r.hi) x₀.hi)
    | .xNe => do                                                                          -- 583–605
      expectsDebug dbg (ne x₀.lo (cv r.hi) || ne x₀.hi (cv r.lo))
      if d && ne x₀.lo x₀.hi && eq r.lo r.hi && eq x₀.lo (cv r.lo) then Ivl.make (← succStep d x₀.lo) x₀.hi
      else if d && ne x₀.lo x₀.hi && eq r.lo r.hi && eq x₀.hi (cv r.lo) then Ivl.make x₀.lo (← predStep d x₀.hi)
      else return x
    | .neX => do                                                                          -- 606–617
      expectsDebug dbg (ne (cv r.lo) x₀.hi || ne (cv r.hi) x₀.lo)
      if d && ne x₀.lo x₀.hi && eq r.lo r.hi && eq x₀.lo (cv r.lo) then Ivl.make (← succStep d x₀.lo) x₀.hi
      else if d && ne x₀.lo x₀.hi && eq r.lo r.hi && eq x₀.hi (cv r.lo) then Ivl.make x₀.lo (← predStep d x₀.hi)
      else return x
  else .error .contract

/-- `constrain(x, c)` (interval.hpp:1499–1507) where `c` is a comparison with `r` that was formed when the interval had the bounds `x₀` -/
def constrainOld (cv : V → T) (pr su : V → Outcome V) (d dbg : Bool) (x₀ x : Ivl T) (r : Arg V) (k : XRel) : Outcome (Ivl T) := do
  expectsDebug dbg (x₀.assigned && r.assigned)
  constrainRelOld cv pr su d dbg (k.compare cv x₀ r) x₀ x r k
end
end Intervals
