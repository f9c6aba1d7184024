import Verif.Model.BoolSet
/-!
# `set<T>` for an arbitrary reflected type (include/intervals/set.hpp)

The static array `set<T>::values` (set.hpp:40) is a parameter `vals : List T`; the state (set.hpp:45) is a
bit vector of `vals.length` bits.  `value == other` on `T` (an enum or `bool`) is decidable equality.
-/
namespace Intervals

variable {T : Type _} [DecidableEq T]

/-- State of a `set<T>` over `vals` (set.hpp:42–45). -/
abbrev CSet (vals : List T) := BitVec vals.length

/-- `find_value_index` (set.hpp:52–63): first index holding the value, `gsl_FailFast()` if there is none. -/
def findValueIndex (vals : List T) (v : T) : Outcome Nat :=
  match vals.findIdx? (fun w => decide (w = v)) with
  | some i => .ok i
  | none => .error .contract

/-- `std::bitset::set(i)` (used in set.hpp:80, 86, 127). -/
def bitSet {n : Nat} (s : BitVec n) (i : Nat) : BitVec n := s ||| (1#n <<< i)

/-- `std::bitset::count()` (used in set.hpp:68–69). -/
def bitCount {n : Nat} (s : BitVec n) : Nat := (List.range n).countP (fun i => s.getLsbD i)

namespace CSet
variable {vals : List T}

/-- `set()` (set.hpp:75–77). -/
def empty (vals : List T) : CSet vals := 0#_
/-- `assign(T value)` (set.hpp:124–129). -/
def assignVal (s : CSet vals) (v : T) : Outcome (CSet vals) := do
  let i ← findValueIndex vals v
  return bitSet s i
/-- `set(T value)` (set.hpp:78–81). -/
def ofVal (vals : List T) (v : T) : Outcome (CSet vals) := assignVal (empty vals) v
/-- `set(std::initializer_list<T>)` (set.hpp:82–88). -/
def ofList (vals : List T) (vs : List T) : Outcome (CSet vals) :=
  vs.foldlM (fun s v => assignVal s v) (empty vals)
/-- `assigned()` (set.hpp:108–112). -/
def assigned (s : CSet vals) : Bool := s != 0#_
/-- `assign(set const&)` (set.hpp:116–123). -/
def assignSet (dbg : Bool) (s r : CSet vals) : Outcome (CSet vals) := do
  expectsDebug dbg (assigned r)
  return s ||| r
/-- `reset()` (set.hpp:95–100). -/
def reset (_s : CSet vals) : CSet vals := empty vals
/-- `reset(set const&)` (set.hpp:101–106). -/
def resetSet (_s r : CSet vals) : CSet vals := r
/-- `from_bits(unsigned long long)` (set.hpp:89–93): `std::bitset<n>(bits)` takes the low `n` bits, and fills up with zeros if `n > 64`. -/
def fromBits (vals : List T) (bits : BitVec 64) : CSet vals := bits.setWidth vals.length
/-- `to_bits()` (set.hpp:131–135): `std::bitset::to_ullong`; `none` if it throws `std::overflow_error` because a bit beyond the 64 of
`unsigned long long` is set. -/
def toBits (s : CSet vals) : Option (BitVec 64) := if s.toNat < 2 ^ 64 then some (s.setWidth 64) else none
/-- `contains_index(i)` (set.hpp:137–143). -/
def containsIndex (s : CSet vals) (i : Int) : Outcome Bool := do
  expects (decide (0 ≤ i) && decide (i < vals.length))
  return s.getLsbD i.toNat
/-- `contains(T value)` (set.hpp:144–148). -/
def containsVal (s : CSet vals) (v : T) : Outcome Bool := do
  let i ← findValueIndex vals v
  return s.getLsbD i
/-- `contains(set const&)` (set.hpp:149–153). -/
def containsSet (s r : CSet vals) : Bool := (s &&& r) == r
/-- `matches(set const&)` (set.hpp:159–163). -/
def matchesSet (s r : CSet vals) : Bool := s == r
/-- `matches(T value)` (set.hpp:154–158). -/
def matchesVal (s : CSet vals) (v : T) : Outcome Bool := do
  let r ← ofVal vals v
  return matchesSet s r
/-- `compare_eq` (set.hpp:64–72): (anyPossibleMismatch, anyMatch). -/
def compareEq (l r : CSet vals) : Bool × Bool :=
  let anyMatch := (l &&& r) != 0#_
  let cl := bitCount l
  let cr := bitCount r
  let anyPossibleMismatch := decide (cl > 1) || decide (cr > 1) || (cl == 1 && cr == 1 && !anyMatch)
  (anyPossibleMismatch, anyMatch)
/-- `operator ==` (set.hpp:186–202). -/
def opEq (dbg : Bool) (l r : CSet vals) : Outcome BoolSet := do
  expectsDebug dbg (assigned l && assigned r)
  let (mismatch, hit) := compareEq l r
  let res := BoolSet.empty
  let res := if hit then BoolSet.assign res true else res
  let res := if mismatch then BoolSet.assign res false else res
  return res
/-- `operator !=` (set.hpp:203–219). -/
def opNe (dbg : Bool) (l r : CSet vals) : Outcome BoolSet := do
  expectsDebug dbg (assigned l && assigned r)
  let (mismatch, hit) := compareEq l r
  let res := BoolSet.empty
  let res := if hit then BoolSet.assign res false else res
  let res := if mismatch then BoolSet.assign res true else res
  return res

/-- The loop of `value()` (set.hpp:168–183) over the remaining values; `lstate` is shifted right in each round.
The first set bit ends the search: it is the answer if no other bit remains. -/
def valueLoop {n : Nat} : List T → BitVec n → Outcome T
  | [], _ => .error .contract
  | v :: vs, lstate =>
    let bit0 := lstate.getLsbD 0
    let lstate' := lstate >>> 1
    if bit0 then (if lstate' == 0#n then .ok v else .error .contract)
    else valueLoop vs lstate'
/-- `value()` (set.hpp:164–184). -/
def value (dbg : Bool) (s : CSet vals) : Outcome T := do
  expectsDebug dbg (assigned s)
  valueLoop vals s

/-- `if_else(set<bool>, set<T>, set<T>)` (set.hpp:412–426). -/
def ifElse (dbg : Bool) (cond : BoolSet) (t f : CSet vals) : Outcome (CSet vals) := do
  let result := empty vals
  let result ← if BoolSet.possibly cond then assignSet dbg result t else pure result
  let result ← if BoolSet.possiblyNot cond then assignSet dbg result f else pure result
  return result

/-- `if_else(set<bool>, T, set<T>)` (set.hpp:427–432). -/
def ifElseVS (dbg : Bool) (cond : BoolSet) (t : T) (f : CSet vals) : Outcome (CSet vals) := do ifElse dbg cond (← ofVal vals t) f
/-- `if_else(set<bool>, set<T>, T)` (set.hpp:433–438). -/
def ifElseSV (dbg : Bool) (cond : BoolSet) (t : CSet vals) (f : T) : Outcome (CSet vals) := do ifElse dbg cond t (← ofVal vals f)

/-- free `assign(set&, set)` (set.hpp:444–449): overwrites, also if `lhs` has a value already. -/
def assignFree (lhs rhs : CSet vals) : CSet vals := resetSet lhs rhs
/-- free `assign_partial(set&, set)` (set.hpp:450–455). -/
def assignPartial (dbg : Bool) (lhs rhs : CSet vals) : Outcome (CSet vals) := assignSet dbg lhs rhs
/-- free `reset(set&, set)` (set.hpp:456–461). -/
def resetFree (lhs rhs : CSet vals) : CSet vals := resetSet lhs rhs

end CSet
end Intervals
