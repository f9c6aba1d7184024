import Verif.Model.Outcome
/-!
# `set<bool>`: four-valued logic (include/intervals/set.hpp, include/intervals/detail/set.hpp)
-/
namespace Intervals

/-- `set<bool>`: `std::bitset<2>` with bit 0 for `false` and bit 1 for `true`
(set.hpp:35–45; the states are listed in detail/set.hpp:16–21). -/
abbrev BoolSet := BitVec 2

namespace BoolSet

/-- `find_value_index` for `bool` (set.hpp:52–63) with `values = { false, true }`. -/
def index (b : Bool) : Nat := if b then 1 else 0
/-- `set<bool>{ }` (set.hpp:75–77). -/
def empty : BoolSet := 0#2
/-- `set<bool>(value)` (set.hpp:78–81). -/
def single (b : Bool) : BoolSet := 1#2 <<< index b
/-- `set{ false, true }` (set.hpp:82–88). -/
def both : BoolSet := 3#2
/-- `assign(T value)` (set.hpp:124–129). -/
def assign (s : BoolSet) (b : Bool) : BoolSet := s ||| (1#2 <<< index b)
/-- `contains(T value)` (set.hpp:144–148). -/
def contains (s : BoolSet) (b : Bool) : Bool := s.getLsbD (index b)
/-- `assigned()` (set.hpp:108–112). -/
def assigned (s : BoolSet) : Bool := s != 0#2
/-- `matches(set)` (set.hpp:159–163). -/
def matchesSet (s t : BoolSet) : Bool := s == t

/-- detail/set.hpp:49 -/
def lutAnd : BitVec 32 := 0b11110100111001000101010000000000#32
/-- detail/set.hpp:50 -/
def lutOr  : BitVec 32 := 0b11101100101010001110010000000000#32
/-- detail/set.hpp:51 -/
def lutXor : BitVec 32 := 0b11111100110110001110010000000000#32
/-- detail/set.hpp:52; no operator uses this table: `==` on `set<bool>` is the operator of all sets (set.hpp:187–220) -/
def lutEq  : BitVec 32 := 0b11111100111001001101100000000000#32
/-- detail/set.hpp:53; no operator uses this table -/
def lutNeq : BitVec 32 := 0b11111100110110001110010000000000#32
/-- detail/set.hpp:54 -/
def lutGeq : BitVec 32 := 0b11101100101001001010100000000000#32
/-- detail/set.hpp:55 -/
def lutGt  : BitVec 32 := 0b11110100010101001110010000000000#32
/-- detail/set.hpp:57 -/
def lutNot : BitVec 8  := 0b11011000#8

/-- `set<bool>::from_bits(bits)` (set.hpp:89–93): `std::bitset<2>` keeps the low two bits. -/
def fromBits {w : Nat} (bits : BitVec w) : BoolSet := bits.setWidth 2
/-- `to_bits()` (set.hpp:131–135). -/
def toBits (s : BoolSet) : Nat := s.toNat
/-- encoding of a `bool` operand, `1 + int(y)` (set.hpp:277–285 and the other mixed overloads). -/
def boolBits (b : Bool) : Nat := 1 + (if b then 1 else 0)

/-- `from_bits((lut >> (2*x + 8*y)) & 0b11u)` — the common body of the binary operators (set.hpp:271–375). -/
def lookup (lut : BitVec 32) (x y : Nat) : BoolSet := fromBits ((lut >>> (2*x + 8*y)) &&& 0b11#32)

/-- `operator !` without its debug precondition (set.hpp:254–260). -/
def notCore (x : BoolSet) : BoolSet := fromBits ((lutNot >>> (2*toBits x)) &&& 0b11#8)
/-- `operator !(set<bool>)` (set.hpp:254–260): `gsl_ExpectsDebug(x.assigned())`. -/
def not (dbg : Bool) (x : BoolSet) : Outcome BoolSet := do
  expectsDebug dbg (assigned x)
  return notCore x

/-- `operator &(set<bool>, set<bool>)` (set.hpp:331–335). -/
def and (x y : BoolSet) : BoolSet := lookup lutAnd (toBits x) (toBits y)
/-- `operator &(set<bool>, bool)` (set.hpp:336–340). -/
def andSB (x : BoolSet) (y : Bool) : BoolSet := lookup lutAnd (toBits x) (boolBits y)
/-- `operator &(bool, set<bool>)` (set.hpp:341–345); the table is indexed with the operands exchanged. -/
def andBS (x : Bool) (y : BoolSet) : BoolSet := lookup lutAnd (toBits y) (boolBits x)
/-- `operator |(set<bool>, set<bool>)` (set.hpp:346–350). -/
def or (x y : BoolSet) : BoolSet := lookup lutOr (toBits x) (toBits y)
/-- `operator |(set<bool>, bool)` (set.hpp:351–355). -/
def orSB (x : BoolSet) (y : Bool) : BoolSet := lookup lutOr (toBits x) (boolBits y)
/-- `operator |(bool, set<bool>)` (set.hpp:356–360). -/
def orBS (x : Bool) (y : BoolSet) : BoolSet := lookup lutOr (toBits y) (boolBits x)
/-- `operator ^(set<bool>, set<bool>)` (set.hpp:361–365). -/
def xor (x y : BoolSet) : BoolSet := lookup lutXor (toBits x) (toBits y)
/-- `operator ^(set<bool>, bool)` (set.hpp:366–370). -/
def xorSB (x : BoolSet) (y : Bool) : BoolSet := lookup lutXor (toBits x) (boolBits y)
/-- `operator ^(bool, set<bool>)` (set.hpp:371–375). -/
def xorBS (x : Bool) (y : BoolSet) : BoolSet := lookup lutXor (toBits y) (boolBits x)
/-- `operator >=(set<bool>, set<bool>)` (set.hpp:271–275). -/
def geq (x y : BoolSet) : BoolSet := lookup lutGeq (toBits x) (toBits y)
/-- `operator >=(set<bool>, bool)` (set.hpp:276–280). -/
def geqSB (x : BoolSet) (y : Bool) : BoolSet := lookup lutGeq (toBits x) (boolBits y)
/-- `operator >=(bool, set<bool>)` (set.hpp:281–285). -/
def geqBS (x : Bool) (y : BoolSet) : BoolSet := lookup lutGeq (boolBits x) (toBits y)
/-- `operator >(set<bool>, set<bool>)` (set.hpp:286–290). -/
def gt (x y : BoolSet) : BoolSet := lookup lutGt (toBits x) (toBits y)
/-- `operator >(set<bool>, bool)` (set.hpp:291–295). -/
def gtSB (x : BoolSet) (y : Bool) : BoolSet := lookup lutGt (toBits x) (boolBits y)
/-- `operator >(bool, set<bool>)` (set.hpp:296–300). -/
def gtBS (x : Bool) (y : BoolSet) : BoolSet := lookup lutGt (boolBits x) (toBits y)
/-- `operator <=(set<bool>, set<bool>)` (set.hpp:301–305): the `>=` table with exchanged operands. -/
def leq (x y : BoolSet) : BoolSet := lookup lutGeq (toBits y) (toBits x)
/-- `operator <=(set<bool>, bool)` (set.hpp:306–310). -/
def leqSB (x : BoolSet) (y : Bool) : BoolSet := lookup lutGeq (boolBits y) (toBits x)
/-- `operator <=(bool, set<bool>)` (set.hpp:311–315). -/
def leqBS (x : Bool) (y : BoolSet) : BoolSet := lookup lutGeq (toBits y) (boolBits x)
/-- `operator <(set<bool>, set<bool>)` (set.hpp:316–320): the `>` table with exchanged operands. -/
def lt (x y : BoolSet) : BoolSet := lookup lutGt (toBits y) (toBits x)
/-- `operator <(set<bool>, bool)` (set.hpp:321–325). -/
def ltSB (x : BoolSet) (y : Bool) : BoolSet := lookup lutGt (boolBits y) (toBits x)
/-- `operator <(bool, set<bool>)` (set.hpp:326–330). -/
def ltBS (x : Bool) (y : BoolSet) : BoolSet := lookup lutGt (toBits y) (boolBits x)

/-- `possibly(set<bool>)` (set.hpp:381–385). -/
def possibly (x : BoolSet) : Bool := contains x true
/-- `possibly_not(set<bool>)` (set.hpp:386–390). -/
def possiblyNot (x : BoolSet) : Bool := contains x false
/-- `always(set<bool>)` (set.hpp:391–395). -/
def always (x : BoolSet) : Bool := !contains x false
/-- `never(set<bool>)` (set.hpp:396–400). -/
def never (x : BoolSet) : Bool := !contains x true
/-- `contingent(set<bool>)` (set.hpp:401–405). -/
def contingent (x : BoolSet) : Bool := matchesSet x both
/-- `vacuous(set<bool>)` (set.hpp:406–410). -/
def vacuous (x : BoolSet) : Bool := !assigned x

end BoolSet

/-- Projections of a plain `bool` (logic.hpp:16–45). -/
def possiblyB (x : Bool) : Bool := x
/-- logic.hpp:21–25 -/
def possiblyNotB (x : Bool) : Bool := !x
/-- logic.hpp:26–30 -/
def alwaysB (x : Bool) : Bool := x
/-- logic.hpp:31–35 -/
def neverB (x : Bool) : Bool := !x
/-- logic.hpp:36–40 -/
def contingentB (_ : Bool) : Bool := false
/-- logic.hpp:41–45 -/
def vacuousB (_ : Bool) : Bool := false

end Intervals
