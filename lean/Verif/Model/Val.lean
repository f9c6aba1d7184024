/-!
# Value types and their C++ comparison operators
-/
namespace Intervals

/-- The built-in comparison operators `<`, `<=`, `==` of an `interval_value` type
(include/intervals/concepts.hpp `interval_value`: floating-point, integral, random-access iterator).
They are Boolean functions and need not be a total order: a NaN compares false with everything. -/
class CppVal (T : Type _) where
  lt : T → T → Bool
  le : T → T → Bool
  eq : T → T → Bool

namespace CppVal
variable {T : Type _} [CppVal T]
/-- C++ `a > b`. -/
def gt (a b : T) : Bool := lt b a
/-- C++ `a >= b`. -/
def ge (a b : T) : Bool := le b a
/-- C++ `a != b`. -/
def ne (a b : T) : Bool := !eq a b
end CppVal

open CppVal

/-- Laws of the comparison operators, satisfied by integers, iterators (of one range) and IEEE floats:
`v <= v` fails exactly for NaN; on all other values `<=` is a total preorder, `<` its strict part and `==` its equivalence;
every comparison with a NaN is false. -/
class CppOrder (T : Type _) [CppVal T] : Prop where
  le_trans : ∀ a b c : T, le a b = true → le b c = true → le a c = true
  le_total : ∀ a b : T, le a a = true → le b b = true → le a b = true ∨ le b a = true
  le_left : ∀ a b : T, le a b = true → le a a = true
  le_right : ∀ a b : T, le a b = true → le b b = true
  lt_iff : ∀ a b : T, lt a b = true ↔ (le a a = true ∧ le b b = true ∧ le b a = false)
  eq_iff : ∀ a b : T, eq a b = true ↔ (le a b = true ∧ le b a = true)

/-- Limits used to encode the unassigned interval: `[inf,-inf]` for floats (interval.hpp:716–728), `[max,min]` for integers
(interval.hpp:783–797). -/
class CppLimits (T : Type _) where
  top : T
  bot : T

/-- Laws of the limits: they are ordinary values, bound every ordinary value, and differ. -/
class CppLawfulLimits (T : Type _) [CppVal T] [CppLimits T] : Prop where
  le_top : ∀ a : T, le a a = true → le a CppLimits.top = true
  bot_le : ∀ a : T, le a a = true → le CppLimits.bot a = true
  bot_lt_top : lt (CppLimits.bot : T) CppLimits.top = true

/-- `++value` / `--value` on a discrete value (detail/interval.hpp:244–269). -/
class CppStep (T : Type _) where
  /-- stepping up; `none` models overflow / leaving the range (undefined behaviour) -/
  succ : T → Option T
  pred : T → Option T

section
variable {T : Type _} [CppVal T]

/-- `intervals::min` (math.hpp:52–57): `rhs < lhs ? rhs : lhs`.  `std::min(lhs, rhs)` returns the same expression. -/
def cmin (lhs rhs : T) : T := if lt rhs lhs then rhs else lhs

/-- `intervals::max` (math.hpp:58–63): `lhs < rhs ? rhs : lhs`.  `std::max(lhs, rhs)` returns the same expression. -/
def cmax (lhs rhs : T) : T := if lt lhs rhs then rhs else lhs

end
end Intervals
