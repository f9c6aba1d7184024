import Verif.Model.Mixed
import Verif.Model.Narrow
import Verif.Model.Constraint
/-!
# Scalars of unsigned integer type as operands (include/intervals/interval.hpp:47–186, 205–414, detail/interval.hpp:244–269, 491–540)

There are no intervals of unsigned types (interval.hpp:786), but `interval_value` (concepts.hpp:27–33) admits every integral type, so that unsigned
scalars are operands: `i < v.size()`, `x < 10u`, `x + 1u`.  The arithmetic operators return an interval of the common type, which hence has to be a
signed or floating-point type; the comparison operators return a condition and compile for every pair of types.  Constraining an interval with such a
condition again requires that the common type is the value type of the interval: `UInterval{ xlo, std::min<T>(…) }` (detail/interval.hpp:461, 482, 511, 531,
562) would narrow the common type `T` otherwise.
-/
namespace Intervals
open CppVal

/-- An unsigned integer type with `m` bits. -/
abbrev UInt (m : Nat) := BInt 0 ((2:Int)^m - 1)

/-- The value of an `m`-bit unsigned type congruent to `v` modulo `2^m`. -/
def UInt.wrap (m : Nat) (v : Int) : UInt m :=
  have h0 : (0:Int) < 2^m := Int.pow_pos (by decide)
  ⟨v % 2^m, Int.emod_nonneg v (by omega), by have := Int.emod_lt_of_pos v h0; omega⟩

/-- Built-in arithmetic of an unsigned type that is not narrower than `int` (C++20 [basic.fundamental]): modulo `2^m`. -/
instance (m : Nat) : CppNum (UInt m) where
  isFloat := false
  zero := UInt.wrap m 0
  one := UInt.wrap m 1
  nan := UInt.wrap m 0
  inf := UInt.wrap m 0
  ninf := UInt.wrap m 0
  neg a := .ok (UInt.wrap m (-a.val))
  add a b := .ok (UInt.wrap m (a.val + b.val))
  sub a b := .ok (UInt.wrap m (a.val - b.val))
  mul a b := .ok (UInt.wrap m (a.val * b.val))
  div a b := if b.val = 0 then .error .ub else .ok (UInt.wrap m (a.val / b.val))

/-- the conversion of a signed value to an unsigned type with `m` bits (C++20 [conv.integral]) -/
def toUnsignedV {n : Nat} (m : Nat) (v : SInt n) : UInt m := UInt.wrap m v.val
/-- the conversion of a value of an unsigned type with `m` bits to a signed type with at least as many value bits -/
def ofUnsignedV {m k : Nat} (h : m ≤ k) (v : UInt m) : SInt k :=
  ⟨v.val, by have := v.ge; have : (0:Int) < 2^k := Int.pow_pos (by decide); omega,
    by have := v.le; have := pow_le_pow_right₀ (show (1:Int) ≤ 2 by decide) h; omega⟩
/-- the conversion of a value of an unsigned type to a floating-point format: rounds -/
def unsignedToFloatV {K : Type} [Field K] [LinearOrder K] [Fmt K] {m : Nat} (v : UInt m) : Fl K := Fmt.rnd (v.val : K)

/-- `--value` (detail/interval.hpp:257–269) on an unsigned scalar -/
def predU {m : Nat} (v : UInt m) : UInt m := UInt.wrap m (v.val - 1)
/-- `++value` (detail/interval.hpp:244–256) on an unsigned scalar -/
def succU {m : Nat} (v : UInt m) : UInt m := UInt.wrap m (v.val + 1)

variable {T : Type _} [CppVal T]
/-- `constrain(x, x < c)` (interval.hpp:135–147, 1499–1507, detail/interval.hpp:491–516) for an interval `x` and an unsigned scalar `c`; `cv` is the conversion to
the value type of `x`, which is the common type.  Unless `x < c` is possible, `gsl_Assert(optional)` fails. -/
def constrainLtU {m : Nat} (cv : UInt m → T) (dbg : Bool) (x : Ivl T) (c : UInt m) : Outcome (Ivl T) := do
  let b ← opLt dbg (.ivl x) (.scalar (cv c))
  if BoolSet.contains b true then
    expectsDebug dbg (lt x.lo (cv c))
    Ivl.make x.lo (cmin x.hi (cv (predU c)))
  else .error .contract
/-- `constrain(x, x > c)` (interval.hpp:161–173: `c < x`; detail/interval.hpp:517–536). -/
def constrainGtU {m : Nat} (cv : UInt m → T) (dbg : Bool) (x : Ivl T) (c : UInt m) : Outcome (Ivl T) := do
  let b ← opGt dbg (.ivl x) (.scalar (cv c))
  if BoolSet.contains b true then
    expectsDebug dbg (lt (cv c) x.hi)
    Ivl.make (cmax (cv (succU c)) x.lo) x.hi
  else .error .contract
end Intervals
