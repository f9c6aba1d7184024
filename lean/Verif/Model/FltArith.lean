import Verif.Model.Arith
import Verif.Model.Flt
/-!
# Floating-point arithmetic (IEEE 754 semantics, arbitrary monotone rounding)

`interval.hpp` and `math.hpp` use the built-in operators of `std::floating_point` types.  They are modelled as IEEE 754 operations:
exact result in the field `K`, then rounded by `Fmt.rnd`; NaN, infinities and signed zeros as in the standard (sections 6.1–6.3, 7).
Not modelled: excess precision, contraction into fused multiply-add, `-ffast-math`, NaN payloads, rounding towards negative infinity
for the sign of an exact zero sum (it is `+0` here, as in all other rounding modes), floating-point exceptions and traps.
-/
namespace Intervals
open CppVal

/-- A floating-point format: how an exact result is rounded.  Only these properties are used; every IEEE format with any fixed
rounding direction has them (`exactFmt`: no rounding at all; `binary64Fmt` in Verif/Lemmas/BinFmt.lean: a format with overflow, underflow and
rounding). -/
class Fmt (K : Type) [Field K] [LinearOrder K] where
  rnd : K → Fl K
  rnd_ne_nan : ∀ k, rnd k ≠ .nan
  rnd_mono : ∀ k k', k ≤ k' → le (rnd k) (rnd k') = true
  rnd_zero : rnd 0 = .num 0
  /-- a positive number does not round to something with a sign bit, a negative number does -/
  rnd_pos : ∀ k, 0 < k → rnd k ≠ .nzero
  rnd_neg : ∀ k, k < 0 → rnd k ≠ .num 0
  /-- the set of representable numbers is symmetric -/
  rnd_symm : ∀ k, rnd k = .num k → rnd (-k) = .num (-k)

namespace Fl
variable {K : Type} [Field K] [LinearOrder K]

/-- sign bit (of a non-NaN) -/
def signBit : Fl K → Bool
  | nan => false
  | ninf => true
  | pinf => false
  | nzero => true
  | num k => decide (k < 0)
/-- numeric value of a finite number (0 otherwise) -/
def val : Fl K → K
  | num k => k
  | _ => 0
/-- is it `+0` or `-0`? -/
def isZero : Fl K → Bool
  | nzero => true
  | num k => decide (k = 0)
  | _ => false
/-- `±inf` with the given sign bit -/
def infS (s : Bool) : Fl K := if s then ninf else pinf
/-- `±0` with the given sign bit -/
def zeroS (s : Bool) : Fl K := if s then nzero else num 0

/-- unary `-`: flips the sign bit. -/
def neg : Fl K → Fl K
  | nan => nan
  | ninf => pinf
  | pinf => ninf
  | nzero => num 0
  | num k => if k = 0 then nzero else num (-k)
/-- `std::abs` / `std::fabs` (math.hpp:77–82): clears the sign bit. -/
def abs (a : Fl K) : Fl K := if signBit a then neg a else a

variable [Fmt K]
/-- `a + b` -/
def add (a b : Fl K) : Fl K :=
  if isNan a || isNan b then nan
  else if isInf a then (if isInf b && (signBit a != signBit b) then nan else a)
  else if isInf b then b
  else if isZero a && isZero b then (if signBit a && signBit b then nzero else num 0)
  else Fmt.rnd (val a + val b)
/-- `a - b`, which IEEE 754 defines as `a + (-b)` -/
def sub (a b : Fl K) : Fl K := add a (neg b)
/-- `a * b` -/
def mul (a b : Fl K) : Fl K :=
  if isNan a || isNan b then nan
  else if isInf a || isInf b then (if isZero a || isZero b then nan else infS (signBit a != signBit b))
  else if isZero a || isZero b then zeroS (signBit a != signBit b)
  else Fmt.rnd (val a * val b)
/-- `a / b` -/
def div (a b : Fl K) : Fl K :=
  if isNan a || isNan b then nan
  else if isInf a then (if isInf b then nan else infS (signBit a != signBit b))
  else if isInf b then zeroS (signBit a != signBit b)
  else if isZero b then (if isZero a then nan else infS (signBit a != signBit b))
  else if isZero a then zeroS (signBit a != signBit b)
  else Fmt.rnd (val a / val b)

/-- built-in arithmetic of a floating-point type -/
instance instCppNum : CppNum (Fl K) where
  isFloat := true
  zero := num 0
  one := num 1
  nan := nan
  inf := pinf
  ninf := ninf
  neg a := .ok (neg a)
  add a b := .ok (add a b)
  sub a b := .ok (sub a b)
  mul a b := .ok (mul a b)
  div a b := .ok (div a b)

/-- the value is representable in the format (`num k` for a `k` that rounding leaves alone; special values are) -/
def Representable : Fl K → Prop
  | num k => Fmt.rnd k = num k
  | _ => True
end Fl

/-- Exact arithmetic: no rounding, no overflow. -/
@[reducible] def exactFmt (K : Type) [Field K] [LinearOrder K] : Fmt K where
  rnd k := .num k
  rnd_ne_nan k := by simp
  rnd_mono k k' h := by simpa using h
  rnd_zero := rfl
  rnd_pos k _ := by simp
  rnd_neg k h := by simp; intro h'; simp [h'] at h
  rnd_symm k _ := rfl

end Intervals
