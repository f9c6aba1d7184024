import Verif.Model.Arith
import Verif.Model.IntVal
/-!
# Arithmetic of signed integer types
-/
namespace Intervals
open CppVal

/-- The integer `v` as a value of an `n`-bit signed type if it is representable. -/
def SInt.of (n : Nat) (v : Int) : Outcome (SInt n) := BInt.ofInt _ _ v

/-- Built-in arithmetic of a signed integer type with `n` value bits (C++20 [expr]): a result that is not representable is undefined
behaviour; division truncates towards zero, division by zero is undefined.  Integral types narrower than `int` are excluded: their
operations are performed in `int`; most list-initialisations in interval.hpp:202–412 would be ill-formed narrowing conversions, and the
operators that compile nevertheless are in `Model/NarrowInt`.
(`one` is only meaningful for `n ≥ 1`; it is the value 1 for every actual type and 0 in the degenerate model type with `n = 0`.) -/
instance (n : Nat) : CppNum (SInt n) where
  isFloat := false
  zero := ⟨0, by have : (0:Int) < 2^n := Int.pow_pos (by decide); omega, by have : (0:Int) < 2^n := Int.pow_pos (by decide); omega⟩
  one := ⟨if n = 0 then 0 else 1, by
      have : (0:Int) < 2^n := Int.pow_pos (by decide)
      split <;> omega, by
      split
      · next h => subst h; decide
      · next h =>
        obtain ⟨m, rfl⟩ := Nat.exists_eq_succ_of_ne_zero h
        have : (0:Int) < 2^m := Int.pow_pos (by decide)
        rw [Int.pow_succ]; omega⟩
  nan := ⟨0, by have : (0:Int) < 2^n := Int.pow_pos (by decide); omega, by have : (0:Int) < 2^n := Int.pow_pos (by decide); omega⟩
  inf := ⟨0, by have : (0:Int) < 2^n := Int.pow_pos (by decide); omega, by have : (0:Int) < 2^n := Int.pow_pos (by decide); omega⟩
  ninf := ⟨0, by have : (0:Int) < 2^n := Int.pow_pos (by decide); omega, by have : (0:Int) < 2^n := Int.pow_pos (by decide); omega⟩
  neg a := SInt.of n (-a.val)
  add a b := SInt.of n (a.val + b.val)
  sub a b := SInt.of n (a.val - b.val)
  mul a b := SInt.of n (a.val * b.val)
  div a b := if b.val = 0 then .error .ub else SInt.of n (a.val.tdiv b.val)

/-- `std::abs(T)` on a signed integer type (math.hpp:77–82): undefined if `-x` is not representable. -/
def SInt.abs {n : Nat} (x : SInt n) : Outcome (SInt n) := if x.val < 0 then SInt.of n (-x.val) else .ok x

end Intervals
