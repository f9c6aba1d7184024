import Verif.Model.Overload
import Mathlib.Data.List.Forall2
/-!
# Specification for C75: what the language guarantees about types, and how set types correspond to value types
-/
namespace Intervals.Spec
open Intervals.Traits Intervals.Overload CppType

/-- Value types for intervals: floating-point types, random-access iterators, and signed integer types that are not narrower than `int` (built-in operators
do not promote them). -/
def Wide (env : Env) (v : CppType) : Prop := okInterval env v = true ∧ (isArithValue v = true → env.arith v v = v)

/-- A signed integer type that is narrower than `int`: the built-in operators promote it to `int`, which does not fit. -/
def Short (env : Env) (n : Nat) : Prop := env.signed n = true ∧ env.arith (int n) (int n) = env.arith .bool .bool ∧
  env.narrowing (env.arith .bool .bool) (int n) = true

/-- What C++ guarantees about the types involved. -/
structure EnvOk (env : Env) : Prop where
  /-- iterators and arithmetic types have no common type that is an arithmetic type -/
  common_iter : ∀ ts c, (∃ t ∈ ts, isIterValue t = true) → env.common ts = some c → isArithValue c = false
  /-- the common type of value types is not a class of this library -/
  common_value : ∀ ts c, (∀ t ∈ ts, isIntervalValue t = true) → env.common ts = some c → isInterval c = false ∧ isCondition c = false ∧ isSetInst c = false
  /-- a type is its own common type -/
  common_same : ∀ v n, isScalar v = true → env.common (List.replicate (n + 1) v) = some v
  /-- the common type of two arithmetic types is the type of the built-in operators, if there is no promotion -/
  common_arith : ∀ v w, Wide env v → Wide env w → isArithValue v = true → isArithValue w = true → env.common [v, w] = some (env.arith v w)
  /-- the built-in operators on arithmetic types give an arithmetic type, a signed one for signed types -/
  arith_ok : ∀ v w, isArithValue v = true → isArithValue w = true → isArithValue (env.arith v w) = true ∧
    (okInterval env v = true → okInterval env w = true → okInterval env (env.arith v w) = true)
  /-- `sign` takes part as an `int` -/
  arith_sign : ∀ v w, isArithValue v = true ∨ v = signT → isArithValue w = true ∨ w = signT → isArithValue (env.arith v w) = true
  /-- the conversion of a type to itself is not narrowing -/
  narrowing_self : ∀ t, env.narrowing t t = false
  /-- the conversion of `int` to a signed integer type that is not narrower is not narrowing -/
  narrowing_int : ∀ n, Wide env (int n) → env.narrowing (env.arith .bool .bool) (int n) = false
  /-- operators on types that are not narrower than `int` give such a type -/
  arith_wide : ∀ v w, Wide env v → Wide env w → isArithValue v = true → isArithValue w = true → Wide env (env.arith v w)
  /-- the difference of iterators is a signed integer -/
  diff_ok : ∀ n, isIntValue (env.diff (iter n)) = true ∧ okInterval env (env.diff (iter n)) = true
  /-- the values of intervals can be compared -/
  relational_self : ∀ v, okInterval env v = true → env.relational v v = true
  /-- sets, intervals and conditions do not convert to `bool` -/
  toBool_set : ∀ t, isInterval t = true ∨ isCondition t = true ∨ isSetInst t = true → env.toBool t = false

/-- `s` is a type of sets of values of type `v`. -/
inductive SetFor : CppType → CppType → Prop
  | interval (v : CppType) (h : isIntervalValue v = true) (hb : v ≠ .bool) : SetFor v (.interval v)
  | cinterval (v : CppType) (h : isIntervalValue v = true) (hb : v ≠ .bool) : SetFor v (.cinterval v)
  | enum (n : Nat) : SetFor (.enum n) (.set (.enum n) 0)
  | bool : SetFor .bool (.set .bool 0)
  | cond (k : CondKind) (l r : CppType) : SetFor .bool (.cond k l r)

/-- `t` is the value type `v`, or a type of sets of values of this type. -/
def Variant (v t : CppType) : Prop := t = v ∨ SetFor v t

/-- Is it neither a set, nor an interval, nor a condition? -/
def Plain (t : CppType) : Prop := isInterval t = false ∧ isCondition t = false ∧ isSetInst t = false

/-- How the type `s` of the result of a call with sets relates to the type `r` of the result with values: functions that map sets to values give `r` again,
logical operators a set of truth values (the result for values is an `int`), all others a set of values of type `r`. -/
def ResultFor (f : Fn) (r s : CppType) : Prop :=
  match f with
  | .proj | .inf => s = r
  | .log _ => SetFor .bool s
  | _ => SetFor r s

/-- Generic code: a call that compiles with values of the types `vs` compiles with sets of such values in place of some of them, and gives a set of results. -/
def Lifts (env : Env) (f : Fn) (vs : List CppType) : Prop :=
  ∀ ts r, List.Forall₂ Variant vs ts → (∃ t ∈ ts, ¬ Plain t) → call env f vs = .ok r → ∃ s, call env f ts = .ok s ∧ ResultFor f r s

/-- `assign`, `constrain` treat values and sets differently by design. -/
def isGeneric : Fn → Bool
  | .assign | .constrain | .constrainRvalue => false
  | _ => true

end Intervals.Spec
