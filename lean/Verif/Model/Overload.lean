import Verif.Model.Traits
/-!
# Concepts and overload resolution (include/intervals/concepts.hpp, detail/concepts.hpp, detail/concepts-internal.hpp and the
constraints of the functions of interval.hpp, set.hpp, sign.hpp, logic.hpp, math.hpp)

Which overload a call selects, and the type of its result.  Simplifications: argument types are without `const` and references, except that for `constrain`
an argument is an lvalue or an rvalue; only the overloads of this library and the built-in operators are candidates; the rewritten candidates of `==` and
`!=` are left out (they have the same parameters in the other order and lose against the candidate that is not rewritten).
-/
namespace Intervals.Overload
open Intervals.Traits CppType

/-- What the language and the user's types contribute. -/
structure Env where
  /-- `std::common_type_t` of value types -/
  common : List CppType → Option CppType
  /-- type of the built-in binary arithmetic operators on two arithmetic types (C++20 [expr.arith.conv]), after integral promotion -/
  arith : CppType → CppType → CppType
  /-- is the conversion a narrowing conversion (C++20 [dcl.init.list]), not allowed in list-initialization? -/
  narrowing : CppType → CppType → Bool
  /-- concept `detail::relational` of two value types (detail/concepts-internal.hpp:17–25) -/
  relational : CppType → CppType → Bool
  /-- `std::iter_difference_t` -/
  diff : CppType → CppType
  /-- does the type, other than `bool`, implicitly convert to `bool`? -/
  toBool : CppType → Bool
  /-- `std::convertible_to` of value types -/
  convertible : CppType → CppType → Bool
  /-- is the integer type signed? (`interval<T>` rejects other integer types, interval.hpp:786) -/
  signed : Nat → Bool

/-- the enumeration `sign` (sign.hpp:19–24), an unscoped enumeration -/
def signT : CppType := enum 0
/-- `set<sign>` -/
def setSignT : CppType := .set signT 0
/-- `set<bool>` -/
def setBoolT : CppType := .set .bool 0
/-- the result of a function without result -/
def voidT : CppType := other 0

/-! ## Concepts -/

/-- concept `floating_point_interval_value` (concepts.hpp:24–25) -/
def isFltValue : CppType → Bool
  | flt _ => true
  | _ => false
/-- concept `integral_interval_value` (concepts.hpp:26–27) -/
def isIntValue : CppType → Bool
  | .bool | int _ => true
  | _ => false
/-- concept `arithmetic_interval_value` (concepts.hpp:28–29); also concept `arithmetic` (concepts.hpp:19–20) -/
def isArithValue (t : CppType) : Bool := isFltValue t || isIntValue t
/-- concept `iterator_interval_value` (concepts.hpp:30–31) -/
def isIterValue : CppType → Bool
  | iter _ => true
  | _ => false
/-- concept `any_interval` (concepts.hpp:35–36) -/
def anyInterval (ts : List CppType) : Bool := ts.any isInterval
/-- concept `floating_point_interval` (concepts.hpp:37–38) -/
def isFltInterval (t : CppType) : Bool := isInterval t && (intervalValueT t).any isFltValue
/-- concept `integral_interval` (concepts.hpp:39–40) -/
def isIntInterval (t : CppType) : Bool := isInterval t && (intervalValueT t).any isIntValue
/-- concept `arithmetic_interval` (concepts.hpp:41–42) -/
def isArithInterval (t : CppType) : Bool := isInterval t && (intervalValueT t).any isArithValue
/-- concept `iterator_interval` (concepts.hpp:43–44) -/
def isIterInterval (t : CppType) : Bool := isInterval t && (intervalValueT t).any isIterValue
/-- concept `integral_interval_arg` (concepts.hpp:50–51) -/
def isIntArg (t : CppType) : Bool := isIntValue t || isIntInterval t
/-- concept `iterator_interval_arg` (concepts.hpp:54–55) -/
def isIterArg (t : CppType) : Bool := isIterValue t || isIterInterval t
/-- concept `set_arg<ArgT, bool>` (concepts.hpp:60–61) -/
def isSetArgBool : CppType → Bool
  | .bool => true
  | .set e r => decide (e = .bool ∧ r = 0)
  | .cond _ _ _ => true
  | _ => false
/-- `std::derived_from<T, detail::condition>` -/
def isCondition : CppType → Bool
  | .cond _ _ _ => true
  | _ => false
/-- concept `detail::relational_values` (detail/concepts-internal.hpp:26–30) -/
def relationalValues (env : Env) (l r : CppType) : Bool :=
  match intervalArgValueT l, intervalArgValueT r with
  | some v, some w => env.relational v w
  | _, _ => false
/-- concept `detail::same_values` (detail/concepts-internal.hpp:32–36) -/
def sameValues (l r : CppType) : Bool :=
  match intervalArgValueT l, intervalArgValueT r with
  | some v, some w => decide (v = w)
  | _, _ => false
/-- concept `detail::arithmetic_operands` (detail/concepts-internal.hpp:38–40) -/
def arithmeticOperands (env : Env) (ts : List CppType) : Bool :=
  ts.all isIntervalArg && (commonIntervalValueT env.common ts).any isArithValue
/-- concept `detail::floating_point_operands` (detail/concepts-internal.hpp:42–44) -/
def floatingPointOperands (env : Env) (ts : List CppType) : Bool :=
  ts.all isIntervalArg && (commonIntervalValueT env.common ts).any isFltValue

/-! ## Implicit conversions

The rank of the implicit conversion of an argument to a parameter type: 0 identity, 1 identity where an rvalue is bound to a `const&` parameter and a
`const&&` parameter would be better, 2 promotion or conversion to a base class, 3 standard conversion, 4 conversion by a constructor; `none` if there is none
(C++20 [over.ics.rank]). -/

/-- to `bool` -/
def toBoolRank (env : Env) (t : CppType) : Option Nat :=
  if t = .bool then some 0 else if env.toBool t then some 3 else none
/-- to `set<bool>`: the constructor from `bool` (set.hpp:79) is not explicit -/
def toSetBoolRank (env : Env) (t : CppType) : Option Nat :=
  if t = setBoolT then some 0 else if isCondition t then some 2 else (toBoolRank env t).map fun _ => 4
/-- to `sign` -/
def toSignRank (t : CppType) : Option Nat := if t = signT then some 0 else none
/-- to `set<sign>`: the constructor from `sign` (set.hpp:79) is not explicit -/
def toSetSignRank (t : CppType) : Option Nat := if t = setSignT then some 0 else if t = signT then some 4 else none
/-- of an operand of a built-in arithmetic operator; `sign` is promoted to `int` -/
def arithRank (t : CppType) : Option Nat := if isArithValue t then some 0 else if t = signT then some 2 else none

/-! ## Overload resolution -/

/-- a candidate, given the arguments -/
structure Cand where
  /-- the ranks of the conversions of the arguments, `none` if the candidate is not viable -/
  ranks : Option (List Nat)
  /-- 0 function template, 1 more specialized function template, 2 function that is not a template or built-in operator -/
  spec : Nat
  /-- the type of the result, `none` if the function fails to compile with these arguments -/
  res : Option CppType

/-- no argument has a worse conversion (C++20 [over.match.best]) -/
def leRanks : List Nat → List Nat → Bool
  | [], [] => true
  | a :: as, b :: bs => decide (a ≤ b) && leRanks as bs
  | _, _ => false
/-- is the viable candidate with ranks `a` better than that with ranks `b`? -/
def better (a b : List Nat × Cand) : Bool :=
  leRanks a.1 b.1 && (!leRanks b.1 a.1 || decide (b.2.spec < a.2.spec))
/-- the viable candidates -/
def viable (cs : List Cand) : List (List Nat × Cand) := cs.filterMap fun c => c.ranks.map fun r => (r, c)

/-- outcome of compiling a call -/
inductive Res where
  | noOverload
  | ambiguous
  /-- the selected overload does not compile (`static_assert`, narrowing, missing constructor) -/
  | illFormed
  | ok (t : CppType)
deriving DecidableEq

/-- Selects the candidate that is better than all others. -/
def pick : List (List Nat × Cand) → List (List Nat × Cand) → Option Cand
  | _, [] => none
  | before, c :: after => if before.all (better c) && after.all (better c) then some c.2 else pick (before ++ [c]) after
def resolve (cs : List Cand) : Res :=
  match viable cs with
  | [] => .noOverload
  | vs => match pick [] vs with
    | none => .ambiguous
    | some c => c.res.elim .illFormed .ok

/-- a function template whose parameters are forwarding references or are deduced: every argument matches exactly if the constraint holds -/
def tmpl (ok : Bool) (n : Nat) (res : Option CppType) : Cand := ⟨if ok then some (List.replicate n 0) else none, 0, res⟩
/-- combines the conversion ranks of two arguments -/
def ranks2 (a b : Option Nat) : Option (List Nat) := do some [← a, ← b]
def ranks3 (a b c : Option Nat) : Option (List Nat) := do some [← a, ← b, ← c]
/-- rank of an argument of a deduced parameter -/
def exact (ok : Bool) : Option Nat := if ok then some 0 else none

/-! ## The functions -/

/-- Can `interval<V>` be instantiated (interval.hpp:716, 783–785, 853)? -/
def okInterval (env : Env) : CppType → Bool
  | flt _ | iter _ => true
  | int n => env.signed n
  | _ => false
/-- `interval<V>` as the result of a function -/
def mkInterval (env : Env) (v : CppType) : Option CppType := if okInterval env v then some (interval v) else none
/-- `common_interval_t<Ts...>` as the result of a function -/
def mkCommon (env : Env) (ts : List CppType) : Option CppType := (commonIntervalValueT env.common ts).bind (mkInterval env)
/-- `common_interval_t<X, Y>{ … }` with bounds computed by a built-in operator: no narrowing conversion -/
def mkCommonArith (env : Env) (x y : CppType) : Option CppType := do
  let c ← commonIntervalValueT env.common [x, y]
  let v ← intervalArgValueT x
  let w ← intervalArgValueT y
  if env.narrowing (env.arith v w) c then none else mkInterval env c
/-- `interval_t<X>{ … }` with bounds computed by a built-in operator from the bounds -/
def mkSelfArith (env : Env) (x : CppType) : Option CppType := do
  let v ← intervalValueT x
  if env.narrowing (env.arith v v) v then none else mkInterval env v

/-- built-in binary arithmetic operator; the result of an operand of type `sign` is not needed: an overload of sign.hpp is better -/
def builtinArith (env : Env) (x y : CppType) : Cand := ⟨ranks2 (arithRank x) (arithRank y), 2, some (env.arith x y)⟩

/-- `x + y`: interval.hpp:205–219, 416–422, 425–431; built-in `it + n`, `n + it` -/
def addCands (env : Env) (x y : CppType) : List Cand := [
  tmpl (anyInterval [x, y] && arithmeticOperands env [x, y]) 2 (mkCommonArith env x y),
  tmpl (anyInterval [x, y] && isIterArg x && isIntArg y) 2 ((intervalArgValueT x).bind (mkInterval env)),
  tmpl (anyInterval [x, y] && isIntArg x && isIterArg y) 2 ((intervalArgValueT y).bind (mkInterval env)),
  builtinArith env x y,
  ⟨if isIterValue x && isIntValue y then some [0, 0] else none, 2, some x⟩,
  ⟨if isIntValue x && isIterValue y then some [0, 0] else none, 2, some y⟩]
/-- `x - y`: interval.hpp:222–236, 434–440, 444–452; built-in `it - n`, `it - it` -/
def subCands (env : Env) (x y : CppType) : List Cand := [
  tmpl (anyInterval [x, y] && arithmeticOperands env [x, y]) 2 (mkCommonArith env x y),
  tmpl (anyInterval [x, y] && isIterArg x && isIntArg y) 2 ((intervalArgValueT x).bind (mkInterval env)),
  tmpl (anyInterval [x, y] && isIterArg x && sameValues x y) 2 ((intervalArgValueT x).bind fun v => mkInterval env (env.diff v)),
  builtinArith env x y,
  ⟨if isIterValue x && isIntValue y then some [0, 0] else none, 2, some x⟩,
  ⟨if isIterValue x && decide (x = y) then some [0, 0] else none, 2, some (env.diff x)⟩]
/-- `x * y`: interval.hpp:239–275, 277–312, 1436–1461, set.hpp:488–520, sign.hpp:42–57.  The bounds of a product are variables of the common type, so there is
no list-initialization to reject a narrowing conversion (interval.hpp:257–273). -/
def mulCands (env : Env) (x y : CppType) : List Cand := [
  tmpl (anyInterval [x, y] && arithmeticOperands env [x, y]) 2 (mkCommon env [x, y]),
  ⟨ranks2 (toSignRank x) (exact (isArithInterval y)), 0, (intervalValueT y).bind (mkInterval env)⟩,
  ⟨ranks2 (exact (isArithInterval x)) (toSignRank y), 0, (intervalValueT x).bind (mkInterval env)⟩,
  ⟨ranks2 (toSetSignRank x) (exact (isArithInterval y)), 0, mkSelfArith env y⟩,
  ⟨ranks2 (exact (isArithInterval x)) (toSetSignRank y), 0, mkSelfArith env x⟩,
  ⟨ranks2 (toSignRank x) (toSignRank y), 2, some signT⟩,
  ⟨ranks2 (exact (isArithValue x)) (toSignRank y), 0, some x⟩,
  ⟨ranks2 (toSignRank x) (exact (isArithValue y)), 0, some y⟩,
  ⟨ranks2 (toSetSignRank x) (toSetSignRank y), 2, some setSignT⟩,
  ⟨ranks2 (toSetSignRank x) (toSignRank y), 2, some setSignT⟩,
  ⟨ranks2 (toSignRank x) (toSetSignRank y), 2, some setSignT⟩,
  ⟨ranks2 (exact (isArithValue x)) (toSetSignRank y), 0, mkInterval env x⟩,
  ⟨ranks2 (toSetSignRank x) (exact (isArithValue y)), 0, mkInterval env y⟩,
  builtinArith env x y]
/-- `common_interval_t<X, Y>` as the result of a quotient (interval.hpp:315–413): the bounds are variables of the common type, as for `*`, but if the divisor
is an interval and the common type is integral, `common_interval_t<X, Y>{ 0/zero, 0 }` (interval.hpp:348, 404) must compile, where `0/zero` is an `int` (the type
of an operator on two `bool`s). -/
def mkQuotient (env : Env) (x y : CppType) : Option CppType := do
  let c ← commonIntervalValueT env.common [x, y]
  if isInterval y && isIntValue c && env.narrowing (env.arith .bool .bool) c then none else mkInterval env c
/-- `x / y`: interval.hpp:315–413 -/
def divCands (env : Env) (x y : CppType) : List Cand := [
  tmpl (anyInterval [x, y] && arithmeticOperands env [x, y]) 2 (mkQuotient env x y),
  builtinArith env x y]
/-- unary `-` : interval.hpp:196–202, set.hpp:470–485, sign.hpp:37–41 -/
def negCands (env : Env) (x : CppType) : List Cand := [
  tmpl (isArithInterval x) 1 (mkSelfArith env x),
  ⟨(toSignRank x).map ([·]), 2, some signT⟩,
  ⟨(toSetSignRank x).map ([·]), 2, some setSignT⟩,
  ⟨(arithRank x).map ([·]), 2, some (env.arith x x)⟩]
/-- unary `+` : interval.hpp:188–195, set.hpp:465–469, sign.hpp:32–36 -/
def posCands (env : Env) (x : CppType) : List Cand := [
  tmpl (isArithInterval x) 1 (intervalT x),
  ⟨(toSignRank x).map ([·]), 2, some signT⟩,
  ⟨(toSetSignRank x).map ([·]), 2, some setSignT⟩,
  ⟨(arithRank x).map ([·]), 2, some (env.arith x x)⟩]

/-- the class of the operands that `as_interval` keeps in a condition (detail/interval.hpp:208–243): intervals with identity for lvalues.  Simplification: for
rvalues `as_interval` gives the plain interval; only the kind of condition is of interest here. -/
def asInterval (t : CppType) : CppType :=
  match t with
  | interval v => cinterval v
  | t => t
/-- the six comparison operators -/
inductive CmpOp where
  | eq | ne | lt | le | gt | ge
deriving DecidableEq
/-- the condition that a comparison of intervals returns (interval.hpp:109–186): `>` and `>=` exchange the operands -/
def cmpResult (op : CmpOp) (x y : CppType) : CppType :=
  match op with
  | .eq => .cond .equal (asInterval x) (asInterval y)
  | .ne => .cond .notEqual (asInterval x) (asInterval y)
  | .lt => .cond .less (asInterval x) (asInterval y)
  | .le => .cond .lessEqual (asInterval x) (asInterval y)
  | .gt => .cond .less (asInterval y) (asInterval x)
  | .ge => .cond .lessEqual (asInterval y) (asInterval x)
/-- Is the type `set<T, R>` or derived from it, and which one is it? -/
def setBase : CppType → Option CppType
  | .set e r => some (.set e r)
  | .cond _ _ _ => some setBoolT
  | _ => none
/-- rank of the conversion to `set<T, R> const&` -/
def toSetRank (env : Env) (s t : CppType) : Option Nat :=
  if t = s then some 0 else if setBase t = some s then some 2 else
    match s with
    | .set .bool _ => (toBoolRank env t).map fun _ => 4
    | .set e _ => if t = e then some 4 else none
    | _ => none
/-- the friends `==`, `!=` of the class `set<T, R>` (set.hpp:186–219), found through an argument of that class or a derived class; the result is a
`set<bool>` -/
def setEqCand (env : Env) (x y : CppType) : List Cand :=
  match setBase x, setBase y with
  | some s, some s' => if s = s' then [⟨ranks2 (toSetRank env s x) (toSetRank env s y), 2, some setBoolT⟩]
      else [⟨ranks2 (toSetRank env s x) (toSetRank env s y), 2, some setBoolT⟩, ⟨ranks2 (toSetRank env s' x) (toSetRank env s' y), 2, some setBoolT⟩]
  | some s, none | none, some s => [⟨ranks2 (toSetRank env s x) (toSetRank env s y), 2, some setBoolT⟩]
  | none, none => []
/-- overloads for `set<bool>`, and mixed with `bool` (set.hpp:271–375), found through an argument that is a set -/
def setBoolCands (env : Env) (x y : CppType) : List Cand := if (setBase x).isNone && (setBase y).isNone then [] else [
  ⟨ranks2 (toSetBoolRank env x) (toSetBoolRank env y), 2, some setBoolT⟩,
  ⟨ranks2 (toSetBoolRank env x) (toBoolRank env y), 2, some setBoolT⟩,
  ⟨ranks2 (toBoolRank env x) (toSetBoolRank env y), 2, some setBoolT⟩]
/-- Is it a value that the built-in comparison operators take? -/
def isScalar : CppType → Bool
  | .bool | flt _ | int _ | iter _ | enum _ => true
  | _ => false
/-- comparison operators: interval.hpp:109–186, set.hpp:186–219 (`==`, `!=`), 271–330 (`<`, `<=`, `>`, `>=`).  The built-in operator competes with an
overload for `set<bool>` only if both operands are scalars, and those overloads are then not found: they need an argument of namespace `intervals`
(only `sign` is, for which the built-in operator is better because the promotion beats the conversion to a set). -/
def cmpCands (env : Env) (op : CmpOp) (x y : CppType) : List Cand :=
  if isScalar x && isScalar y then [⟨if env.relational x y then some [0, 0] else none, 2, some .bool⟩] else
  tmpl (anyInterval [x, y] && relationalValues env x y) 2 (some (cmpResult op x y)) ::
    (if op = .eq ∨ op = .ne then setEqCand env x y else setBoolCands env x y)
/-- the logical operators -/
inductive LogOp where
  | conj | disj | xor
deriving DecidableEq
/-- `&`, `|`, `^`: set.hpp:331–375, detail/interval.hpp:381–395, built-in for integral types (on `bool` the result has type `int`) -/
def logCands (env : Env) (op : LogOp) (x y : CppType) : List Cand :=
  if isScalar x && isScalar y then [⟨if isIntValue x && isIntValue y then some [0, 0] else none, 2, some (env.arith x y)⟩] else
  match op with
  | .conj => tmpl (isSetArgBool x && isSetArgBool y && (isCondition x || isCondition y)) 2 (some (.cond .conjunction x y)) :: setBoolCands env x y
  | .disj => tmpl (isSetArgBool x && isSetArgBool y && (isCondition x || isCondition y)) 2 (some (.cond .disjunction x y)) :: setBoolCands env x y
  | .xor => setBoolCands env x y
/-- the type of `!c` for a condition (detail/interval.hpp:397–432, set.hpp:254–260): the overload for conjunctions and disjunctions needs conditions on both
sides; otherwise the operator for `set<bool>` remains -/
def notType : CppType → CppType
  | .cond .less l r => .cond .lessEqual r l
  | .cond .lessEqual l r => .cond .less r l
  | .cond .equal l r => .cond .notEqual l r
  | .cond .notEqual l r => .cond .equal l r
  | .cond .conjunction l r => if isCondition l && isCondition r then .cond .disjunction (notType l) (notType r) else setBoolT
  | .cond .disjunction l r => if isCondition l && isCondition r then .cond .conjunction (notType l) (notType r) else setBoolT
  | _ => setBoolT
/-- `!x`: detail/interval.hpp:397–432, set.hpp:254–260, built-in for `bool`; the overloads are found through an argument that is a set -/
def notCands (env : Env) (x : CppType) : List Cand :=
  if (setBase x).isNone then [⟨(toBoolRank env x).map ([·]), 2, some .bool⟩] else
  match x with
  | .cond k l r => [
      ⟨if (k = .conjunction ∨ k = .disjunction) ∧ (isCondition l && isCondition r) = false then none else some [0], 0, some (notType (.cond k l r))⟩,
      ⟨(toSetBoolRank env x).map ([·]), 2, some setBoolT⟩]
  | x => [⟨(toSetBoolRank env x).map ([·]), 2, some setBoolT⟩]
/-- `possibly`, `possibly_not`, `always`, `never`, `contingent`, `vacuous`: logic.hpp:16–45, set.hpp:381–410 -/
def projCands (env : Env) (x : CppType) : List Cand := [
  ⟨(toBoolRank env x).map ([·]), 2, some .bool⟩,
  ⟨(toSetBoolRank env x).map ([·]), 2, some .bool⟩]

/-- `min`, `max`: math.hpp:52–63, interval.hpp:937–953 -/
def minCands (env : Env) (x y : CppType) : List Cand := [
  tmpl (isIntervalValue x && decide (x = y)) 2 (some x),
  tmpl (anyInterval [x, y] && sameValues x y && relationalValues env x y) 2 ((intervalArgValueT x).bind (mkInterval env))]
/-- `infimum`, `supremum`: math.hpp:39–50, interval.hpp:920–935 -/
def infCands (_env : Env) (x : CppType) : List Cand := [
  tmpl (isIntervalValue x) 1 (some x),
  tmpl (isInterval x) 1 (intervalValueT x)]
/-- `square`, `cube`, `abs`: math.hpp:65–82, interval.hpp:956–995 -/
def arithUnCands (env : Env) (x : CppType) : List Cand := [
  tmpl (isArithValue x) 1 (some x),
  tmpl (isArithInterval x) 1 (mkSelfArith env x)]
/-- `sgn`: sign.hpp:60–65, interval.hpp:997–1018 -/
def sgnCands (_env : Env) (x : CppType) : List Cand := [
  tmpl (isArithValue x) 1 (some signT),
  tmpl (isArithInterval x) 1 (some setSignT)]
/-- `sqrt`, `cbrt`, `log`, `exp`, `cos`, `sin`, `tan`, `acos`, `asin`, `atan`, `floor`, `ceil`, `round`, `frac`: math.hpp:84–110, 119–157, 168–191,
interval.hpp:1021–1055, 1092–1183, 1218–1256 -/
def fltUnCands (_env : Env) (x : CppType) : List Cand := [
  tmpl (isFltValue x) 1 (some x),
  tmpl (isFltInterval x) 1 (intervalT x)]
/-- `isinf`, `isfinite`, `isnan`: math.hpp:193–210, interval.hpp:1339–1374 -/
def fltTestCands (_env : Env) (x : CppType) : List Cand := [
  tmpl (isFltValue x) 1 (some .bool),
  tmpl (isFltInterval x) 1 (some setBoolT)]
/-- `pow`, `atan2`, `fractional_weights` (2 arguments; the type of a component of the pair), `blend_fractions` (3), `blend_linear` (4): math.hpp:112–117,
159–166, 225–249, interval.hpp:1057–1060, 1185–1188, 1258–1261, 1278–1281, 1303–1306 -/
def fltOpCands (env : Env) (ts : List CppType) : List Cand := [
  tmpl (ts.all isFltValue && ts.all (fun t => decide (ts.head? = some t))) ts.length ts.head?,
  tmpl (anyInterval ts && floatingPointOperands env ts) ts.length (mkCommon env ts)]
/-- `prev`, `next`: math.hpp:212–223, interval.hpp:1377–1389 -/
def prevCands (_env : Env) (x : CppType) : List Cand := [
  tmpl (isIterValue x) 1 (some x),
  tmpl (isIterInterval x) 1 (intervalOfT x)]
/-- `merge`, `intersect`: math.hpp:313–328, interval.hpp:1553–1567 -/
def mergeCands (env : Env) (ts : List CppType) : List Cand := [
  tmpl (!ts.isEmpty && ts.all isIntervalValue) ts.length (env.common ts),
  tmpl (!ts.isEmpty && ts.all isInterval) ts.length (mkCommon env ts)]

/-- The element type of `interval<T>`, `constrained_interval<interval<T>>` deduced for a parameter `interval_base<T> const&` -/
def deduceInterval (t : CppType) : Option CppType := (intervalValueT t).filter isIntervalValue
/-- The element type deduced for a parameter `set<T>`: also from a class derived from it -/
def deduceSet : CppType → Option (CppType × Nat)
  | .set e r => if r = 0 then some (e, 0) else none
  | .cond _ _ _ => some (.bool, 2)
  | _ => none
/-- Is `interval<T> result;` possible (interval.hpp:1521)? Iterator intervals have no default constructor (interval.hpp:862–865). -/
def mkDefault (env : Env) (v : CppType) : Option CppType := if isIterValue v then none else mkInterval env v
/-- Is it an instantiation of the class template `set` (detail/concepts.hpp:25–26)? -/
def isSetInst : CppType → Bool
  | .set _ _ => true
  | _ => false
/-- `if_else(cond, a, b)`: logic.hpp:51–57, set.hpp:412–438, interval.hpp:1517–1550.  The last overload constructs sets or intervals and calls the others;
it is not viable if `set_of_t<T>` does not exist. -/
def ifElseCands (env : Env) (c a b : CppType) : List Cand := [
  ⟨ranks3 (toBoolRank env c) (exact (isIntervalValue a)) (exact (decide (a = b))), 0, some a⟩,
  ⟨match deduceSet a, deduceSet b with
    | some (e, i), some (e', j) => if e = e' then ranks3 (toSetBoolRank env c) (some i) (some j) else none
    | _, _ => none, 0, (deduceSet a).map fun p => .set p.1 0⟩,
  ⟨match deduceSet b with
    | some (e, j) => ranks3 (toSetBoolRank env c) (exact (decide (a = e))) (some j)
    | none => none, 0, (deduceSet b).map fun p => .set p.1 0⟩,
  ⟨match deduceSet a with
    | some (e, i) => ranks3 (toSetBoolRank env c) (some i) (exact (decide (b = e)))
    | none => none, 0, (deduceSet a).map fun p => .set p.1 0⟩,
  ⟨match deduceInterval a, deduceInterval b with
    | some v, some w => if v = w then ranks3 (toSetBoolRank env c) (some 2) (some 2) else none
    | _, _ => none, 0, (deduceInterval a).bind (mkDefault env)⟩,
  ⟨match deduceInterval b with
    | some w => ranks3 (toSetBoolRank env c) (exact (decide (a = w))) (some 2)
    | none => none, 0, (deduceInterval b).bind (mkDefault env)⟩,
  ⟨match deduceInterval a with
    | some v => ranks3 (toSetBoolRank env c) (some 2) (exact (decide (b = v)))
    | none => none, 0, (deduceInterval a).bind (mkDefault env)⟩,
  ⟨ranks3 (toSetBoolRank env c) (exact (!isInterval a && !isSetInst a && (setOfT a 0).isSome)) (exact (decide (a = b))), 0,
    if isIntervalValue a && decide (a ≠ .bool) then mkDefault env a else setOfT a 0⟩]

/-- `constrain(x, c)`, where `x` is an lvalue or an rvalue: interval.hpp:1483–1515 (the overloads with a `static_assert` never compile), math.hpp:283–290 -/
def constrainCands (env : Env) (x : CppType) (lvalue : Bool) (c : CppType) : List Cand := [
  ⟨ranks2 (if isInterval x then some (if lvalue then 0 else 1) else none) (toSetBoolRank env c), 0, none⟩,
  ⟨ranks2 (if isInterval x && !lvalue then some 0 else none) (toSetBoolRank env c), 0, none⟩,
  ⟨ranks2 (if isInterval x then some (if lvalue then 0 else 1) else none) (exact (isCondition c)), 0, some x⟩,
  ⟨ranks2 (if isInterval x && !lvalue then some 0 else none) (exact (isCondition c)), 0, none⟩,
  ⟨ranks2 (exact (isIntervalValue x)) (toBoolRank env c), 0, some x⟩]

/-- rank of the conversion to `interval<V>`: constructors from a value and from another interval (interval.hpp:728–747) -/
def toIntervalRank (env : Env) (v t : CppType) : Option Nat :=
  if t = interval v then some 0 else
    match intervalValueT t with
    | some w => if env.convertible w v then some 4 else none
    | none => if isScalar t && (decide (t = v) || env.convertible t v) then some 4 else none
/-- rank of the conversion to a value type -/
def toValueRank (env : Env) (v t : CppType) : Option Nat :=
  if t = v then some 0 else if isScalar t && env.convertible t v then some 3 else none
/-- `assign(lhs, rhs)`, `assign_partial(lhs, rhs)`, `reset(lhs, rhs)`: math.hpp:260–281, interval.hpp:1463–1481, set.hpp:444–460; the first parameter is an
lvalue reference.  Simplification: `reset` with an interval with identity as first argument is left out. -/
def assignCands (env : Env) (x y : CppType) : List Cand := [
  ⟨ranks2 (exact (isIntervalValue x)) (toValueRank env x y), 0, some voidT⟩,
  ⟨match x with
    | interval v => ranks2 (some 0) (toIntervalRank env v y)
    | _ => none, 0, some voidT⟩,
  ⟨match x with
    | .set e r => ranks2 (some 0) (toSetRank env (.set e r) y)
    | _ => none, 0, some voidT⟩]
/-- the functions that generic code may call on values and on sets -/
inductive Fn where
  | add | sub | mul | div | neg | pos
  | cmp (op : CmpOp)
  | log (op : LogOp)
  | not
  /-- `possibly`, … `vacuous` -/
  | proj
  /-- `min`, `max` -/
  | min
  /-- `infimum`, `supremum` -/
  | inf
  /-- `square`, `cube`, `abs` -/
  | arithUn
  | sgn
  /-- `sqrt`, … `frac` -/
  | fltUn
  /-- `isinf`, `isfinite`, `isnan` -/
  | fltTest
  /-- `pow`, `atan2`, `fractional_weights` (2), `blend_fractions` (3), `blend_linear` (4 arguments) -/
  | fltOp
  /-- `prev`, `next` -/
  | prev
  /-- `merge`, `intersect` -/
  | merge
  | ifElse
  /-- with an lvalue as first argument -/
  | constrain
  /-- with an rvalue as first argument -/
  | constrainRvalue
  /-- `assign`, `assign_partial`, `reset` -/
  | assign
deriving DecidableEq

/-- the candidates of a call -/
def cands (env : Env) : Fn → List CppType → List Cand
  | .add, [x, y] => addCands env x y
  | .sub, [x, y] => subCands env x y
  | .mul, [x, y] => mulCands env x y
  | .div, [x, y] => divCands env x y
  | .neg, [x] => negCands env x
  | .pos, [x] => posCands env x
  | .cmp op, [x, y] => cmpCands env op x y
  | .log op, [x, y] => logCands env op x y
  | .not, [x] => notCands env x
  | .proj, [x] => projCands env x
  | .min, [x, y] => minCands env x y
  | .inf, [x] => infCands env x
  | .arithUn, [x] => arithUnCands env x
  | .sgn, [x] => sgnCands env x
  | .fltUn, [x] => fltUnCands env x
  | .fltTest, [x] => fltTestCands env x
  | .fltOp, [x, y] => fltOpCands env [x, y]
  | .fltOp, [x, y, z] => fltOpCands env [x, y, z]
  | .fltOp, [x, y, z, w] => fltOpCands env [x, y, z, w]
  | .prev, [x] => prevCands env x
  | .merge, x :: xs => mergeCands env (x :: xs)
  | .ifElse, [c, a, b] => ifElseCands env c a b
  | .constrain, [x, c] => constrainCands env x true c
  | .constrainRvalue, [x, c] => constrainCands env x false c
  | .assign, [x, y] => assignCands env x y
  | _, _ => []
/-- the outcome of compiling a call -/
def call (env : Env) (f : Fn) (ts : List CppType) : Res := resolve (cands env f ts)

end Intervals.Overload
