# Design of the Lean model of mbeutel/intervals

Source under study: `/repo` (C++20 header-only library).  Nothing in `/repo` is built or run; every
Lean definition cites the file and lines it was read from.

## 1. How C++ is represented

* **Outcomes.** `Outcome α = Except Err α` with `Err = contract | narrowing | ub`.
  `contract` is a `gsl_Expects` / `gsl_Assert` / `gsl_FailFast` violation (terminate or throw, as configured),
  `narrowing` is `gsl::narrowing_error`, `ub` is undefined behaviour (signed overflow, integer division by zero,
  dereferencing or moving an iterator outside its range).  `gsl_ExpectsDebug` / `gsl_AssertDebug` are active only in
  debug mode: functions that contain one take a flag `dbg : Bool`, and theorems quantify over it.
* **Value types.** The comparison operators of a value type are a class `CppVal T` (`lt`, `le`, `eq`, Boolean valued).
  `CppOrder T` states the laws: on values with `v <= v` (not NaN) the order is a total preorder, and every comparison
  with a NaN is false.  Instances: bounded integers, iterators, floats.
* **Signed integers and iterators.** `BInt lo hi` = integers in `[lo,hi]`.  `SInt n` = `BInt (-2^n) (2^n-1)` (a signed
  type of `n+1` bits, no promotion: int, long, long long); `Iter n` = `BInt 0 n` (positions of a range of `n` elements, `n` is
  past-the-end).  Arithmetic leaving the range is `ub`.
* **Floats.** `Fl K = nan | ninf | pinf | nzero | num k`, `k` in an arbitrary linearly ordered field `K`;
  `num 0` is +0, `nzero` is -0.  Arithmetic follows IEEE 754 for special values and signs of zero; finite results go
  through an arbitrary rounding `Fmt K` of which only monotonicity, sign preservation and absence of NaN are
  assumed (`rnd 0 = +0`; exact zero sums are +0 as in the default rounding mode).  With the identity rounding the model is exact
  arithmetic on `K` extended by NaN, infinities and signed zeros.  All theorems hold for every `K` and rounding unless they say
  otherwise.
* **Elementary functions** (`std::exp`, ...): an arbitrary implementation `Fl K → Fl K` assumed monotone on its domain, and in
  addition the exact real functions (K = ℝ).  `cos`, `sin`, `tan`: exact real functions, and accurate libraries in formats with
  bounded rounding errors (C81, C93); `pow` likewise (C94).  `atan2` and the blends: see the table.
* **set<T>.** A bit vector `BitVec n` plus the list `values` of reflected values (`n = values.length`).
  `set<bool>` is `BitVec 2` with bit 0 = false, bit 1 = true (makeshift's order, as the LUT comments state).
* **Identity of intervals.** `constrained_interval` stores the address of the interval it was made from; addresses are
  natural numbers.  Conditions store snapshots of their operands (value, identity or none, and whether the operand's own value type is
  discrete, because `succ`/`pred` dispatch on it).

## 2. What is modelled, and what is not

`tools/coverage.py` lists, per header, the code lines cited by a definition of the model (`tools/coverage.py x` prints the others).

| source | model |
|--------|-------|
| set.hpp, detail/set.hpp | Model/BoolSet (look-up tables, projections), Model/CSet (`set<T>`), Model/Sign (`set<sign>`) |
| sign.hpp, detail/sign.hpp | Model/Sign |
| logic.hpp | Model/BoolSet (projections of `bool`), Model/Scalar (`if_else`) |
| interval.hpp, detail/interval.hpp: construction, access, comparison, `contains` …, `assign`, `merge`, `intersect`, `if_else`, `min`, `max` | Model/Interval |
| conditions and `constrain` (detail/interval.hpp:272–695, interval.hpp:1390–1575) | Model/Constraint, Model/ConstraintMulti (comparisons of several types) |
| arithmetic, `square`, `cube`, `abs`, `sgn` | Model/Arith (generic), Model/IntArith, Model/FltArith (value types) |
| operators on operands of different value types | Model/Mixed |
| scalars of unsigned type as operands | Model/Unsigned |
| `constrain` with operands of two value types | Model/ConstraintMixed |
| compound conditions over operands of several value types | Model/ConstraintTree |
| `constrain` with a condition formed before the interval changed | Model/Constraint, Model/ConstraintStale (operands of two value types) |
| `pow`, weights and blends of operands of different value types | Model/MixedFn |
| implicit conversions of intervals and of scalar arguments to narrower types | Model/Convert |
| iterator intervals | Model/Iter |
| elementary functions, `pow`, weights and blends | Model/Elem |
| `isinf`, `isfinite`, `isnan` | Model/FltClass |
| `narrow*`, `ssize`-like conversions | Model/Narrow, Model/NarrowFlt |
| math.hpp (scalar overloads) | Model/Scalar, Model/ScalarMath, Model/Elem, Model/Narrow, Model/FltArith |
| utility.hpp (`as_regular`) | Model/Regular |
| algorithm.hpp, detail/algorithm.hpp | Model/Algorithm, Model/SearchCmp (comparison functions of the caller), Model/SearchMixed (elements of another value type), Model/TableLookup (step functions given by a table, snapping to a grid) |
| stream output | Model/Stream |
| README programs, examples/, src/ | Model/Programs, Model/Readme, Model/Interpolate, Model/Examples |
| operators on `interval<short>`, `interval<signed char>` that compile | Model/NarrowInt |
| type_traits.hpp, detail/type_traits.hpp | Model/Traits |
| concepts.hpp, detail/concepts*.hpp, the constraints on the overloads of every header | Model/Overload |
| deduction guides | Model/Deduce |
| deleted operators, branching on conditions | Model/Deleted |
| src/intervals.natvis | Model/Natvis |

Not modelled: `noexcept` (but see C69), wide character streams, number formatting,
`makeshift` reflection (a `set`'s value list is a parameter), intervals of unsigned integers (interval.hpp:786 rejects them), 80-bit excess precision, non-default rounding modes' sign of exact zero sums, the accuracy of libm
(parameter `Libm`; RealLibm is a correctly rounded instance).

## 3. Trusted base

Lean 4.33.0's kernel; the axioms `propext`, `Classical.choice`, `Quot.sound` and no others (AXIOMS.md lists them for every theorem, as printed by
`#print axioms`; regenerate with `tools/axioms.py`); the fidelity of the model as documented by the citation comment on each definition.  No axioms of
our own, no `sorry`, `native_decide`, `bv_decide`.  `decide +kernel` evaluates in the kernel and adds no axiom.

## 4. Plan per property

| id | model | proof |
|----|-------|-------|
| C01 | LUT words and shift formula on `BitVec 2` | whole-table evaluation (the quantifier is the finite table) against an existential membership spec |
| C02 | same | the `>=` table has one wrong entry: negation with witness, partial theorem excluding it |
| C03 | same | whole-table evaluation |
| C04 | projections | whole-table evaluation |
| C05 | `set<T>` operations, history fold | induction over histories, refinement to a predicate |
| C06 | `compare_eq`, `contains`, `matches`, `value` | counting argument on bits |
| C07 | `from_bits`, `to_bits` | BitVec/Nat lemmas |
| C08 | `set<sign>` ops | whole table; product with the empty set violates the property: negation + partial |
| C09–C11 | generic `compare_*` | order reasoning in `CppOrder` |
| C12 | `_assign`, `reset` histories | induction over histories |
| C13, C14 | generic | order reasoning; disjoint `intersect` and unassigned `overlaps_with` violate: negation + partial |
| C15, C16 | generic | order reasoning |
| C17 | example programs in the model | composition of constrain and assign lemmas |
| C18–C24 | condition trees, `detail::constrain` | structural induction; disjunctions with a disjunct that ignores X violate C18, `==` on an already narrowed X violates C19, disjunctions that are operands of a conjunction are not looked at, which violates C21 and C92, stepping an integral operand violates C24: negations + partial theorems |
| C25–C28 | `BInt` interval arithmetic | corner lemma for coordinatewise monotone functions |
| C29 | `Iter` arithmetic, dereference loop | induction over the loop |
| C30–C34 | `Fl` arithmetic | coordinatewise monotonicity + corner lemma; division by an interval with a wrongly signed zero bound violates C32; min/max/assign hide NaN (C34): negations + partial |
| C35 | classification | case analysis; NaN violates isfinite: negation + partial |
| C36 | floor etc. on `Fl K` | monotonicity |
| C37 | monotone libm parameter + real instances | monotonicity |
| C38, C39, C42 | real trigonometry | Mathlib monotonicity of cos/tan on quadrants; `tan` across a pole violates C39: negation + partial |
| C40, C41 | real `Complex.arg`, `Real.rpow` | corner lemma |
| C43–C45 | blends in exact arithmetic | field inequalities |
| C46, C47 | expression trees | structural induction |
| C48, C49 | conversions | direct |
| C50 | debug flag | direct, every operation |
| C51, C52 | `std::partition_point` as binary search | loop invariant; |
| C53, C54 | iterators as state machines | induction |
| C55, C56 | example programs | composition |
| C57 | object store with lifetimes | case analysis; self-move violates: negation + partial |
| C58 | strings | induction |
| C59, C60 | the small examples | direct, loop invariants |
| C61 | constructors and accessors | order reasoning |
| C62 | a small imperative language over the library's calls (Spec/Program): functions, blocks, `reset`, `assign`, branches; loops and recursion by unfolding; arithmetic and elementary functions as instances | induction over programs, with an invariant that relates the interval store to every scalar run |
| C63 | free functions on sets | membership lemmas |
| C64 | all operations on `[v,v]` | direct |
| C65 | types as data | case analysis over types; `set_of_t` and `interval_of` violate: negation + partial |
| C66 | comparisons, release mode | order reasoning; violated, negation + partial |
| C67 | narrowing with floating-point types | case analysis on values, facts about binary formats (Lemmas/BinFmt2); violated, negation + partial |
| C68 | operators on operands of different types (Model/Mixed) | reduction to the converted operands; division violated, negation + partial |
| C69 | the `noexcept` functions that construct intervals | case analysis on the bounds; violated, negation + partial |
| C70 | scalar weights and blends (Model/ScalarMath) | field arithmetic; monotone rounding |
| C71 | the arithmetic operators on finite operands, as sets of reals (Spec/Rounded) | C30–C32, extrema of monotone functions on boxes, monotone rounding |
| C72 | laws of the arithmetic operators (Spec/Laws) | uniqueness of exact results; hulls of nested operations (Lemmas/Hull) |
| C73 | elementary functions of the NaN interval | evaluation of each function; `<cmath>` assumed to map NaN to NaN |
| C74 | expressions with elementary functions (Spec/RealExpr, Spec/FnExpr) | induction; C30–C32, C34, C37–C41 per operation; monotone libm functions for the floating-point form |
| C75 | types as data, candidates with conversion ranks (Model/Overload), rules of C++ as hypotheses (Spec/Overload) | classes of argument types per function; several overload sets violate: negation + partial |
| C76 | `*`, `/` and products with signs for integer types narrower than `int` (Model/NarrowInt: computed in `int`, reduced modulo `2^(k+1)` when stored) | bounds by corners, C26–C28 where representable; violated, negation + exact characterization as partial |
| C77 | blends on `Fl K` in every format, against the scalar functions | results by position on the extended line; monotone in the blended numbers and of the fraction in the weights; violated in the fraction: negation + partial, with an error bound |
| C78 | sequences of `reset(x, constrain(x, c))` over numbered variables (Spec/Propagate.lean), any value type | narrowing and soundness from C18/C19; single comparisons are monotone (from C20 where bounds are attained, by formula otherwise), hence independence of the order; termination by the sum of the widths |
| C79 | deduction guides as candidates (Model/Deduce) | case analysis on types; violated for classes with identity: negation + partial |
| C80 | elementary functions, weights and blends | from the exact-range theorems C36–C45; `tan` across a pole violates: negation + partial |
| C81 | `cos`, `sin` on `Fl ℚ` in formats with absolute error bounds, library with an accurate cosine | error of the argument reduction, Lipschitz bound and monotone pieces of the real cosine; exact containment violated: negation + partial with tolerance |
| C82 | interval-aware programs (Spec/Program.lean) run twice | lock-step induction: condition trees over wider operands allow more truth values and narrow less; a branch taken only by the wider run only enlarges variables; functions from C47 |
| C83 | expressions over exact real intervals (Spec/RealExpr.lean, Spec/ExprRange.lean) | induction carrying the attained bounds; uniform continuity on compact boxes for convergence, bounded derivatives on compact convex boxes for the rate |
| C84 | the same | intermediate value theorem on boxes; assignments of disjoint variables are merged |
| C85 | the same, with `merge` of the results on pieces | from C83 and C14: every piece contributes at most its own width beyond a value |
| C86 | the same, in every format `Fmt ℝ` at once, compared with `exactFmt` | induction with a Lipschitz constant for every operation on a neighbourhood of the exact arguments (compactness); C30–C33, C37, C40 give the rounded range of the operations with one rounding; for cos, sin and tan the error analysis of C81 and C93 is repeated over ℝ (`Props/TrigReal`), for pow C41 and the error of `exp(y log x)`; only the functions that jump are left out (frac, floor, ceil, round) |
| C87 | the rules of the visualizer as a table of class names with texts (Model/Natvis); formulas read as disjunctions of conjunctions (Spec/Natvis) | induction over conditions; splitting at commas |
| C88 | candidates including the deleted ones (Model/Deleted) | case analysis over the classes of types |
| C89 | `fractional_weights` on `Fl K` in every format, against the scalar function | the rounded sum is at least each summand, so that weights are numbers of [0,1]; relative error of sums of numbers of a binary format; violated: negation + iff + error bound |
| C90 | predicates as condition expressions, `Order` (`<` or `>` on a key) as comparison function | truth sets of the conditions (C22) and C51 for any range; both halves of the constraint by C18, C19, C21 |
| C91 | a search depends on an element if the outcome does for some predicate | induction over the bits of the length; two searches for an interval |
| C92 | condition trees, `detail::constrain` | flat conjuncts: intersection of the two results; conjuncts that are disjunctions are ignored: negation with witness, general theorem for all of them |
| C93 | `tan` on `Fl ℚ` in formats with absolute error bounds, library with an accurate tangent | error of the argument reduction as in C81, slope of the real tangent on pole-free intervals; exact containment violated (rounding, poles): negations + partial with tolerance |
| C94 | `pow` on `Fl ℚ` in formats with absolute error bounds, library with accurate monotone logarithm and exponential | C41 in every format, error of `y log x` and of the exponential, corners of the real power; negative bases with a single integer exponent (PowNeg); exact containment violated: negation + partial with relative tolerance |
| C95 | the language of C62 with several value types, variables that are sets, predicates, condition trees with comparisons of several types and sets of truth values (Model/ConstraintMulti), loops over `enumerate` of integer intervals and of sets, with a body per visited element (Spec/ProgramMulti) | as C62; `constrain` sees the tree with the comparisons of other types replaced by their truth sets; induction over the visited values |
| C96 | as C95 (Spec/ProgramMulti: `MFn.Iso`, `MFn.IsoDef`, `Each.Iso`, `Each.IsoDef`) | two runs on nested inputs, by induction over the program: branches and loop turns taken by the narrower run are taken by the wider one, in the same order, and what the wider run assigns in addition only widens; `constrain` is monotone in the tree of windows seen by the constrained type (Lemmas/ProgramIso, Lemmas/ProgramMultiIso) |
| C97 | programs that branch on comparisons of parameters with constants (Spec/Piecewise: `PTree.runI`, `PTree.runS`), with arbitrary pieces | induction over the tree: each branch is entered if it has to be, works on an interval that has all values that belong there and none that cannot (up to the limit point of a strict comparison), and the union of two exact ranges has attained bounds (Lemmas/Piecewise); the ranges of two adjacent pieces share the value at the seam, so their hull has no other values; over the reals with pieces as in C84 (Spec/PiecewiseReal) |
| C98 | operators of Model/Mixed at conversions to and from unsigned types of any width (Spec/Unsigned: truth values of the built-in comparison at points) | the conversion to the unsigned type is a shift on each sign, hence monotone on intervals of one sign; bounds change order otherwise; C68/C70 for signed and floating-point common types |
| C99 | `max` and `max2` of the README (Model/Readme), any two-valued comparison | C09 for the identities; case analysis on bounds; an interval inside another needs the outer one for both max and min |
| C100 | Model/MixedFn: values that carry their type, usual arithmetic conversions (Spec/MixedFn: points of an operand of either type) | every subexpression has the value of the exact one, integers occur only as fractions 0 and 1; C43–C45 and C41 on the converted operands; integer quotient `1/(1 + b/a)` is 1 or 0 |
| C101 | `constrainM` with a conversion and steps in the operand's type (Spec/ConstraintMixed: `SatX`, `Keeps`) | comparison possible iff a pair of points satisfies it (monotone conversion); case analysis per relation; C101_same: equal types give Model/Constraint |
| C102 | `convertO`, `convertInt`, `convertFI` (spec: `CastOf`, `IsTrunc`, `Fits`, `OnePeriod`) | the last number of a period and the first of the next are both points unless the interval lies in one period |
| C103 | `containsO`, `enclosesO`, `matchesO` with a conversion (spec: order of the numbers, `IsTrunc`, `CastOf`) | truncation and rounding are monotone and fix the bounds |
| C104 | `detailConstrainT` over condition trees with a value type per comparison (Spec/ConstraintTree: `MExpr.Sat`, `GoodLeaf`; Spec/ConstraintAgain: `EqualBounds`, `StepsApart`) | induction on the tree; the comparisons are those of C101 |
| C105 | as C104 (Spec/ConstraintTree: `ExactLeaf`, `MExpr.Conj`, `Tight`; Spec/ConstraintAgainOr: `EachPossible`) | induction on the tree; negations by De Morgan; used again: the values that satisfy the condition are the same, so the smallest interval is |
| C106 | Model/SearchMixed (Spec/SearchMixed: `findMS`, `asks`, `from`, `upto`, `InPart`) | the searches from C90 and C51; the two halves of the constraint from C101's cases, then the order laws |
| C107 | as C51, C52, C55, C56 | every bound of the result is attained, so containment of the points gives containment of the results; for the linear interpolation the pieces assigned to the result are compared cell by cell |
| C108 | as C51, C54, C106; the program is a caller of three library functions (Model/TableLookup.lean) | between two different neighbouring elements one of them is itself the value searched for; the table is read by C54, whose bounds are attained at positions |
| C109 | Model/TableLookup (Spec/Snap: least element above, greatest below) | C51 for the positions, C29 for the dereferenced interval of positions, order laws |
| C110 | `constrainOld` (Model/ConstraintStale): the condition keeps the earlier bounds (Spec/ConstraintStale: `Inside`, `orderX`) | reduction to C101 at the earlier or the present bounds; for disjunctions the model of C18 |
| C111 | sequences of `reset(x, constrain(x, c))` over variables with a value type each, `constrainM` (Spec/PropagateMixed: `ValueTypes`, `StepIso`, `Gapless`, `StableM`) | C101_isotone and C101_isotone_operand make every statement monotone; termination by the sum of the widths; C111_supported: the fixpoint satisfies the comparisons at its bounds, so the statements do narrow; C111_float: termination because all bounds are among the initial ones |

## 5. Disagreements between the code and the properties

Where the code does not have a property, the model keeps the code's behaviour; the negation is proved with a witness (theorem named), and a `_partial`
theorem covers the rest.

| # | where | what happens | theorem |
|---|-------|--------------|---------|
| a | detail/set.hpp LUT for `>=`/`<=` | one wrong entry: `{false,true} >= {true}` | C02_violated |
| b | detail/interval.hpp `constrain`, strict relations | `succ`/`pred` act on the operand's own type: an integral bound of a floating-point interval is stepped by one | C24_violated, C24_violated_failure, C24_lt_iff, C24_gt_iff, C52_violated_mixed |
| c | detail/interval.hpp, disjunction | a disjunct that does not mention the interval is ignored, so points are lost | C104_violated, C104_isotone_fails, C18_violated, C18_ignored, C18_fails |
| d | detail/interval.hpp:628–646, conjunction | calls `detail::constrain` by its qualified name, so the overload for disjunctions, declared below it, is not found and a disjunction that is a conjunct is passed to the overload for `set<bool>`, which ignores it: `constrain(x, ((x<=1) \| (x>=20)) & (x>=0))` does not narrow, and `constrain(x, ((x<=1) \| (x>=20)) & (y>=0))` is a contract violation | C105_violated, C92_violated, C92_hidden, C92_fails, C21_violated_hidden, C21_hidden_fails |
| e | detail/interval.hpp, disjunction | a contradictory conjunction below a disjunction is a contract violation although the other branch is possible | C21_violated, C21_conj_fails, C105_violated, C104_isotone_or_fails |
| f | conditions hold snapshots | `==`, `!=` on an interval that was narrowed since return a stale result | C19_violated, C19_stale, C19_fails, C110_violated, C110_equal_fails |
| g | `operator !` of a compound with a plain `set<bool>` operand | loses the constraint | C22_violated, C22_fails |
| h | interval.hpp floating-point division | divisor with a zero bound whose sign points away from the interval, e.g. `1/[-1,+0]`: result does not contain `1/-1` … `-inf` | C32_violated, C32_incl_iff (exactly when), C46_violated, C47_div_violated |
| i | `tan` | intervals narrower than π with a pole inside: bounds of the branches' end points | C39_violated_all, C39_violated, C80_tan_violated_all |
| j | `intersect` | disjoint arguments: returns the gap between them instead of failing | C14_intersect_violated, C14_intersect_gap, C14_intersect_iff |
| k | `set<sign>` product | `{0} * {}` is `{0}` | C08_mul_violated |
| l | `overlaps_with` | asymmetric for an unassigned operand | C13_overlaps_violated, C13_overlaps_iff |
| m | `assign`, `merge`, `if_else`, `min`, `max` | a NaN in the second operand is dropped | C34_assign_violated, C34_merge_violated, C34_if_else_violated, C34_min_violated |
| n | scalar NaN / interval around 0 | `[-inf, inf]` instead of NaN | C34_scalar_div_violated |
| o | `isfinite` of a NaN interval | `{true}` | C35_isfinite_violated |
| p | `frac([NaN, NaN])` | `[0, 1]` | C64_frac_nan |
| q | `set<sign>{zero} * [.., inf]` | `[0, 0]`, whereas `sign::zero * inf` is NaN; `abs([0,0])` is `[0,-0]` | C33_signset_violated, C64_float_unary |
| r | `pow` | exponent whose lower bound is outside `long long` is converted before it is examined: undefined behaviour when the base may be negative | C41_violated, C41_violated_all |
| s | `narrow_cast` | unchecked, wraps around (documented by gsl-lite, kept as the specification) | C48_narrow_cast_unchecked |
| t | `as_regular` | self-move ends the lifetime of the source before it is read | C57_self_move_violated |
| u | `interpolate_linear` in double | overflow of `x1 - x0` gives NaN; overflow of `y1 - y0` gives the NaN interval if the cell is entered from its left end, and equal abscissae give NaN; `assign` drops both | C55_violated_double, C55_width_violated, C55_height_violated, C55_iff |
| v | `set<sign> * interval`, debug mode | unassigned operand not detected if the set is `{zero}` or empty | C50_signset_violated |
| w | `wraparound` in double | `wraparound(1-2^-53, 1, 2)` returns the excluded end 2 | C42_violated_double |
| x | `fractional_weights` in double | lower weight can exceed the upper one by rounding, or because one of the two sums overflows: contract violation on valid input | C43_violated_double, C89_violated, C89_overflow |
| y | `lower_bound` … on discrete ranges with duplicates | the returned positions include ones for which `constrain` fails | C52_violated |
| z | `lower_bound(range, rvalue)` | the partitioning keeps no identity, `constrain` fails | C52_rvalue |
| aa | README: conditions | a condition becomes stale when a variable it mentions is assigned; the README's generic `max` written with `x = b` does not compile for intervals | C62_stale |
| bb | comparison with an unassigned interval in release mode | `==` gives `{false}` (`{true}` against the interval of all values), and orderings with an operand that reaches a limit of the type are not empty, though README.md:343–345 promises the empty set | C66_eq_violated, C66_order_violated, C66_violated |
| cc | type_traits.hpp:57, 30 | `set_of_t<T, R>` ignores `R`; `interval_of<T>::type` is `interval_of<T>` | C65_violated, C65_violated_all |
| dd | `narrow`, `narrow_failfast` to or from a floating-point type | the check converts before it compares: a bound outside the integer type (also the largest `long long`, which rounds to 2^63) is undefined behaviour instead of a report | C67_violated |
| ee | `/` with a floating-point dividend and a divisor of integral type | an integer zero bound has no sign: `1. / interval<int>{-2, 0}` is `[-0.5, inf]`, missing `1. / -1`; in exact arithmetic exactly the divisors `[l, 0]` with `l ≤ -2` miss quotients | C68_div_violated, C68_div_iff |
| ff | interval `narrow_cast` is `noexcept` but runs the constructor's contract check | `narrow_cast<short>(interval<int>{0, 40000})` terminates the program | C69_violated, C69_narrow_cast_int_iff |
| gg | scalar `fractional_weights`, `blend_linear` in double | both weights are 0 when the sum of the weights overflows: `blend_linear(2^1023, 2^1023, 1, 1)` is 0 | C70_overflow |
| hh | `operator *` on floating-point intervals | `x*y` and `y*x` can differ in the sign of a zero bound, and a quotient by the product tells them apart: `1/(x*y)` is `[-inf, 1]` and `1/(y*x)` is `[1, inf]` for `x = [-1, -0.0]`, `y = [-1, 0.0]` | C72_mul_zero_sign |
| ii | `cos`, `sin`, `frac` of the NaN interval | `[-1, 1]`, `[-1, 1]`, `[0, 1]`: the comparisons that detect critical points are all false for NaN, and the fallback is the full range | C73_cos_violated |
| jj | `pow` with a NaN interval | a NaN base gives an unassigned interval (no branch is taken); a NaN exponent does too for a non-negative base, and converts NaN to `long long` (undefined behaviour) if the base can be negative | C73_pow_violated, C73_pow_exponent_violated |
| kk | `operator /` on floating-point intervals | not isotone even when neither divisor has a wrongly signed zero bound on the larger side: `[-0.0, 1] ⊆ [0.0, 2]`, but `1/[-0.0, 1]` is `[-inf, 1]` and `1/[0.0, 2]` is `[0.5, inf]` | C47_div_zero_violated |
| ll | `propagate_set_t` from a condition | the specialization for `set<U, R>` does not match the derived classes that comparisons of intervals return, so the result type is a plain value | C65_violated_all |
| mm | `if_else` on enumeration values | logic.hpp:51 takes interval values only; with a `bool` and two values of an enumeration the overload for sets is selected and returns a set | C75_plain_violated |
| nn | overloads that do not exist or do not compile | `+`, `-`, `square` … on intervals of types narrower than `int`, `merge`/`intersect` of a value and an interval, `<` … on sets of an enumeration, `if_else` on intervals of iterators (no default constructor) | C75_violated, C75_short |
| oo | `*`, `interval/value`, products with signs on types narrower than `int` | `T v1 = x*lower(y)` converts the `int` product silently: `interval<short>{1,300}*interval<short>{1,300}` is `[1, 24464]`; `negative_sign*interval<short>{-32768, 5}` is unassigned | C76_violated, C76_violated_all |
| pp | interval `blend_fractions`, `blend_linear` against the scalar functions, in double | blending 3 with 3 for fractions `[0,1]` is `[3,3]`, but the scalar result for 0.2 is above 3; with the weights 2^1023, 2^1023 `blend_linear` of 1 and `[1,1]` is `[1,1]`, the scalar function returns 0 | C77_violated, C77_violated_linear |
| qq | `interval(xc)`, `set(x < y)` | deduction fails for an interval with identity (derived from the base class of `interval`) and selects `set<less_constraint<…>>` for a condition | C79_violated_all |
| rr | `cos`, `sin` of large arguments in double | the argument reduction subtracts multiples of the rounded 2π: `cos` of `[18008441263784348, 18008441263784348]` is within `[0.5, 1]`, the cosine of that number is about -0.7 | C81_violated |
| ss | `asin`, `acos` in release builds | outside the domain one bound is NaN, and `from_unordered_bounds` drops it: `asin([0, 2])` is `[0, 0]`, which does not contain `asin(1)`; `sqrt` and `log` keep the NaN | C37_release, C62_asin_release |
| tt | src/intervals.natvis | the rules for `==` and `!=` are for classes `equality_constraint` and `inequality_constraint`; the classes are called `equal_constraint` and `not_equal_constraint`, so these conditions are shown without their operands | C87_violated_eq |
| uu | src/intervals.natvis | operands of `&` and `\|` are shown without parentheses inside: `((a \| b) & c) \| d` and `(a \| (b & c)) \| d` have the same text | C87_violated_nested |
| vv | `tan` in double | the argument reduction subtracts multiples of the rounded π, separately rounded for the two bounds: `tan` of `[18014398509481952, 18014398509481952]` is within `[-0.9, 0.5]`, the tangent of that number is about 7.8; with a pole inside (row i) in double as well: `tan([1,2])` lies below 3, `tan(1.5)` is about 14 | C93_violated, C93_violated_pole |
| ww | `tan` of an interval with an infinite bound | `[1, inf]` gives `[-inf, inf]`, but `[-inf, 1]` gives `[NaN, NaN]`, because the lower bound is reduced first | C93_infinite |
| xx | `pow` in double | computed as `exp(y log x)`, whose relative error is the absolute error of `y log x`: `pow([2,2],[221,221])` differs from `2^221` by more than `2^-47` relative, and `pow([10,10],[2,2])` does not contain 100, for every library with a sufficiently accurate exponential (the scalar `pow` is `std::pow`, which has no such error) | C94_violated, C94_violated_square |
| yy | the free `assign` of sets (set.hpp:444–449) | lacks the "left-hand side unassigned" check of its interval counterpart: `assign` in both branches of a condition leaves only what the second branch assigned, while the same program on intervals is a contract violation | C63_overwrite, C95_assign_set |
| zz | comparison of a signed interval with an unsigned scalar of at least its width | the bounds are converted one by one, so that they change order if the interval contains -1 and 0: `interval<int>{ -1, 3 } < 2u` is `{ false }` although `0 < 2u`, and `interval<int>{ -1, 3 } < 10u` is the empty set (neither `possibly` nor `certainly` of either truth value makes sense of it); `i < v.size()` is of this form | C98_violated, C98_violated_empty, C98_mixed_sign |
| aaa | `constrain` with an unsigned scalar | `pred` and `succ` wrap: `constrain(x, x < 0u)` with `x = interval<long long>{ -5, 5 }` is `[-5, 5]`; with a floating-point interval the scalar is decremented as an integer (cf. b): `constrain(x, x < 1u)` for `[0., 2.]` is `[0, 0]` | C98_constrain_violated, C98_constrain_float_violated, C98_constrain_float_iff |
| bbb | `blend_linear` with two weights of integer type (allowed: only the common type of all operands must be floating-point) | `1/(1 + b/a)` is integer division: `blend_linear(1, 2, 0., [3,3])` is `[3,3]`, not 2; a weight of `x` that may be 0 is division by zero | C100_violated, C100_violated_ub, C100_blend_linear_int, C100_blend_linear_int_iff |
| ccc | `constrain` steps the other operand in its own type before converting it | `constrain(x, x < INT_MIN)` for an `interval<long long>` below is signed overflow; `constrain(x, x < r)` for `double` and `interval<int>` loses fractional values (as b) | C101_violated, C101_violated_double, C101_ub_iff, C101_int_ub, C101_float_ub, C101_violated_step, C101_lt_iff, C101_gt_iff |
| ddd | the implicit converting constructor accepts narrowing conversions and does not check the order of the bounds | `interval<int> y = interval{ 0ll, 1ll << 31 };` is unassigned, with `1ll << 32` it is `[0]`; `interval<int> y = interval{ 0., 1e10 };` is undefined behaviour | C102_violated, C102_int, C102_int_iff, C102_to_int_partial |
| eee | `contains`, `encloses` and `matches` convert a scalar of another type to the value type | `interval{ 0, 3 }.contains(-0.5)`, `interval{ 0, 3 }.contains(3.5)` and `interval{ 0, 3 }.contains(4294967297)` are true, `interval{ 0, 3 }.encloses(0.5)` is false | C103_violated, C103_to_int |
| fff | `constrain(x, lower_bound(range, x)[i])` steps the element to the next value of the element type | for the `int` table `{ 0, 10 }` and the `interval<double>` `[0.25, 5]`, which lies wholly in partition 1, the constrained interval is `[1, 5]`; for `[0.25, 0.75]` it is a contract violation; for the element `INT_MAX` and an `interval<long>` that reaches beyond it, signed overflow | C106_violated, C106_lost, C106_ub |
| ggg | a condition is tested against the bounds it was formed with | `c = (x <= 3 \| x >= 8)`, formed while `x` is `[0, 10]`, is a contract violation for `x = [5, 10]`, although 8 to 10 satisfy it; `x < 1.` formed at `[0, 2]` and used at `[1, 2]` returns `[1, 1]` in a release build | C110_or_fails, C110_or_violated, C110_strict_fails |

Not expressible as a theorem of the model, noticed while reading: `partitioning::operator []` on iterators (detail/algorithm.hpp:266–275) cannot be
instantiated (aggregate initialisation from an lvalue range type mismatch); the README lists an interval overload of `blend_quadratic` that does not exist;
`*it` of an iterator interval increments past an upper bound that is past-the-end.

## 6. Partial results

MANIFEST.json gives for each partial property what is missing; in all cases the missing part is false of the code (§5).  C52_positions_fail and
C55_iff show that the missing part of C52_positions_partial and C55_rounded_partial is false throughout; C57_history_iff likewise for C57_history_partial; C18_fails, C19_fails, C21_hidden_fails, C21_conj_fails, C22_fails, C92_fails, C24_lt_iff and C24_gt_iff do the same for
C18–C24 and C92, C101_lt_iff, C101_gt_iff and C101_int_ub for C101, C102_int_iff and C102_to_int_partial for C102, C103_to_int for C103, C106_lost and C106_ub for C106, C110_equal_fails, C110_strict_fails and C110_or_fails for C110.  C46_fundamental_partial, C47_div_partial and C74_float_partial exclude the divisors of C32_violated (C47_div_iff: exactly when a quotient contains all quotients of smaller operands)
in every format; C32_incl_iff shows that in exact arithmetic inclusion really fails for each of them.

## 7. Testing the theorems

`seeded/LOG.jsonl` records the wrong programs tried: each line is one edit of a model definition, the claim it breaks, and the theorems whose proof failed.

`lean/Verif/Conformance/` runs the repository's own tests on the model (`/repo/test/test-interval.cpp`, `test-set.cpp`, `test-sign.cpp`,
`test-algorithm.cpp`; tables copied, binary64 arithmetic for `double`, contract checks on as in test/CMakeLists.txt).  These are tests that the model
computes what the authors assert about the code; no theorem depends on them and they are not counted as proofs.  Every transcribed check holds on the
model.  Not transcribed: comparisons with numerical values of `std::pow`, `std::sin`, `std::cos`, `std::tan` up to a tolerance.  One finding: `collect`
in test-set.cpp:26–45 calls `func(x, y)` on the sets instead of their members, so the operator tests compare each operator with itself; with members it
would report the wrong `>=`/`<=` table entry (disagreement a).
