{"id": "C01", "title": "set<bool> connectives are the set extensions of the Boolean connectives", "statement": "For set<bool> operands A, B (and for mixed bool/set operands) the results of !, &, |, ^, <, > contain exactly the values f(a,b) for a in A and b in B; if an operand is empty the result is empty. The tables of == and != in detail/set.hpp, which no operator reads, hold the set extensions of == and !=.", "quantifier": "all pairs of set<bool> values including the empty set, and all bool/set<bool> mixes, for every listed operator", "why_tests_cant": "the repository's own table test compares the function with itself (the sample calls func(x,y) on the sets instead of the elements), so a wrong table entry passes", "anchors": ["include/intervals/set.hpp:operator !", "include/intervals/set.hpp:operator &", "include/intervals/set.hpp:operator |", "include/intervals/set.hpp:operator ^", "include/intervals/set.hpp:operator >", "include/intervals/set.hpp:operator <", "include/intervals/detail/set.hpp:lut_4vK_*"]}
{"id": "C02", "title": "set<bool> ordering >= and <= are the set extensions of >= and <= on bool", "statement": "For set<bool> operands A, B (and mixed bool/set operands) A >= B contains exactly the values a >= b for a in A, b in B, and A <= B exactly the values a <= b.", "quantifier": "all pairs of set<bool> values including the empty set, and all bool/set<bool> mixes", "why_tests_cant": "same self-comparing table test; a single wrong table entry out of 16 is invisible to it", "anchors": ["include/intervals/set.hpp:operator >=", "include/intervals/set.hpp:operator <=", "include/intervals/detail/set.hpp:lut_4vK_geq"]}
{"id": "C03", "title": "Three-valued logic obeys the algebraic laws promised by the README", "statement": "On set<bool>, & and | are associative, commutative, idempotent and distribute over each other, De Morgan's laws hold, ! is an involution, and x ^ y equals (x & !y) | (!x & y) up to information loss (the former is contained in the latter).", "quantifier": "all triples of set<bool> values (empty included)", "why_tests_cant": "laws range over triples; no test enumerates them, and users refactor conditions relying on them", "anchors": ["include/intervals/set.hpp:operator &", "include/intervals/set.hpp:operator |", "include/intervals/set.hpp:operator !", "include/intervals/set.hpp:operator ^", "README.md:logical associativity, commutativity, distributivity"]}
{"id": "C04", "title": "Projections of a set<bool> mean what their names say", "statement": "possibly(A) iff true is a member, possibly_not(A) iff false is, always(A) iff false is not, never(A) iff true is not, contingent(A) iff both are, vacuous(A) iff none is; always(A) equals !possibly(!A) and never(A) equals !possibly(A) for every A; on a plain bool the projections agree with the singleton set.", "quantifier": "all set<bool> values and all bool values", "why_tests_cant": "generic code switches between the bool and the set overloads, so agreement must hold for all values, also through negation", "anchors": ["include/intervals/set.hpp:possibly", "include/intervals/set.hpp:possibly_not", "include/intervals/set.hpp:always", "include/intervals/set.hpp:never", "include/intervals/set.hpp:contingent", "include/intervals/set.hpp:vacuous", "include/intervals/logic.hpp:possibly"]}
{"id": "C05", "title": "set<T> is a faithful finite set under every history of updates", "statement": "After any sequence of reset(), reset(set), assign(set) and assign(value) calls, contains(v) holds exactly for the values that were assigned or reset in since the last clearing operation; the order of assignments between resets does not matter.", "quantifier": "every enumeration of distinct reflected values, every finite operation history", "why_tests_cant": "histories are unbounded; tests use two or three updates on one enum", "anchors": ["include/intervals/set.hpp:set::assign", "include/intervals/set.hpp:set::reset", "include/intervals/set.hpp:set::contains"]}
{"id": "C06", "title": "set<T> equality, containment and matching are exact", "statement": "For non-empty sets A, B: A == B contains true iff some a in A equals some b in B, contains false iff some a differs from some b; A != B is its complement; A.contains(B) iff B is a subset of A; A.matches(B) iff they have the same elements; value() returns the unique element of a singleton and fails fast otherwise.", "quantifier": "every reflected value list, every pair of sets over it", "why_tests_cant": "the element-count shortcut used for possible mismatch is only right by an argument over all cardinalities", "anchors": ["include/intervals/set.hpp:set::operator ==", "include/intervals/set.hpp:set::operator !=", "include/intervals/set.hpp:compare_eq", "include/intervals/set.hpp:set::contains", "include/intervals/set.hpp:set::matches", "include/intervals/set.hpp:set::value"]}
{"id": "C07", "title": "set<T>::from_bits and to_bits are mutually inverse and agree with index queries", "statement": "from_bits(s.to_bits()) matches s; to_bits() throws iff s contains a value of index 64 or more; to_bits(from_bits(b)) is b modulo 2^n for n reflected values; from_bits(b).contains_index(i) is bit i of b; contains_index outside 0..n-1 fails fast.", "quantifier": "every number n of values, every set, every 64-bit word, every index", "why_tests_cant": "round trips over all words cannot be enumerated", "anchors": ["include/intervals/set.hpp:set::from_bits", "include/intervals/set.hpp:set::to_bits", "include/intervals/set.hpp:set::contains_index"]}
{"id": "C08", "title": "Sign sets: unary minus and products are set extensions of sign arithmetic", "statement": "For set<sign> A, B the results of -A, A*B, A*s, s*A contain exactly the values -a, a*b; sgn(x) is the positive, zero or negative sign exactly as x is greater than, equal to or less than zero, and the product of an empty set with anything is empty.", "quantifier": "all pairs of set<sign> values including the empty set and all sign scalars", "why_tests_cant": "the emptiness corner is never exercised by tests", "anchors": ["include/intervals/set.hpp:operator *(set<sign>, set<sign>)", "include/intervals/set.hpp:operator -(set<sign>)", "include/intervals/sign.hpp:operator *", "include/intervals/sign.hpp:sgn"]}
{"id": "C09", "title": "Interval comparisons are exact set extensions", "statement": "For assigned, NaN-free intervals or scalars X, Y over one ordered value type: the set returned by X op Y, for op in ==, !=, <, <=, >, >=, contains true iff x op y for some x in X, y in Y, and contains false iff not x op y for some x in X, y in Y.", "quantifier": "every value type with a total C++ order (integers, iterators, floats including infinities and both zeros), every pair of intervals", "why_tests_cant": "exactness is a for-all/exists statement over continuous sets of points", "anchors": ["include/intervals/interval.hpp:compare_eq", "include/intervals/interval.hpp:compare_neq", "include/intervals/interval.hpp:compare_lt", "include/intervals/interval.hpp:compare_leq", "include/intervals/interval.hpp:operator ==", "include/intervals/interval.hpp:operator <"]}
{"id": "C10", "title": "Interval comparisons are logically consistent", "statement": "For assigned NaN-free intervals A, B: (A != B) equals !(A == B); (A < B) equals !(A >= B); (A <= B) equals !(A > B); (A > B) equals (B < A); (A == B) equals !((A < B) | (A > B)).", "quantifier": "every value type with a total order, every pair of intervals or scalars", "why_tests_cant": "README promises complementarity and totality as identities; tests check sample points only", "anchors": ["include/intervals/interval.hpp:operator ==", "include/intervals/interval.hpp:operator <=", "include/intervals/set.hpp:operator !", "include/intervals/set.hpp:operator |", "README.md:logical consistency"]}
{"id": "C11", "title": "Comparisons never invent or lose certainty about definedness", "statement": "A comparison of assigned NaN-free operands is never vacuous; in debug mode any comparison with an unassigned operand is a contract violation; comparing with a NaN operand using <, <=, >, >= yields the empty set.", "quantifier": "every value type, every operand pair, both build modes", "why_tests_cant": "depends on all combinations of NaN, infinity and the unassigned encoding", "anchors": ["include/intervals/interval.hpp:compare_lt", "include/intervals/interval.hpp:compare_leq", "include/intervals/interval.hpp:interval_base::assigned"]}
{"id": "C12", "title": "assign accumulates the smallest enclosing interval, independent of order", "statement": "Starting from an unassigned interval, after any sequence of assign(value), assign(interval) and reset operations, the interval is the smallest one containing everything assigned since the last reset, and any permutation of the assignments gives matching bounds.", "quantifier": "every finite history of assignments of NaN-free values and assigned intervals, every value type with default construction", "why_tests_cant": "histories are unbounded and order independence is a statement over permutations", "anchors": ["include/intervals/interval.hpp:interval::assign", "include/intervals/interval.hpp:interval::reset", "include/intervals/interval.hpp:interval_base::_assign", "include/intervals/interval.hpp:assign_partial"]}
{"id": "C13", "title": "contains, encloses, matches and overlaps_with decide the corresponding set relations", "statement": "For assigned NaN-free X, Y and values v: X.contains(v) iff v is a point of X; X.contains(Y) iff every point of Y is one of X; X.matches(Y) iff same bounds; X.encloses(v) iff v lies strictly between the bounds; X.encloses(Y) iff Y lies strictly inside; X.overlaps_with(Y) iff they share a point, and overlaps_with is symmetric.", "quantifier": "every value type, all pairs of intervals including unassigned ones", "why_tests_cant": "for-all/exists over points; unassigned corner cases with infinite bounds", "anchors": ["include/intervals/interval.hpp:interval_base::contains", "include/intervals/interval.hpp:interval_base::encloses", "include/intervals/interval.hpp:interval_base::matches", "include/intervals/interval.hpp:interval_base::overlaps_with"]}
{"id": "C14", "title": "merge is the interval hull and intersect the intersection", "statement": "merge(A1,...,An) is the smallest interval containing all arguments; intersect(A1,...,An) contains exactly the points common to all arguments.", "quantifier": "any number of assigned NaN-free intervals", "why_tests_cant": "variadic: any number of arguments, and disjointness patterns grow combinatorially", "anchors": ["include/intervals/interval.hpp:merge", "include/intervals/interval.hpp:intersect", "include/intervals/detail/interval.hpp:narrow_interval"]}
{"id": "C15", "title": "if_else on a set-valued condition is the set extension of the conditional", "statement": "if_else(C, A, B) contains c ? a : b for all c in C, a in A, b in B, and is the smallest interval (set) doing so; an empty condition yields an unassigned result; branches whose condition is impossible are not required to be assigned.", "quantifier": "all conditions, all intervals / sets, including unassigned branch values", "why_tests_cant": "must hold for all points and for unassigned unused branches", "anchors": ["include/intervals/interval.hpp:if_else", "include/intervals/set.hpp:if_else", "include/intervals/logic.hpp:if_else"]}
{"id": "C16", "title": "min and max on intervals are exact", "statement": "min(A,B) (max(A,B)) contains exactly the values min(a,b) (max(a,b)) for a in A, b in B.", "quantifier": "every value type with a total order, all pairs of assigned NaN-free intervals or scalars", "why_tests_cant": "exactness is a for-all/exists statement", "anchors": ["include/intervals/interval.hpp:min", "include/intervals/interval.hpp:max", "include/intervals/math.hpp:min", "include/intervals/math.hpp:max"]}
{"id": "C17", "title": "Branch-both-ways programs compute exact maxima", "statement": "The README/sample programs max3, imax and maxG (compare, constrain, assign_partial in both possible branches) never fail on assigned NaN-free intervals and return exactly max(A,B); the unconstrained variant imax0 encloses it.", "quantifier": "all pairs of assigned NaN-free intervals, integer and floating-point", "why_tests_cant": "whole-program claim for all intervals; the doc shows one example", "anchors": ["examples/doc/sample.cpp:max3", "examples/simple2.cpp:imax", "include/intervals/interval.hpp:constrain", "include/intervals/interval.hpp:assign_partial"]}
{"id": "C18", "title": "constrain never discards a satisfying value", "statement": "If x in X together with values of the other operands satisfies the condition c, then x in constrain(X, c).", "quantifier": "all conditions built from comparisons with &, | and !, all operand intervals and scalars, all satisfying assignments", "why_tests_cant": "conditions are an unbounded tree language and the claim is over all satisfying assignments", "anchors": ["include/intervals/detail/interval.hpp:detail::constrain", "include/intervals/interval.hpp:constrain", "README.md:constrain"]}
{"id": "C19", "title": "constrain only narrows", "statement": "Every point of constrain(X, c) is a point of X.", "quantifier": "all conditions, all intervals, including intervals that were already constrained before", "why_tests_cant": "the claim is over all condition trees and all earlier narrowing steps", "anchors": ["include/intervals/detail/interval.hpp:detail::constrain", "include/intervals/interval.hpp:constrain"]}
{"id": "C20", "title": "constrain is tight for a single comparison", "statement": "For a single comparison of X with an operand Y (any relation, either side), the bounds of constrain(X, c) are the tightest closed bounds: for discrete types each bound is attained by a value of X that satisfies c with some y in Y; for floating-point types this holds for <=, >=, == and for strict relations the bound is the infimum/supremum of the satisfying reals.", "quantifier": "all comparisons, all operand intervals", "why_tests_cant": "tightness is an exists statement for every instance", "anchors": ["include/intervals/detail/interval.hpp:detail::constrain"]}
{"id": "C21", "title": "constrain fails exactly when it should", "statement": "constrain(X, c) is a contract violation if c does not mention X, or if a comparison mentioning X outside every disjunction is impossible; it is not a contract violation (and never undefined behaviour) if c mentions X and is satisfied by some assignment.", "quantifier": "all condition trees, all operand intervals, both build modes", "why_tests_cant": "claim over all trees; interplay of optional and considered flags", "anchors": ["include/intervals/detail/interval.hpp:detail::constrain", "include/intervals/interval.hpp:constrain"]}
{"id": "C22", "title": "Negation and composition of conditions are faithful", "statement": "The truth set of a compound condition contains the truth value of every point evaluation; !c has the complementary truth set and its constraint is the logical negation of c; !!c constrains like c.", "quantifier": "all condition trees built from comparisons, &, |, !", "why_tests_cant": "structural property over unbounded trees", "anchors": ["include/intervals/detail/interval.hpp:operator !", "include/intervals/detail/interval.hpp:operator &", "include/intervals/detail/interval.hpp:operator |"]}
{"id": "C23", "title": "Order of conjuncts and disjuncts does not matter to constrain", "statement": "constrain(X, a & b) and constrain(X, b & a) have the same outcome, likewise for |.", "quantifier": "all pairs of conditions, all intervals", "why_tests_cant": "claim over all pairs of trees", "anchors": ["include/intervals/detail/interval.hpp:detail::constrain(constraint_conjunction)", "include/intervals/detail/interval.hpp:detail::constrain(constraint_disjunction)"]}
{"id": "C24", "title": "Constraining by a comparison with an operand of another arithmetic type is sound", "statement": "For an interval<double> X and an integral operand k, constrain(X, X < k), constrain(X, X > k) and their negated non-strict counterparts keep every value of X that satisfies the comparison.", "quantifier": "all floating-point intervals, all integral operands", "why_tests_cant": "tests only mix operand types where both sides step the same way", "anchors": ["include/intervals/detail/interval.hpp:succ", "include/intervals/detail/interval.hpp:pred", "include/intervals/detail/interval.hpp:detail::constrain(less_constraint)"]}
{"id": "C25", "title": "Integer interval addition, subtraction and negation are exact and overflow exactly when a point operation does", "statement": "For interval<int-like> X, Y (or scalars): the result contains exactly the hull of all x+y (x-y, -x), both bounds are attained, and the operation has undefined behaviour iff some point operation has.", "quantifier": "all signed integer widths, all assigned intervals", "why_tests_cant": "2^128 interval pairs; overflow corner cases at every boundary", "anchors": ["include/intervals/interval.hpp:operator +", "include/intervals/interval.hpp:operator -"]}
{"id": "C26", "title": "Integer interval multiplication is exact and overflows exactly when a point product does", "statement": "x*y in X*Y for all points, both bounds are attained, and X*Y has undefined behaviour iff some point product has; the scalar overloads agree with the degenerate interval.", "quantifier": "all signed integer widths, all assigned intervals and scalars", "why_tests_cant": "same", "anchors": ["include/intervals/interval.hpp:operator *"]}
{"id": "C27", "title": "Integer interval division is exact and traps exactly on a possible zero divisor or overflow", "statement": "x/y in X/Y for all points when 0 is not in Y, both bounds are attained, and X/Y is undefined (trap) iff some point quotient is.", "quantifier": "all signed integer widths, all assigned intervals and scalars", "why_tests_cant": "truncating division at sign boundaries; min/-1", "anchors": ["include/intervals/interval.hpp:operator /"]}
{"id": "C28", "title": "Integer square, cube, abs and sgn are exact and overflow exactly when a point operation does", "statement": "The result is the hull of the point results with attained bounds; undefined behaviour iff some point evaluation is undefined.", "quantifier": "all signed integer widths, all assigned intervals", "why_tests_cant": "asymmetric integer range", "anchors": ["include/intervals/interval.hpp:square", "include/intervals/interval.hpp:cube", "include/intervals/interval.hpp:abs", "include/intervals/interval.hpp:sgn"]}
{"id": "C29", "title": "Iterator intervals: arithmetic encloses point arithmetic and dereferencing is the hull of the elements", "statement": "it+n, n+it, it-n, it-it, prev, next on interval operands enclose (exactly, with attained bounds) all point results and leave the range iff some point operation does; *it is the smallest interval containing every element at a position in the interval, and reads only positions inside the interval.", "quantifier": "all ranges, all iterator intervals, all offset intervals", "why_tests_cant": "unbounded range lengths", "anchors": ["include/intervals/interval.hpp:operator + (iterator)", "include/intervals/interval.hpp:operator - (iterator)", "include/intervals/interval.hpp:iterator_interval_base::operator *", "include/intervals/interval.hpp:iterator_interval_base::operator []", "include/intervals/interval.hpp:prev", "include/intervals/interval.hpp:next"]}
{"id": "C30", "title": "Floating-point interval +, - and negation satisfy inclusion, are attained, and report indefiniteness exactly", "statement": "For assigned NaN-free X, Y: the result is the NaN interval iff some x op y is NaN; otherwise it contains x op y (the rounded floating-point result) for all x in X, y in Y and both bounds are attained.", "quantifier": "every floating-point format with monotone rounding, all intervals including infinite bounds and signed zeros", "why_tests_cant": "continuum of points, rounding, infinities", "anchors": ["include/intervals/interval.hpp:operator +", "include/intervals/interval.hpp:operator -"]}
{"id": "C31", "title": "Floating-point interval multiplication satisfies inclusion, is attained, and reports indefiniteness exactly", "statement": "For assigned NaN-free X, Y: X*Y is the NaN interval iff some x*y is NaN (0 times infinity); otherwise it contains the rounded x*y for all points and both bounds are attained; scalar overloads agree with degenerate intervals.", "quantifier": "every floating-point format with monotone rounding, all intervals including infinite bounds and signed zeros", "why_tests_cant": "as above", "anchors": ["include/intervals/interval.hpp:operator *"]}
{"id": "C32", "title": "Floating-point interval division satisfies inclusion", "statement": "For assigned NaN-free X, Y: X/Y is the NaN interval iff some x/y is NaN; otherwise it contains the rounded x/y for every x in X and every non-zero y in Y.", "quantifier": "every floating-point format with monotone rounding, all intervals including infinite bounds and signed zeros", "why_tests_cant": "the sign of a zero bound of the divisor is invisible in tests that compare bounds with ==", "anchors": ["include/intervals/interval.hpp:operator /"]}
{"id": "C33", "title": "Floating-point square, cube, abs, sgn and set<sign> products satisfy inclusion", "statement": "For assigned NaN-free X the results contain every rounded point result; square and abs are non-negative with attained bounds; sgn(X) is exactly the set of signs of points of X; S*X contains s*x for all s in S, x in X.", "quantifier": "every format with monotone rounding, all intervals", "why_tests_cant": "continuum of points, infinities", "anchors": ["include/intervals/interval.hpp:square", "include/intervals/interval.hpp:cube", "include/intervals/interval.hpp:abs", "include/intervals/interval.hpp:sgn", "include/intervals/interval.hpp:operator *(set<sign>, X)"]}
{"id": "C34", "title": "NaN intervals stay NaN through arithmetic", "statement": "If an operand of +, -, *, / or unary -, square, cube, abs is the NaN interval and the others are assigned, the result is the NaN interval; min/max, assign, merge and if_else likewise never hide a NaN operand.", "quantifier": "all formats, all other operands", "why_tests_cant": "NaN-dropping comparison order in min/max is data dependent", "anchors": ["include/intervals/interval.hpp:operator *", "include/intervals/interval.hpp:min", "include/intervals/interval.hpp:interval_base::_assign", "include/intervals/math.hpp:min", "include/intervals/math.hpp:max"]}
{"id": "C35", "title": "isinf, isfinite and isnan classify the points of an interval", "statement": "For assigned X: isinf(X) contains exactly the values isinf(x) for x in X; isfinite(X) exactly isfinite(x); isnan(X) is {false} iff no bound is NaN.", "quantifier": "all floating-point intervals, NaN bounds included", "why_tests_cant": "exists statements over points", "anchors": ["include/intervals/interval.hpp:isinf", "include/intervals/interval.hpp:isfinite", "include/intervals/interval.hpp:isnan"]}
{"id": "C36", "title": "floor, ceil, round and frac satisfy inclusion and are tight", "statement": "For assigned NaN-free finite X: floor(x), ceil(x), round(x) lie in the respective interval result with attained bounds; frac(x) lies in frac(X), and the bounds of frac(X) are the infimum and supremum of the point results. floor, ceil and round keep the sign bit of every argument, zeros included.", "quantifier": "all intervals of reals", "why_tests_cant": "continuum of points", "anchors": ["include/intervals/interval.hpp:floor", "include/intervals/interval.hpp:ceil", "include/intervals/interval.hpp:round", "include/intervals/interval.hpp:frac"]}
{"id": "C37", "title": "Monotone elementary functions satisfy inclusion", "statement": "sqrt, cbrt, exp, log, atan, asin, acos of an interval within the domain contain the function value of every point, and both bounds are attained. Outside the domain a debug build reports a contract violation; a release build returns NaN bounds for sqrt and log, but for asin and acos it drops the NaN and returns the one-point interval at the bound inside the domain.", "quantifier": "all intervals within the domain, any monotone library implementation and the exact real functions", "why_tests_cant": "continuum of points", "anchors": ["include/intervals/interval.hpp:sqrt", "include/intervals/interval.hpp:cbrt", "include/intervals/interval.hpp:log", "include/intervals/interval.hpp:exp", "include/intervals/interval.hpp:acos", "include/intervals/interval.hpp:asin", "include/intervals/interval.hpp:atan"]}
{"id": "C38", "title": "cos and sin of an interval are exact in real arithmetic", "statement": "For every real interval X, cos(X) and sin(X) contain cos(x), sin(x) for all x in X, their bounds are attained, and they lie in [-1,1].", "quantifier": "all real intervals of any width and position", "why_tests_cant": "all quadrant/width combinations over the reals", "anchors": ["include/intervals/interval.hpp:cos", "include/intervals/interval.hpp:sin", "include/intervals/math.hpp:wraparound"]}
{"id": "C39", "title": "tan of an interval satisfies inclusion", "statement": "For every real interval X, tan(X) contains tan(x) for every x in X where tan is defined.", "quantifier": "all real intervals", "why_tests_cant": "pole crossings for any period", "anchors": ["include/intervals/interval.hpp:tan"]}
{"id": "C40", "title": "atan2 of intervals satisfies inclusion", "statement": "For real intervals Y, X not meeting the branch cut, atan2(Y,X) contains atan2(y,x) for all points and its bounds are attained; it is the NaN interval iff Y contains 0 and X contains a non-positive number.", "quantifier": "all pairs of real intervals", "why_tests_cant": "corner argument over a plane region", "anchors": ["include/intervals/interval.hpp:atan2"]}
{"id": "C41", "title": "pow of intervals satisfies inclusion", "statement": "For real intervals X, Y: pow(X,Y) contains x^y for all x in X, y in Y when x >= 0, and when Y is a single integer also for negative x; otherwise it is the NaN interval.", "quantifier": "all pairs of real intervals", "why_tests_cant": "two-dimensional corner argument with 0^0 and infinities", "anchors": ["include/intervals/interval.hpp:pow", "include/intervals/interval.hpp:_multiply_0"]}
{"id": "C42", "title": "wraparound maps into the half-open range and preserves the residue", "statement": "wraparound(x,min,max) lies in [min,max) and differs from x by an integer multiple of max-min, and fails fast if min >= max.", "quantifier": "all reals x, min < max", "why_tests_cant": "all reals", "anchors": ["include/intervals/math.hpp:wraparound"]}
{"id": "C43", "title": "fractional_weights encloses normalised weights", "statement": "For intervals a,b >= 0 with a+b > 0, the two results contain a/(a+b) and b/(a+b) for all points, with attained bounds.", "quantifier": "all real weight intervals", "why_tests_cant": "two-dimensional continuum", "anchors": ["include/intervals/interval.hpp:fractional_weights", "include/intervals/math.hpp:fractional_weights"]}
{"id": "C44", "title": "blend_fractions is the exact range of the convex combination", "statement": "For f within [0,1] and intervals x,y, blend_fractions(f,x,y) contains f*x+(1-f)*y for all points, with attained bounds.", "quantifier": "all real intervals", "why_tests_cant": "three-dimensional continuum with sign-dependent extremal choices", "anchors": ["include/intervals/interval.hpp:blend_fractions", "include/intervals/math.hpp:blend_fractions"]}
{"id": "C45", "title": "blend_linear encloses the weighted mean", "statement": "For intervals a,b >= 0, a+b > 0, x, y: blend_linear(a,b,x,y) contains (a*x+b*y)/(a+b) for all points, including a = 0 or b = 0, with attained bounds.", "quantifier": "all real intervals", "why_tests_cant": "four-dimensional continuum with zero weights", "anchors": ["include/intervals/interval.hpp:blend_linear", "include/intervals/math.hpp:blend_linear"]}
{"id": "C46", "title": "Fundamental theorem: interval evaluation of an expression encloses all point evaluations", "statement": "For every expression built from variables, constants and the library's arithmetic operations, evaluating it with intervals either reports an indefinite (NaN) result or yields an interval containing the floating-point result of every point evaluation within the inputs.", "quantifier": "all expression trees, all input intervals, all points", "why_tests_cant": "unbounded expression trees and continuum of points", "anchors": ["README.md:fundamental theorem", "include/intervals/interval.hpp:operator +", "include/intervals/interval.hpp:operator *"]}
{"id": "C47", "title": "Interval operations are inclusion isotone", "statement": "If X is contained in X' and Y in Y' then X op Y is contained in X' op Y' for the arithmetic, comparison, min/max and conditional operations (NaN-free results).", "quantifier": "all nested operand pairs", "why_tests_cant": "quantifies over pairs of pairs of intervals", "anchors": ["include/intervals/interval.hpp:operator +", "include/intervals/interval.hpp:operator *", "include/intervals/interval.hpp:compare_lt"]}
{"id": "C48", "title": "Checked narrowing is exact or reports failure", "statement": "narrow<T>(X) and narrow_failfast<T>(X) return an interval with the same bounds if both bounds are representable and otherwise throw / fail fast; narrow_cast<T> of representable bounds is exact; unassigned stays unassigned.", "quantifier": "all source and target integer widths, all intervals", "why_tests_cant": "all widths and values", "anchors": ["include/intervals/interval.hpp:narrow", "include/intervals/interval.hpp:narrow_cast", "include/intervals/interval.hpp:narrow_failfast"]}
{"id": "C49", "title": "Conversions between interval types preserve points", "statement": "Converting an interval to another value type keeps unassigned intervals unassigned and, for a monotone value conversion, maps every contained point to a contained point.", "quantifier": "all value conversions that are monotone, all intervals", "why_tests_cant": "all conversions", "anchors": ["include/intervals/interval.hpp:interval::interval(interval_base<U>)"]}
{"id": "C50", "title": "Debug mode traps every use of an unassigned interval", "statement": "With debug contract checks on, every arithmetic, comparison and elementary operation with an unassigned interval operand is a contract violation; it never returns a result.", "quantifier": "all operations, all other operands", "why_tests_cant": "all operations times all other operands", "anchors": ["include/intervals/interval.hpp:gsl_ExpectsDebug"]}
{"id": "C51", "title": "partition_point, lower_bound and upper_bound enclose every scalar search result", "statement": "For a sorted range and an interval value X, the position interval returned by lower_bound/upper_bound contains the scalar result for every x in X, its bounds are the scalar results for the bounds of X, and the call does not fail.", "quantifier": "all sorted ranges, all intervals", "why_tests_cant": "unbounded ranges; binary search", "anchors": ["include/intervals/algorithm.hpp:partition_point", "include/intervals/algorithm.hpp:lower_bound", "include/intervals/algorithm.hpp:upper_bound"]}
{"id": "C52", "title": "Constraining by a partition keeps exactly the values belonging to it", "statement": "For position j of lower_bound(range, X), constrain(X, preds[j]) contains every x in X whose scalar lower_bound is j, is contained in X and in [range[j-1], range[j]], and does not fail when j is in the returned position interval.", "quantifier": "all sorted ranges, all intervals, all positions and position intervals", "why_tests_cant": "unbounded ranges", "anchors": ["include/intervals/algorithm.hpp:constrain(IntervalT, PartitioningConstraintT)", "include/intervals/detail/algorithm.hpp:partitioning"]}
{"id": "C53", "title": "enumerate visits each member exactly once, in order, without overflow", "statement": "Iterating enumerate(X) over an integer or iterator interval yields lower, lower+1, ..., upper once each and never increments past upper (no overflow at the type's maximum); over a set it yields exactly the members in index order; over a scalar it yields that scalar; advancing or dereferencing an exhausted iterator fails fast.", "quantifier": "all intervals, sets and scalars", "why_tests_cant": "intervals up to the extreme of the type", "anchors": ["include/intervals/algorithm.hpp:enumerate", "include/intervals/detail/algorithm.hpp:interval_value_iterator", "include/intervals/detail/algorithm.hpp:set_value_iterator", "include/intervals/detail/algorithm.hpp:single_value_iterator"]}
{"id": "C54", "title": "at with an interval index encloses every selected element", "statement": "at(range, I) is the smallest interval (or set) containing range[i] for all i in I, and fails fast iff I is unassigned or reaches outside the range.", "quantifier": "all ranges, all index intervals", "why_tests_cant": "unbounded ranges", "anchors": ["include/intervals/algorithm.hpp:at"]}
{"id": "C55", "title": "Interval-aware linear interpolation encloses scalar interpolation", "statement": "The interpolate_linear example, run on an interval X, never fails and its result contains interpolate_linear_scalar(x) for every x in X.", "quantifier": "all strictly sorted tables of length >= 2, all intervals, all points", "why_tests_cant": "whole-program claim over unbounded tables", "anchors": ["examples/interpolate-linear.cpp:interpolate_linear"]}
{"id": "C56", "title": "Interval-aware nearest-neighbour interpolation encloses scalar interpolation", "statement": "The interpolate_nearest_neighbour example, run on an interval X, never fails and its result contains the scalar result for every x in X.", "quantifier": "all sorted tables of length >= 2, all intervals", "why_tests_cant": "whole-program claim over unbounded tables", "anchors": ["examples/interpolate-nn.cpp:interpolate_nearest_neighbour"]}
{"id": "C57", "title": "as_regular gives value semantics", "statement": "Copy assignment of as_regular<T>, including self-assignment, leaves the target equal to the source and the source unchanged; move assignment does so for distinct objects and for self-assignment.", "quantifier": "all object stores, all sequences of copy/move assignments, aliasing included", "why_tests_cant": "aliasing and lifetime histories", "anchors": ["include/intervals/utility.hpp:as_regular"]}
{"id": "C58", "title": "Streamed text of sets and intervals lists exactly their content", "statement": "operator<< prints a set as the comma-separated list of exactly its members in index order between braces, and an interval as its single value when degenerate and as [lower, upper] otherwise. Sets and intervals can be recovered from their texts, if values can be recovered from theirs and those contain no comma.", "quantifier": "all sets and intervals", "why_tests_cant": "all sets", "anchors": ["include/intervals/set.hpp:operator <<", "include/intervals/interval.hpp:operator <<"]}
{"id": "C59", "title": "The documented sqrt-or-zero program is exact", "statement": "The program s(x) of examples/simple3.cpp, run on an interval, never fails; its result contains s(v) for every point v, and both bounds are values of s.", "quantifier": "all intervals, all points, every sqrt monotone on the non-negative numbers", "why_tests_cant": "claim over all intervals and all monotone square roots", "anchors": ["examples/simple3.cpp:s"]}
{"id": "C60", "title": "Rewriting removes the dependency effect", "statement": "In exact arithmetic square(x-1)-1 evaluates to the exact range of t^2-2t over a finite interval, and square(x)-2*x evaluates to an interval that contains it.", "quantifier": "all finite intervals over every ordered field", "why_tests_cant": "claim over all intervals", "anchors": ["examples/simple1.cpp:f1", "examples/simple1.cpp:f2"]}
{"id": "C61", "title": "Construction of intervals and access to their bounds", "statement": "For every value type of the library and all arguments: interval{a,b} is a contract violation exactly if a > b, and otherwise an assigned interval whose lower(), upper(), get<0>, get<1>, infimum and supremum return a and b; interval{v} has value() v; a default-constructed interval is not assigned, has no points, and its value() is a contract violation, as are its checked accessors in debug mode; from_unordered_bounds(b1,b2) is the interval of all values between b1 and b2, whichever comes first; value() returns v exactly if v is the only point, and is a contract violation for an interval with none or several.", "quantifier": "every totally ordered or NaN-extended value type, all endpoint values (NaN-free where stated), both build modes, every interval", "why_tests_cant": "the tests construct a few literal intervals; the claim ranges over all endpoint pairs, including infinities, the type's extreme values and both argument orders", "anchors": ["include/intervals/interval.hpp:interval", "include/intervals/interval.hpp:from_unordered_bounds", "include/intervals/interval.hpp:value", "include/intervals/interval.hpp:infimum", "include/intervals/interval.hpp:supremum", "include/intervals/interval.hpp:get"]}
{"id": "C62", "title": "Interval-aware programs enclose their scalar runs", "statement": "Take any program built from declarations, calls of library functions with an inclusion property, calls of other such programs (also recursive ones), blocks, loops with a fixed number of iterations, auto c = <condition>; if (possibly(c)) {..} if (possibly(!c)) {..}, constrain(v, c), assign_partial, assign and reset, which reads only assigned variables, does not assign to a variable while a condition about it is at hand, overwrites (reset) only variables declared in the same branch, and constrains variables only with conditions that mention them. If it runs on intervals without a contract violation (and no function returns a NaN interval), then for all scalars from the input intervals the scalar instantiation runs without a contract violation, and every assigned variable's value lies in the corresponding interval. If the conditions are single comparisons, the functions are total and assign is not used, the interval run never fails. max2 and max3 of the README are such programs; dropping the rules about assignments makes the claim false. sqrt, cbrt, log, exp and atan (in debug builds also asin and acos) are functions with an inclusion property; asin in release builds is not.", "quantifier": "all programs of the language (any size and nesting), all input intervals and all points in them, every value type, both build modes", "why_tests_cant": "the claim ranges over all programs and all inputs; the tests run a handful of fixed programs on literal intervals", "anchors": ["README.md:Interval-aware programming", "include/intervals/interval.hpp:constrain", "include/intervals/interval.hpp:assign_partial", "include/intervals/math.hpp:constrain", "include/intervals/math.hpp:assign_partial", "include/intervals/set.hpp:possibly", "include/intervals/interval.hpp:reset", "include/intervals/interval.hpp:assign", "include/intervals/math.hpp:reset", "include/intervals/math.hpp:assign"]}
{"id": "C63", "title": "Selecting and overwriting sets", "statement": "For every condition set and all sets over any finite list of distinct values: if_else(cond, t, f) returns exactly the values of the branches the condition allows; in debug mode an empty set in an allowed branch is a contract violation; the overloads with a plain value in one branch select that value, and a value that is not reflected is a contract violation whatever the condition; on a plain bool the set version returns the singleton of what the scalar if_else returns; assign and reset replace the set by the new one, assign_partial adds the new values.", "quantifier": "all condition sets, all sets over every finite list of distinct values, both build modes", "why_tests_cant": "the tests try a few literal conditions and branches; the claim ranges over all of them and over all overload combinations", "anchors": ["include/intervals/set.hpp:if_else", "include/intervals/logic.hpp:if_else", "include/intervals/set.hpp:assign", "include/intervals/set.hpp:assign_partial", "include/intervals/set.hpp:reset"]}
{"id": "C64", "title": "An interval of one value behaves like that value", "statement": "On operands that are scalars or one-value intervals [v,v], every operation agrees with the scalar operation on the values: comparisons (without NaN) give the singleton of the scalar comparison and the projections of a singleton agree with those of the bool; constrain with a comparison keeps the value if it holds and fails exactly as the scalar constrain; if_else, assign, assign_partial, reset, merge, intersect, min, max, infimum and supremum give the scalar result; + - * / and unary -, +, square, cube, abs of integers give the scalar result and have undefined behaviour exactly if the scalar operation has; the same operations of floating-point numbers give exactly the scalar result in every format, including NaN, infinities and signed zeros (abs of a zero up to the sign of zero); sqrt, cbrt, log, exp, asin, acos, atan, atan2, floor, ceil, round, frac (no NaN), fractional_weights, blend_fractions and the classification functions (no NaN) give the scalar results and check the scalar preconditions; and iterator arithmetic and dereferencing agree with the iterator operations.", "quantifier": "all values of every value type (all widths of integers, all floating-point formats and rounding modes, all <cmath> implementations), scalar or one-value-interval in every operand position, both build modes", "why_tests_cant": "the claim ranges over all values and formats, including overflow, NaN and signed zeros; tests compare a few literals", "anchors": ["include/intervals/interval.hpp:operator +", "include/intervals/interval.hpp:operator *", "include/intervals/interval.hpp:operator /", "include/intervals/interval.hpp:operator <", "include/intervals/interval.hpp:square", "include/intervals/interval.hpp:abs", "include/intervals/interval.hpp:frac", "include/intervals/interval.hpp:fractional_weights", "include/intervals/math.hpp:constrain", "include/intervals/math.hpp:min"]}
{"id": "C65", "title": "Type traits for generic interval-aware code", "statement": "For every type: set_of_t<T> is a set type (set or interval) holding values of the same type as T, is defined for bool, enumerations, arithmetic types and random-access iterators, uses the requested reflector, leaves sets and intervals unchanged, strips identities, and is idempotent; propagate_set_t<S,T> is T if S is plain and the set type for T if S is a set type, including the types of the conditions that comparisons of intervals return; interval_arg_value_t, interval_of_t, interval_of<T>::type and interval_t give the type of the values and the interval over it; common_interval_t does not depend on whether arguments are scalars, intervals or intervals with identity.", "quantifier": "all types, all argument lists, every std::common_type", "why_tests_cant": "the traits range over unboundedly many types and argument packs", "anchors": ["include/intervals/type_traits.hpp:set_of_t", "include/intervals/type_traits.hpp:propagate_set_t", "include/intervals/type_traits.hpp:interval_of", "include/intervals/type_traits.hpp:interval_of_t", "include/intervals/type_traits.hpp:common_interval_t", "include/intervals/detail/type_traits.hpp:interval_arg_value_0_"]}
{"id": "C66", "title": "Comparison with an interval in the invalid state gives the empty set", "statement": "As the README promises: without debug checks, comparing an interval in the invalid (default-constructed) state with any operand, by any of the six comparison operators and in either position, gives the empty set, so that neither branch of an interval-aware conditional is taken.", "quantifier": "all operands (scalars, intervals, invalid intervals) of every value type with an invalid state, all six operators, both positions", "why_tests_cant": "the claim ranges over all operands, including those that reach the limits of the type", "anchors": ["README.md:Relational predicates", "include/intervals/interval.hpp:operator <", "include/intervals/interval.hpp:operator ==", "include/intervals/interval.hpp:compare_eq"]}
{"id": "C67", "title": "Narrowing of floating-point and mixed intervals", "statement": "For every assigned interval: narrow_cast to another floating-point format, and from an integer type, never fails and encloses the conversion of every point; narrow_cast to an integer type encloses the truncation of every point. narrow and narrow_failfast return the interval with the same bounds if both bounds are values of the target type, and otherwise throw narrowing_error, respectively violate a contract; they never do anything else. Unassigned intervals stay unassigned; a NaN bound is reported.", "quantifier": "all intervals; all integer widths; all floating-point formats in which rounding is monotone (binary32 and binary64 shown to be instances)", "why_tests_cant": "the value ranges are too large to enumerate and the failures sit at single values such as 2^63-1", "anchors": ["include/intervals/interval.hpp:narrow_cast", "include/intervals/interval.hpp:narrow", "include/intervals/interval.hpp:narrow_failfast", "include/intervals/math.hpp:narrow"]}
{"id": "C68", "title": "Operands of different value types", "statement": "For valid operands of two different signed integer or floating-point types, +, -, * and / give what they give on the operands converted to the common type. If the common type is floating-point, sum, difference, product and quotient are the NaN interval exactly if some pair of points (values of the operands' own types) gives an indefinite result; otherwise they contain the result of every pair of points (quotients: with a non-zero divisor), and the bounds of sum, difference, product, and quotient by a divisor without zero are results of points. If it is integral, the result is undefined exactly if some point operation is undefined in the common type and otherwise the exact hull. The comparison operators contain the result for every pair of points, and the ordering comparisons contain nothing else.", "quantifier": "all operands (scalars and intervals), all integer widths, all floating-point formats (binary32 and binary64 shown to be instances), both build modes", "why_tests_cant": "the claim ranges over all pairs of types and values; the classification happens in the operand's own type while the arithmetic happens in the common type, so failures sit at conversions (zero has no sign in an integer type)", "anchors": ["include/intervals/interval.hpp:operator +", "include/intervals/interval.hpp:operator -", "include/intervals/interval.hpp:operator *", "include/intervals/interval.hpp:operator /", "include/intervals/interval.hpp:operator <", "include/intervals/detail/interval.hpp:_is_negative_inf_t", "include/intervals/type_traits.hpp:common_interval_value"]}
{"id": "C69", "title": "Functions declared noexcept do not fail", "statement": "No function declared noexcept violates a contract or throws, whatever its arguments (it would terminate the program): nan_interval, inf_interval and narrow_cast, which construct an interval from two bounds and so contain the constructor's check, always return.", "quantifier": "all intervals (assigned, unassigned, with NaN bounds), all integer widths, all floating-point formats", "why_tests_cant": "the claim ranges over all intervals and pairs of types; the failing bounds are those that change order when they wrap around", "anchors": ["include/intervals/interval.hpp:narrow_cast", "include/intervals/detail/interval.hpp:nan_interval", "include/intervals/detail/interval.hpp:inf_interval"]}
{"id": "C70", "title": "Weights and blends of plain numbers", "statement": "For weights a, b >= 0 with a + b > 0, in exact arithmetic: fractional_weights returns a/(a+b) and b/(a+b), two numbers of [0,1] with sum 1; blend_linear returns (a*x+b*y)/(a+b) and blend_fractions f*x+(1-f)*y for f in [0,1], numbers between x and y; blend_quadratic returns the non-negative number with square ((a*x)^2+(b*y)^2)/(a+b)^2, at most max(|x|,|y|). Debug builds reject weights outside the domain and f outside [0,1]. In every floating-point format with a number 1, the weights stay in [0,1], also when a+b rounds or overflows.", "quantifier": "all numbers, either sign of zero, both build modes; all floating-point formats", "why_tests_cant": "the claims range over all numbers", "anchors": ["include/intervals/math.hpp:fractional_weights", "include/intervals/math.hpp:blend_fractions", "include/intervals/math.hpp:blend_linear", "include/intervals/math.hpp:blend_quadratic"]}
{"id": "C71", "title": "Results on real numbers are the real results, rounded once", "statement": "For operands with finite bounds, regarded as sets of real numbers: the bounds of x+y, x-y, x*y and, for a divisor without zero, x/y are the least and the greatest real result, each rounded once to the format, and the result contains the rounded value of every real result. In a binary format a real result that does not overflow therefore lies at most half a unit in its last place outside of the result. (The real results themselves need not be enclosed: bounds are rounded to nearest.)", "quantifier": "all operands with finite bounds, all real points, all floating-point formats; the error bound for all binary formats; both build modes", "why_tests_cant": "the claim ranges over all real points, of which tests can only sample representable ones", "anchors": ["include/intervals/interval.hpp:operator +", "include/intervals/interval.hpp:operator -", "include/intervals/interval.hpp:operator *", "include/intervals/interval.hpp:operator /"]}
{"id": "C72", "title": "Laws of interval arithmetic", "statement": "Addition and multiplication commute; 0 is neutral for + and -, 1 for * and /; x - y is x + (-y) where -y is defined; x - x contains 0. Addition and multiplication associate, x*(y+z) is contained in x*y + x*z, with equality if x is a scalar: for integers whenever the intermediate results are defined, for floating-point numbers in exact arithmetic (with rounding these fail). Floating-point laws hold up to the sign of zero bounds.", "quantifier": "all operands (scalars and intervals), all integer widths, all floating-point formats (associativity and subdistributivity: exact arithmetic), both build modes", "why_tests_cant": "laws relate several calls on all triples of operands", "anchors": ["include/intervals/interval.hpp:operator +", "include/intervals/interval.hpp:operator -", "include/intervals/interval.hpp:operator *", "include/intervals/interval.hpp:operator /"]}
{"id": "C73", "title": "NaN propagates through the elementary functions", "statement": "Applied to the NaN interval, an elementary function returns the NaN interval: the caller can tell that the value is undefined. Functions with a restricted domain (sqrt, log, asin, acos, and atan2 of a possibly zero ordinate) report a contract violation in debug builds instead, and return NaN in release builds. No function returns an interval of ordinary numbers, an unassigned interval, or runs into undefined behaviour.", "quantifier": "all elementary functions, all other operands of binary functions, all floating-point formats and all <cmath> implementations that map NaN to NaN, both build modes", "why_tests_cant": "the repository has no tests with NaN intervals; the claim ranges over all other operands and all libm implementations", "anchors": ["include/intervals/interval.hpp:sqrt", "include/intervals/interval.hpp:cbrt", "include/intervals/interval.hpp:log", "include/intervals/interval.hpp:exp", "include/intervals/interval.hpp:acos", "include/intervals/interval.hpp:asin", "include/intervals/interval.hpp:atan", "include/intervals/interval.hpp:cos", "include/intervals/interval.hpp:sin", "include/intervals/math.hpp:wraparound", "include/intervals/interval.hpp:tan", "include/intervals/interval.hpp:atan2", "include/intervals/interval.hpp:pow", "include/intervals/interval.hpp:frac", "include/intervals/interval.hpp:floor", "include/intervals/interval.hpp:ceil", "include/intervals/interval.hpp:round"]}
{"id": "C74", "title": "Fundamental theorem with elementary functions", "statement": "Evaluating an expression built from the arithmetic operators and the elementary functions with intervals for its variables gives an interval that contains the value of the expression for every choice of points from these intervals (or the NaN interval). In exact real arithmetic this covers all elementary functions; in a floating-point format it covers the functions that are monotone on their domain, compared with the computation in the same format.", "quantifier": "all expressions, all intervals for the variables, all points; all floating-point formats and all monotone <cmath> implementations; both build modes", "why_tests_cant": "the expressions and points are unbounded, and points are real numbers", "anchors": ["include/intervals/interval.hpp:sqrt", "include/intervals/interval.hpp:cbrt", "include/intervals/interval.hpp:log", "include/intervals/interval.hpp:exp", "include/intervals/interval.hpp:acos", "include/intervals/interval.hpp:asin", "include/intervals/interval.hpp:atan", "include/intervals/interval.hpp:cos", "include/intervals/interval.hpp:sin", "include/intervals/math.hpp:wraparound", "include/intervals/interval.hpp:tan", "include/intervals/interval.hpp:atan2", "include/intervals/interval.hpp:operator +", "include/intervals/interval.hpp:operator -", "include/intervals/interval.hpp:operator *", "include/intervals/interval.hpp:operator /", "include/intervals/interval.hpp:pow", "include/intervals/interval.hpp:frac", "include/intervals/interval.hpp:floor", "include/intervals/interval.hpp:ceil", "include/intervals/interval.hpp:round"]}
{"id": "C75", "title": "Overload resolution: generic code compiles with sets in place of values", "statement": "No call of an operator or function of the library is ambiguous, for any argument types. A call that compiles with plain values (numbers, iterators, truth values, enumeration values) also compiles when some of the arguments are replaced by sets of such values (interval, interval with identity, set, condition), and its type is a type of sets of the original result. With plain arguments only, the result is plain. Conversely, a call with intervals among the arguments compiles only if the call with the values compiles, except that pow, atan2, weights and blends also take values of different types: they compile exactly if the common type is a floating-point type. assign compiles unless a set is assigned to a value; constrain compiles for a value with a truth value and for an lvalue interval with a condition, and for nothing else; merge and intersect take values or intervals.", "quantifier": "all functions, all argument types, every std::common_type, every set of built-in arithmetic types that obeys the rules of C++ for promotion, narrowing and comparison", "why_tests_cant": "the overload sets range over unboundedly many combinations of types, and a test that does not compile cannot be part of the test suite", "anchors": ["include/intervals/concepts.hpp:any_interval", "include/intervals/detail/concepts-internal.hpp:arithmetic_operands", "include/intervals/detail/concepts-internal.hpp:relational_values", "include/intervals/interval.hpp:operator *", "include/intervals/interval.hpp:if_else", "include/intervals/interval.hpp:constrain", "include/intervals/interval.hpp:merge", "include/intervals/logic.hpp:if_else", "include/intervals/set.hpp:operator *", "include/intervals/sign.hpp:operator *", "include/intervals/math.hpp:min"]}
{"id": "C76", "title": "Products and quotients of intervals of integer types narrower than int", "statement": "For an integer type narrower than int (short, signed char), the product of two intervals, of an interval and a value, of an interval or value and a sign or set of signs, and the quotient of an interval and a non-zero value, contain the results of all points; if the type can represent all these results, the result is the smallest such interval.", "quantifier": "all widths of the narrow type and of int, all intervals, values, signs and sets of signs, both build modes", "why_tests_cant": "the defect shows only for products beyond the range of the narrow type, which no test of the repository uses, and the set of operands is unbounded over all widths", "anchors": ["include/intervals/interval.hpp:operator *", "include/intervals/interval.hpp:operator /", "include/intervals/sign.hpp:operator *"]}
{"id": "C77", "title": "Blending in floating-point arithmetic", "statement": "In every floating-point format in which 1 is a number, for operands whose bounds are finite numbers of the format: blend_fractions succeeds for fractions within [0,1] and blend_linear for non-negative weights that are not all possibly zero, whatever overflows or divides by zero on the way; the result is an interval without NaN that contains what the scalar function computes for every choice of points.", "quantifier": "all floating-point formats with monotone rounding, all finite operands (scalars and intervals), debug and release mode", "why_tests_cant": "the operands and formats are unbounded in number; rounding makes the scalar function non-monotone in the fraction, so agreement at the ends says nothing about the fractions between", "anchors": ["include/intervals/interval.hpp:blend_fractions", "include/intervals/interval.hpp:blend_linear", "include/intervals/math.hpp:blend_fractions", "include/intervals/math.hpp:blend_linear"]}
{"id": "C78", "title": "Repeated constraining", "statement": "Narrowing several intervals in place with reset(x, constrain(x, c)) never widens an interval and, if both sides of each disjunction mention the interval being narrowed, never loses a common solution of the conditions. With single comparisons of a variable with another variable or a literal: no statement fails while a solution exists; narrower inputs give narrower results; all sequences of the statements that end in a state that no statement changes end with the same bounds, and no sequence passes below such a state; on integers a sequence in which each statement changes a bound is no longer than the sum of the widths, so such a state (or a contract violation) is reached; in it both bounds satisfy each condition with some value of the other operand; two statements narrow at least as far as one statement with the conjunction.", "quantifier": "all value types (with lawful stepping if discrete), all numbers of variables, all initial bounds, all finite sequences of statements, debug and release mode", "why_tests_cant": "the number of variables, conditions and orders is unbounded; independence of the order is a statement about all pairs of sequences", "anchors": ["include/intervals/interval.hpp:constrain", "include/intervals/detail/interval.hpp:constrain", "include/intervals/interval.hpp:reset"]}
{"id": "C79", "title": "Class template argument deduction", "statement": "interval(x) and interval{ x } have the type of the plain interval over the values of x, for every value or interval x; interval(x, y) is the interval over the common type of the values x and y, and so is interval{ x, y } exactly if neither conversion is narrowing; whenever such an expression compiles, its type is interval_of_t or common_interval_t of the arguments. set(x, ...) and set{ x, ... } with truth values or enumeration values compile exactly if all arguments have the same type, and are sets of that type; with a set they are copies; with a condition they are a set of truth values.", "quantifier": "all argument types, argument lists of any length, every std::common_type and narrowing relation", "why_tests_cant": "a test that does not compile cannot be part of the test suite, and the argument types are unbounded", "anchors": ["include/intervals/interval.hpp:interval", "include/intervals/set.hpp:set", "include/intervals/detail/set.hpp:enforce_same", "README.md:interval"]}
{"id": "C80", "title": "Elementary functions are inclusion isotone", "statement": "If each operand is contained in a larger operand, then the result of sqrt, cbrt, exp, log, atan, asin, acos, frac, pow, atan2, cos, sin, tan, fractional_weights, blend_fractions and blend_linear is contained in the result for the larger operands, whenever the latter is defined and not NaN; the smaller operation then succeeds as well.", "quantifier": "all proper operands; the monotone functions, frac, and pow of non-negative bases in every floating-point format and for every library with monotone functions; atan2 in every format with correctly rounded results; the others in exact arithmetic; debug and release mode", "why_tests_cant": "relates two evaluations on unboundedly many pairs of operands; code that picks cases from the operands (quadrants, poles, signs, integer exponents) can be right on each tested operand and still not be monotone across a case boundary", "anchors": ["include/intervals/interval.hpp:sqrt", "include/intervals/interval.hpp:cos", "include/intervals/interval.hpp:tan", "include/intervals/interval.hpp:pow", "include/intervals/interval.hpp:atan2", "include/intervals/interval.hpp:frac", "include/intervals/interval.hpp:blend_linear", "include/intervals/interval.hpp:fractional_weights"]}
{"id": "C81", "title": "cos and sin with rounding", "statement": "In a floating-point format with bounded rounding error and with an accurate library, cos(X) and sin(X) of a bounded interval succeed, lie within [-1, 1], and contain the cosine and sine of every number between the bounds; of an interval with an infinite bound they are [-1, 1].", "quantifier": "all formats and libraries with given error bounds (double and float in particular), all proper intervals whose bounds stay below the format's range, debug and release mode", "why_tests_cant": "needs a bound on the accumulated error of the argument reduction over all magnitudes; agreement at small arguments says nothing about large ones", "anchors": ["include/intervals/interval.hpp:cos", "include/intervals/interval.hpp:sin", "include/intervals/math.hpp:wraparound"]}
{"id": "C82", "title": "Interval-aware programs are inclusion isotone", "statement": "A well-formed interval-aware program (declarations, calls of library functions and of other such programs, also recursive ones, loops, constrain, assign_partial, assign, reset, branches on conditions built from comparisons, &, | and !), run on intervals that lie within other intervals, ends with every variable within its counterpart in the run on the wider intervals, if both runs return and the called functions are inclusion isotone. If the branch conditions are single comparisons and the functions are defined on narrower arguments whenever they are on wider ones, a program that returns for the wider inputs also returns for the narrower ones. sqrt, cbrt, log, exp and atan (in debug builds also asin and acos) are such functions.", "quantifier": "all well-formed programs, all value types (integral or not), all nested proper inputs, debug and release mode", "why_tests_cant": "quantifies over all programs and pairs of inputs; branches taken only on the wider inputs, disjunctions of which only one side is possible and stepping at integer bounds make monotonicity of the composition non-obvious", "anchors": ["include/intervals/interval.hpp:constrain", "include/intervals/detail/interval.hpp:constrain", "include/intervals/interval.hpp:assign_partial", "README.md:Interval-aware programming"]}
{"id": "C83", "title": "Enclosures converge as the operands narrow", "statement": "For an expression built from the arithmetic operations, min, max, abs, square, cube and the elementary functions (without the rounding functions floor, ceil, round, frac), evaluated in exact arithmetic with intervals over finite intervals on which every function is defined and every base of a power is positive, the width of the result tends to zero with the widths of the operands: for every tolerance there is a width such that on every sub-box with sides no wider than it the evaluation returns a finite interval, no wider than the tolerance, containing the value of the expression at every point of the sub-box. If moreover no root is taken of an interval containing zero and no inverse sine or cosine of one containing 1 or -1, the width of the result is at most proportional to the widths of the operands. Both restrictions are needed: floor([1-d,1]) has width 1 for every d in (0,1], and sqrt([0,d]) has width sqrt(d).", "quantifier": "all expressions, all finite boxes, all tolerances, all sub-boxes", "why_tests_cant": "a limit statement over all expressions and all sub-boxes", "anchors": ["include/intervals/interval.hpp:operator *", "include/intervals/interval.hpp:operator /", "include/intervals/interval.hpp:pow", "include/intervals/interval.hpp:cos", "include/intervals/interval.hpp:atan2"]}
{"id": "C84", "title": "Expressions that use every variable once have exact ranges", "statement": "If moreover no variable occurs twice in the expression, evaluating it with intervals yields exactly its range: a number lies in the result if and only if it is the value of the expression at some point of the box. With a repeated variable this fails: x - x on [a,b] with a < b yields an interval containing b - a though the only value is zero; with floor it fails too.", "quantifier": "all expressions without repeated variables, all finite boxes on which the functions are defined", "why_tests_cant": "a two-sided claim over all expressions and real points", "anchors": ["include/intervals/interval.hpp:operator *", "include/intervals/interval.hpp:operator -", "include/intervals/interval.hpp:sqrt", "include/intervals/interval.hpp:cos", "README.md:Dependency problem"]}
{"id": "C85", "title": "Subdivision yields arbitrarily tight enclosures", "statement": "Evaluating an expression as in C83 on the pieces of a subdivision of a finite box and merging the results yields an interval that lies within the result for the whole box, contains the value of the expression at every point of the box, and exceeds the range of these values by at most a given tolerance on either side if the pieces are narrow enough, however often variables are repeated. For a function of one variable, any large enough number of equal parts will do.", "quantifier": "all expressions, all finite boxes, all tolerances, all sufficiently fine subdivisions", "why_tests_cant": "a limit statement over all expressions and subdivisions", "anchors": ["include/intervals/interval.hpp:merge", "include/intervals/interval.hpp:operator *", "include/intervals/interval.hpp:cos", "README.md:Dependency problem"]}
{"id": "C86", "title": "Rounding changes the result in proportion to the rounding error", "statement": "For an expression of arithmetic operations, min, max, abs, square, cube, sqrt, cbrt, log, exp, cos, sin, tan, asin, acos, atan, atan2 and pow with a positive base, whose functions are applied in the interior of their domains (the tangent away from its poles), evaluated on finite intervals: in every floating-point format that represents 1 and whose rounding error u is small enough on a large enough range of numbers, the evaluation with a correctly rounded math library succeeds, and the bounds of the result differ from the bounds computed without rounding by at most a constant times u. The value of the expression at any point of the operands lies in the result, widened by the same amount. For IEEE 754 binary formats with p digits the difference is at most a constant times 2^-p.", "quantifier": "all expressions, all finite boxes, all formats", "why_tests_cant": "an asymptotic error bound over all expressions and all formats", "anchors": ["include/intervals/interval.hpp:operator *", "include/intervals/interval.hpp:operator /", "include/intervals/interval.hpp:sqrt", "include/intervals/interval.hpp:atan2", "include/intervals/interval.hpp:cos", "include/intervals/interval.hpp:tan", "include/intervals/interval.hpp:pow"]}
{"id": "C87", "title": "The debugger shows intervals, sets and conditions faithfully", "statement": "The Visual Studio visualizer shows an assigned interval with the same text as the stream operator and an unassigned one as uninitialized; intervals with the same text have the same points; a set's expanded view lists exactly its members with their indices, in order; a condition is shown as its truth values and a formula of its comparisons that, read in the usual way, is equivalent to the condition.", "quantifier": "all intervals, sets and conditions of any nesting, all value types, all texts of values", "why_tests_cant": "there is no test of the visualizer; conditions nest arbitrarily deeply", "anchors": ["src/intervals.natvis:Type", "include/intervals/detail/interval.hpp:equal_constraint", "include/intervals/detail/interval.hpp:constraint_conjunction", "include/intervals/interval.hpp:operator <<"]}
{"id": "C88", "title": "Code that is not interval-aware is rejected by the compiler", "statement": "A set, an interval or a condition cannot be the condition of if, while or ?:, cannot be an operand of && or || (also not together with a bool), and cannot be assigned to with =, whatever is assigned; a scalar cannot be assigned an interval. For plain values all of these compile exactly if the conversions exist. The replacements compile: & and |, the projections possibly() … vacuous(), and assign(), assign_partial() and reset().", "quantifier": "all types (sets of any enumeration, intervals of any value type, conditions of any nesting)", "why_tests_cant": "that code does not compile is not tested, and the types of conditions are unbounded", "anchors": ["include/intervals/set.hpp:operator &&", "include/intervals/set.hpp:operator ||", "include/intervals/set.hpp:operator =", "include/intervals/interval.hpp:operator =", "include/intervals/detail/interval.hpp:condition"]}
{"id": "C89", "title": "fractional_weights in floating-point arithmetic", "statement": "In every floating-point format in which 1 is a number, for non-negative weight intervals whose bounds are finite numbers of the format and not both possibly zero: fractional_weights succeeds, and its two results contain the weights that the scalar function computes for every choice of numbers of the format.", "quantifier": "all floating-point formats with monotone rounding, all finite operands (scalars and intervals), debug and release mode", "why_tests_cant": "the failures depend on the rounding of particular numbers: random operands almost never hit them", "anchors": ["include/intervals/interval.hpp:fractional_weights", "include/intervals/math.hpp:fractional_weights"]}
{"id": "C90", "title": "Searching with a predicate or a comparison function of the caller", "statement": "partition_point with a predicate that forms, for each element, any condition of comparisons joined by !, & and | succeeds on any range, and its position interval contains the position that the scalar search finds for every choice of values of the intervals in the conditions. lower_bound and upper_bound with a comparison by < or > of a key of the elements (of any type) return the positions of the ends of the interval, the upper end first for >, and enclose the positions of all its values; on a range sorted accordingly, the position of a value separates the elements before it from the others. Constraining the interval by the returned partitioning at positions that include that of a value of the interval succeeds, keeps the value and stays within the interval. A smaller interval has a smaller interval of positions, in sorted and unsorted ranges.", "quantifier": "all ranges of elements of any type, all predicates and keys, both comparisons, all intervals", "why_tests_cant": "the tests use the default comparison on a few ranges only; the quantifier is over all predicates", "anchors": ["include/intervals/algorithm.hpp:partition_point", "include/intervals/algorithm.hpp:lower_bound", "include/intervals/algorithm.hpp:upper_bound", "include/intervals/algorithm.hpp:constrain"]}
{"id": "C91", "title": "Searches look at logarithmically many elements", "statement": "partition_point with a Boolean predicate depends on at most k of fewer than 2^k elements, and with a predicate that returns a condition on at most 2k of them, likewise lower_bound and upper_bound; constraining by a partition depends on at most two elements of the range.", "quantifier": "all ranges, all predicates (also failing ones), all lengths", "why_tests_cant": "a complexity bound for all lengths; the tests only look at results", "anchors": ["include/intervals/algorithm.hpp:partition_point", "include/intervals/algorithm.hpp:lower_bound", "include/intervals/algorithm.hpp:constrain"]}
{"id": "C92", "title": "Constraining with a conjunction uses every conjunct", "statement": "If the condition a & b can be true, constrain(X, a & b) lies within constrain(X, a) and within constrain(X, b); if X can be constrained with both and the results meet, it is their intersection, if they do not meet it is a contract violation; a conjunct that does not mention X makes no difference.", "quantifier": "all condition trees a and b, all intervals, debug and release mode", "why_tests_cant": "claim over all pairs of trees; which overload of detail::constrain handles a conjunct depends on the shape of the tree and on the order of declarations in the header", "anchors": ["include/intervals/detail/interval.hpp:detail::constrain(constraint_conjunction)", "include/intervals/detail/interval.hpp:detail::constrain(constraint_disjunction)", "include/intervals/interval.hpp:constrain"]}
{"id": "C93", "title": "tan with rounding", "statement": "In a floating-point format with bounded rounding error and with an accurate library, tan(X) of a bounded interval succeeds and contains the tangent of every number between the bounds; an interval wider than pi, or with a finite lower and an infinite upper bound, gives [-inf, inf].", "quantifier": "all formats and libraries with given error bounds (double and float in particular), all proper intervals whose bounds stay below the format's range, debug and release mode", "why_tests_cant": "needs a bound on the accumulated error of the argument reduction over all magnitudes, amplified by the slope of the tangent near its poles", "anchors": ["include/intervals/interval.hpp:tan", "include/intervals/math.hpp:wraparound"]}
{"id": "C94", "title": "pow with rounding", "statement": "In a floating-point format with bounded rounding error and with an accurate monotone logarithm and exponential, pow(X, Y) of a positive bounded base and a bounded exponent succeeds and contains every power x^y, x in X, y in Y, that is a number of the format; likewise for a negative bounded base and a single integer exponent.", "quantifier": "all formats and libraries with given error bounds (double and float in particular), all finite operands with a positive base (or a negative base and a single integer exponent) for which |y|(1+|log x|) stays bounded, debug and release mode", "why_tests_cant": "the error of exp(y log x) grows with the magnitude of the exponent y log x, and depends on the library; needs a bound over all operands and all libraries", "anchors": ["include/intervals/interval.hpp:pow", "include/intervals/interval.hpp:_multiply_0"]}
{"id": "C95", "title": "Interval-aware programs over several value types enclose their scalar runs", "statement": "Take a program as in C62 whose variables have several value types (indices, integers, floating-point numbers) or are sets (of signs, of truth values, of enumerators), whose branch conditions combine comparisons of different types, truth values and predicates that return sets of truth values (isfinite(x), sgn(x) == v, a set of truth values, comparisons s == t of sets), whose functions may take and return different types (indexed access at(a, i) in particular), and which may loop over enumerate(i) of an integer interval or over enumerate(c) of a set variable or of a set computed from the variables (sgn(x), a table of enumerators at an interval index), with a body that depends on the visited element; the loop body may assign_partial to outer variables but not reset them, and the branches and loop bodies may not assign to outer sets, because assign overwrites a set. If it runs on intervals without a contract violation, then for all scalars from the input intervals the scalar instantiation runs without a contract violation, and every assigned variable's value lies in its interval or set. If the branch conditions are single comparisons or predicates, the functions are total and assign is not used, the run on intervals does not fail. constrain(x, c) with a condition all of whose comparisons are of other types does not return.", "quantifier": "all well-formed programs, any family of value types, all input intervals, all scalars in them, debug and release mode", "why_tests_cant": "quantifies over programs, families of types and loops of any length", "anchors": ["include/intervals/detail/interval.hpp:can_compare_id_v", "include/intervals/detail/interval.hpp:constrain", "include/intervals/interval.hpp:constrain", "include/intervals/algorithm.hpp:enumerate", "include/intervals/algorithm.hpp:at", "include/intervals/interval.hpp:isfinite", "include/intervals/sign.hpp:sgn", "README.md:enumerate", "include/intervals/set.hpp:assign", "include/intervals/set.hpp:assign_partial", "include/intervals/set.hpp:if_else"]}
{"id": "C96", "title": "Interval-aware programs over several value types are inclusion isotone", "statement": "Take a program as in C95 (several value types, sets, conditions that combine comparisons of different types and predicates, indexed access, loops over enumerate(i) and enumerate(sgn(x))) and run it on two families of input intervals, one of which lies within the other. If both runs return and the functions called are inclusion isotone, then every variable of the narrower run lies within its counterpart of the wider run, although the wider run may take more branches and more turns of its loops. If the branch conditions are single comparisons or predicates and the functions are defined for narrower arguments whenever they are for wider ones, then the narrower run returns whenever the wider one does. The functions admitted by C82, indexed access at(a, i), constants, loops over enumerate of integer intervals, over the sign set sgn(x) and over the kinds in a table at an interval index satisfy these conditions.", "quantifier": "all well-formed programs, any family of value types, all pairs of nested input intervals, debug and release mode", "why_tests_cant": "quantifies over programs, families of types, pairs of nested intervals and loops of any length", "anchors": ["include/intervals/detail/interval.hpp:constrain", "include/intervals/interval.hpp:constrain", "include/intervals/algorithm.hpp:enumerate", "include/intervals/algorithm.hpp:at", "include/intervals/sign.hpp:sgn", "README.md:enumerate"]}
{"id": "C97", "title": "Branching on comparisons with constants loses nothing", "statement": "Take a program in the style of the README that branches, to any depth, on comparisons of its parameters with constants, narrows the parameter with constrain in each branch and joins the branches with assign_partial, and whose pieces are computed exactly (each piece returns the exact range of its function on the narrowed box). Run on intervals, it does not fail, and its result encloses the value of the scalar program at every point of the box. Both bounds of the result are values of a piece at a point of the box that meets the conditions of the piece or is a limit of such points. Hence both bounds are values of the program if adjacent pieces agree at the seams, and always for a discrete value type if no condition is a test for equality; neither restriction can be dropped. If adjacent pieces agree at the seams of a continuous type and each piece takes every value between its bounds, the result has no other values than those of the program; in exact arithmetic this holds for pieces that are regular expressions without repeated variables (C84).", "quantifier": "all such programs of any depth and number of parameters, all value types, all boxes, debug and release mode", "why_tests_cant": "quantifies over programs and boxes; that a bound is attained is a statement about all points of the box", "anchors": ["include/intervals/detail/interval.hpp:constrain", "include/intervals/interval.hpp:constrain", "include/intervals/interval.hpp:assign_partial", "include/intervals/set.hpp:possibly", "README.md:constrain"]}
{"id": "C98", "title": "Scalars of unsigned type as operands", "statement": "There are no intervals of unsigned types, but an unsigned scalar may be an operand together with an interval. Where the common type is signed or floating-point, sum, difference, product, quotient and the comparisons are exact in the sense of C68 and C70. Where the common type is unsigned (interval<int> and unsigned, or size_t), a comparison returns every truth value that the built-in comparison has for a point of the interval, and no other. constrain(x, x < c) and constrain(x, x > c) with an unsigned c keep every point that satisfies the condition and only such points. (Comparing with an unsigned common type holds exactly for intervals of one sign; for an interval with negative and non-negative points the result is wrong for nearly all scalars and may be the empty set. constrain removes nothing for x < 0u, whose predecessor wraps.)", "quantifier": "all widths of the signed and the unsigned type, all intervals, all unsigned scalars, all floating-point formats with the integers concerned, debug and release mode", "why_tests_cant": "quantifies over all bounds, scalars and widths; the failures occur on a set of pairs of bounds that has to be characterised for all values", "anchors": ["include/intervals/interval.hpp:operator <", "include/intervals/interval.hpp:operator <=", "include/intervals/interval.hpp:operator >", "include/intervals/interval.hpp:operator >=", "include/intervals/interval.hpp:operator ==", "include/intervals/interval.hpp:operator !=", "include/intervals/interval.hpp:operator +", "include/intervals/interval.hpp:operator /", "include/intervals/detail/interval.hpp:pred", "include/intervals/detail/interval.hpp:constrain", "include/intervals/concepts.hpp:interval_value"]}
{"id": "C99", "title": "Why comparisons are set-valued", "statement": "The argument of the README for set-valued comparison holds. Under 'possibly' or 'certainly' semantics, A != B iff not A == B, A < B iff not A >= B, and A == B iff neither A < B nor A > B hold for two intervals exactly if all their points compare alike. The max function written with if/else encloses the maxima under 'possibly' semantics exactly if the second argument reaches as far up as the first or lies below it, and under 'certainly' semantics exactly if the first reaches as far up as the second or lies below it. No two-valued comparison makes both max and min right for an interval that lies inside another. With the projection possibly() but plain assignments the result is right exactly under the same condition as with 'certainly' semantics. max2, which uses assign_partial, always encloses the maxima; its upper bound is exact, and the result is exact exactly if the comparison is unambiguous or the lower bounds agree.", "quantifier": "every value type with a total order, all pairs of intervals, every two-valued comparison function", "why_tests_cant": "the README gives examples; the claim is about all pairs of intervals and all conceivable two-valued comparisons", "anchors": ["README.md:max", "README.md:max2", "include/intervals/interval.hpp:operator <", "include/intervals/set.hpp:possibly", "include/intervals/interval.hpp:assign_partial"]}
{"id": "C100", "title": "Functions of operands of different value types", "statement": "pow, fractional_weights, blend_fractions and blend_linear accept operands of different types as long as their common type is floating-point. With operands of an integer type and a floating-point type, in exact arithmetic, fractional_weights, blend_fractions and blend_linear return the exact ranges of a/(a+b), b/(a+b), f*x + (1-f)*y and (a*x + b*y)/(a+b) over the points of the operands, an operand of integer type having integers as points, for fractions in [0,1] and non-negative weights with positive sums. pow with an exponent of integer type contains all powers, and its bounds are among them, for a base without negative points, or a single exponent; it is the NaN interval otherwise, and never undefined. In every floating-point format it equals pow with the exponent converted first, if the exponent is representable. (blend_linear with two weights of integer type computes 1/(1 + b/a) in integers: it selects x or y by the larger weight, and is undefined if the weight of x may be 0.)", "quantifier": "all operands of an integer type of any width or a floating-point type over any ordered field, in every combination, scalars and intervals, debug and release builds", "why_tests_cant": "the tests of the repository use operands of one type only; each mix of types instantiates other built-in operators", "anchors": ["include/intervals/interval.hpp:pow", "include/intervals/interval.hpp:fractional_weights", "include/intervals/interval.hpp:blend_fractions", "include/intervals/interval.hpp:blend_linear", "include/intervals/interval.hpp:_multiply_0", "include/intervals/detail/concepts-internal.hpp:floating_point_operands"]}
{"id": "C101", "title": "Constraining by a comparison with an operand of another value type", "statement": "constrain(x, c) for an interval x and a comparison c of x with an operand r (a scalar or an interval) of another value type, whose values convert to the type of x, keeps every value of x for which c holds with some value of r, and only removes values of x. If c holds for no value of x it is a contract violation; for == this is decided by the bounds of r. It is never undefined. The negated condition !c constrains like the opposite comparison. If both types are the same, constrain with one type (C18-C24) results. With a larger interval, or a larger operand whose steps preserve order, constraining succeeds too and keeps at least as much. Constraining the result by the same comparison again changes nothing.", "quantifier": "all intervals, all operands of any value type with a conversion that preserves order (integers of any width, unsigned integers, floating-point formats), all six comparisons with x on either side, plain and negated, debug and release builds", "why_tests_cant": "the tests constrain by operands of the interval's own type; the failures sit at the limits of the operand's type", "anchors": ["include/intervals/detail/interval.hpp:constrain", "include/intervals/detail/interval.hpp:_succ_t", "include/intervals/detail/interval.hpp:_pred_t", "include/intervals/interval.hpp:constrain"]}
{"id": "C102", "title": "Implicit conversion to a narrower value type", "statement": "interval<T> converts implicitly from interval<U> whenever U converts to T. The conversion of an assigned interval is defined, has the converted bounds, is assigned, and contains the conversion of every point of the source: for integer types the value congruent modulo 2^N, for a floating-point type converted to an integer type the value with its fraction discarded. Bounds that are values of T are kept. An unassigned interval stays unassigned. narrow_cast<T>() returns the same interval.", "quantifier": "all intervals of a signed integer type of any width converted to any other width, all intervals of a floating-point type converted to a signed integer type of any width", "why_tests_cant": "the tests of the repository convert int to double only; the failures depend on the bounds", "anchors": ["include/intervals/interval.hpp:interval::interval(interval_base<U>)", "include/intervals/interval.hpp:narrow_cast"]}
{"id": "C103", "title": "Membership of values of another type", "statement": "x.contains(v), x.encloses(v) and x.matches(v) for a scalar v of another arithmetic type than the value type of x tell whether v lies between the bounds of x, lies strictly between them, or equals both. x.assign(v) extends x by the converted value, x.reset(v) replaces it by the converted value.", "quantifier": "all intervals of a signed integer type and finite values of a floating-point type or another signed integer type; all intervals of a floating-point format and values of an integer type or another format", "why_tests_cant": "all pairs of types and values; the failures sit within one unit of the bounds or at multiples of 2^N", "anchors": ["include/intervals/interval.hpp:interval_base::contains", "include/intervals/interval.hpp:interval_base::encloses", "include/intervals/interval.hpp:interval_base::matches", "include/intervals/interval.hpp:interval::assign", "include/intervals/interval.hpp:interval::reset"]}
{"id": "C104", "title": "Compound conditions over operands of several value types", "statement": "Let c be any condition built with &, | and ! from comparisons of an interval x with operands of any value types, from comparisons not involving x, and from plain truth sets. constrain(x, c) returns part of x, and keeps every value of x for which the condition can be true. A conjunction gives the intersection of what its operands give, or a contract violation if they are disjoint; a disjunction gives the hull of what its possible operands give. A condition that does not mention x is rejected. The call is undefined only if constraining by one of the comparisons is. With a smaller interval the condition has no new truth value. For a conjunction of comparisons, a larger interval is constrained successfully too and to a larger result; for a disjunction of such conjunctions the result is larger if there is one. Constraining the result by the same conjunction of comparisons other than != again changes nothing, if the operands of strict comparisons are stepped (integers).", "quantifier": "all intervals, all conditions, all value types of the operands with monotone conversions", "why_tests_cant": "conditions are trees of any depth over any combination of types; the tests of the repository use one value type", "anchors": ["include/intervals/detail/interval.hpp:constrain", "include/intervals/interval.hpp:constrain", "include/intervals/detail/interval.hpp:constraint_conjunction", "include/intervals/detail/interval.hpp:constraint_disjunction"]}
{"id": "C105", "title": "Constraining by compound conditions is tight", "statement": "Let c be a condition built with &, | and ! from comparisons of an interval x with operands of any value types that constrain exactly on their own, and from comparisons not involving x that may be true. If some value of x satisfies c, constrain(x, c) returns the smallest interval that contains all values of x that satisfy it; for a conjunction it contains exactly those. If no value of x satisfies a conjunction, constrain is a contract violation. Constraining the result by the same disjunction of conjunctions again, each of them satisfied by some value of x, changes nothing.", "quantifier": "all intervals, all conditions, all value types of the operands with monotone conversions", "why_tests_cant": "conditions are trees of any depth; tightness quantifies over all values of all operands", "anchors": ["include/intervals/detail/interval.hpp:constrain", "include/intervals/interval.hpp:constrain", "include/intervals/detail/interval.hpp:constraint_conjunction", "include/intervals/detail/interval.hpp:constraint_disjunction"]}
{"id": "C106", "title": "Searching in ranges of elements of another value type", "statement": "lower_bound and upper_bound with an interval x and a range whose elements are of another value type (compared in the common type) return an interval of positions whose ends are the positions of the ends of x and which contains the position of every value of x, for sorted and unsorted ranges; likewise partition_point with any condition on x. Constraining x by a partition J of a sorted range keeps every value of x whose position is in J. A smaller interval has a smaller interval of positions, in sorted and unsorted ranges.", "quantifier": "all ranges, all intervals, all monotone conversions to the common type, all partitions, all conditions on x in partition_point", "why_tests_cant": "ranges of any length, all element types and values; the step to the next value happens in the type of the elements, so what is lost lies between representable elements", "anchors": ["include/intervals/algorithm.hpp:lower_bound", "include/intervals/algorithm.hpp:upper_bound", "include/intervals/algorithm.hpp:partition_point", "include/intervals/algorithm.hpp:constrain", "include/intervals/detail/algorithm.hpp:partitioning"]}
{"id": "C107", "title": "Searching, partitioning and interpolating are inclusion isotone; interpolating is tight", "statement": "For x contained in x': the positions lower_bound and upper_bound return for x lie within those for x'; constraining x by partition J gives an interval within that of x' constrained by any J' containing J; interpolate_linear and interpolate_nearest_neighbour of x give intervals within those of x'. In exact arithmetic both bounds of the two interpolation results are scalar results of points of x, so no smaller interval contains all scalar results.", "quantifier": "all sorted ranges and tables of any length, all intervals; every floating-point format for isotonicity (interpolate_linear: tables for which C55 holds), exact arithmetic and strictly increasing tables for tightness", "why_tests_cant": "pairs of intervals and tables of any length; tightness is a claim about the existence of a point", "anchors": ["examples/interpolate-linear.cpp:interpolate_linear", "examples/interpolate-nn.cpp:interpolate_nearest_neighbour", "include/intervals/algorithm.hpp:lower_bound", "include/intervals/algorithm.hpp:upper_bound", "include/intervals/algorithm.hpp:constrain"]}
{"id": "C108", "title": "Positions found by a search are exact; step functions given by a table have exact ranges", "statement": "For a strictly increasing range the interval of positions that lower_bound or upper_bound returns for an interval x is the set of the positions of the values of x (in a sorted range: a position strictly between the ends is that of a value of x iff the elements around it differ). So the program at(ys, pos - begin(xs)) encloses the values of the step function at all values of x and, for strictly increasing xs, both bounds are such values; for a table of enumerators the result is the set of these values. A smaller x gives a smaller result. Abscissas of another arithmetic type: enclosure.", "quantifier": "all sorted ranges of any length, all value types, all proper intervals, all tables of numbers or enumerators with one entry more than the range", "why_tests_cant": "ranges and tables of any length, all intervals; exactness is a claim about the existence of a value for every position", "anchors": ["include/intervals/algorithm.hpp:lower_bound", "include/intervals/algorithm.hpp:upper_bound", "include/intervals/algorithm.hpp:at", "include/intervals/interval.hpp:operator -"]}
{"id": "C109", "title": "Snapping to a grid", "statement": "For a sorted range xs: *lower_bound(xs, v) is the least element not below v, and *prev(upper_bound(xs, v)) the greatest not above it; the behaviour is undefined iff there is none. For an interval x the same expressions enclose the results for all values of x, their bounds are the results for the bounds of x, the elements they contain are exactly the results for values of x, and the behaviour is undefined iff it is for some value of x. A smaller interval gives a smaller result.", "quantifier": "all sorted ranges of any length, all value types, all numbers and proper intervals", "why_tests_cant": "ranges of any length, all intervals, exactness for every element", "anchors": ["include/intervals/algorithm.hpp:lower_bound", "include/intervals/algorithm.hpp:upper_bound", "include/intervals/interval.hpp:operator *", "include/intervals/interval.hpp:prev"]}
{"id": "C110", "title": "Conditions used after the interval was narrowed", "statement": "A comparison c of an interval x with an operand, formed before x was narrowed, constrains x as the same comparison formed now does: constrain(x, c) keeps every value of x for which c holds with some value of the operand, only removes values of x, and is a contract violation if c holds for no value of x. The same for disjunctions of comparisons.", "quantifier": "all intervals, all narrower intervals, all operands of any value type with a conversion that preserves order, all six comparisons with x on either side, debug and release builds", "why_tests_cant": "all pairs of earlier and present bounds, all operands and value types", "anchors": ["include/intervals/detail/interval.hpp:constrain", "include/intervals/interval.hpp:constrain"]}
{"id": "C111", "title": "Repeated constraining of intervals of several value types", "statement": "Let intervals of several value types be narrowed in place by statements reset(x, constrain(x, c)), where each c is a comparison of x with another of the intervals, or with a number or an interval, of any value type whose values convert to that of x in order. A sequence of such statements only narrows the intervals. Narrower intervals (of x and of the operands) give narrower results, and succeed only if the wider ones do. Any two sequences of the statements that end in a state that no statement changes end with the same bounds, and no sequence passes below such a state. While a choice of values satisfies all comparisons no statement fails, and none removes these values, provided strict comparisons do not step an operand over a value of x or beyond the limit of its type. Then, for integer types of any widths and for variables of one floating-point type, a state that no statement changes is reached, and in it (for integers) both bounds of each narrowed interval satisfy each comparison with some value of the operand. Whatever the order, the number of statements that change a bound is at most the sum of the widths (integers), or 4 n^2 for n different statements (floating point).", "quantifier": "all numbers of variables, all value types (integers of any width, floating-point numbers) with conversions and steps that preserve order, all initial bounds, all finite sequences of statements, debug and release builds", "why_tests_cant": "the numbers of variables, types, statements and orders are unbounded; independence of the order is a statement about all pairs of sequences", "anchors": ["include/intervals/interval.hpp:constrain", "include/intervals/detail/interval.hpp:constrain", "include/intervals/interval.hpp:reset"]}
