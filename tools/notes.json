{
 "C02": {
  "note": "The code violates the property at one table entry ({false,true} >= {true}); C02_violated proves the negation, the _partial theorems cover every other operand pair."
 },
 "C08": {
  "note": "Negation, sgn: full. Products: violated when one operand is empty and the other contains zero (C08_mul_violated), proved otherwise."
 },
 "C13": {
  "note": "overlaps_with is not symmetric when an operand is unassigned (C13_overlaps_violated; C13_overlaps_iff: exactly if the second operand is unassigned and both of its bounds lie in the first); proved for assigned operands."
 },
 "C14": {
  "note": "intersect of disjoint arguments returns the gap between them (C14_intersect_violated, C14_intersect_gap); it is right exactly if the arguments have a common point (C14_intersect_partial, C14_intersect_iff)."
 },
 "C18": {
  "note": "False for a disjunction (not below a conjunction) that mentions the interval and has a possible side that does not: that side is ignored (C18_violated; C18_ignored and C18_fails for all such conditions). C18_sound_partial covers all other homogeneous conditions."
 },
 "C19": {
  "note": "False for == and != formed before the interval was narrowed (C19_violated; C19_stale, C19_fails for all operands); proved otherwise, for <, <=, >, >= formed at any time."
 },
 "C21": {
  "note": "Failure and no-undefined-behaviour parts proved; success is false for a contradictory conjunction below a disjunction (C21_violated, C21_conj_fails) and when the interval is mentioned only in disjunctions that are operands of a conjunction, which constrain does not look at (C21_violated_hidden, C21_hidden_fails); proved otherwise."
 },
 "C22": {
  "note": "Negation of a compound condition with a plain operand always loses the constraint (C22_violated, C22_fails); proved for conditions without plain operands."
 },
 "C24": {
  "note": "False for strict relations (C24_violated, C24_violated_failure); C24_lt_iff and C24_gt_iff say exactly for which intervals: those with a value strictly within one unit of the scalar. Proved for ==, !=, <=, >=."
 },
 "C32": {
  "note": "False when the divisor has a zero bound whose sign points away from its other points, e.g. 1/[-1,+0] (C32_violated); NaN part proved in full (C32_nan); inclusion proved for all other divisors and for dividends that reach infinity (C32_incl_partial), exactness for divisors without zero (C32_exact). C32_incl_iff says exactly, in exact arithmetic, for which operands inclusion fails."
 },
 "C33": {
  "note": "square, cube, abs, sgn, sign products: full. set<sign> product is false when the set contains zero and the interval an infinity, compared with the library's own sign*scalar (C33_signset_violated); proved with 0*inf=0 (C33_signset_mul) and for sets without zero or finite intervals (C33_signset_incl_partial). C33_signset_fails: false for all other operands."
 },
 "C34": {
  "note": "Arithmetic proved. scalar NaN divided by an interval containing zero (C34_scalar_div_violated) and min/max/assign/merge/if_else with the NaN as right operand (C34_min_violated, C34_assign_violated, C34_merge_violated, C34_if_else_violated) are false; the other cases are the _partial theorems."
 },
 "C35": {
  "note": "isfinite of a NaN interval is {true} (C35_isfinite_violated); proved for NaN-free intervals."
 },
 "C39": {
  "note": "False for every interval narrower than pi with a pole of the tangent strictly inside (C39_violated_all), e.g. tan([1,2]); exact for intervals without a pole and [-inf,inf] for width >= pi (C39_tan_partial)."
 },
 "C42": {
  "note": "Proved in exact arithmetic as stated. With rounding the upper end can be returned: wraparound(1-2^-53,1,2) = 2 in double (C42_violated_double). C42_rounded bounds the error in every format."
 },
 "C41": {
  "note": "False for exponents whose lower bound is infinite or outside the range of long long when the base may be negative: undefined behaviour (C41_violated, C41_violated_all, C41_float_violated). Proved for all other operands, also unbounded ones: in exact arithmetic (C41_nonneg, C41_integer_partial, C41_nan_partial, C41_unbounded, C41_unbounded_integer_partial), and in every format relative to exp(y*log x) computed on numbers (C41_float_nonneg, C41_float_integer_partial, C41_float_nan_partial)."
 },
 "C43": {
  "note": "Proved in exact arithmetic as stated. In double precision the weights can violate the constructor contract on valid inputs (C43_violated_double)."
 },
 "C46": {
  "note": "Integers: full (C46_int). Ring expressions over floats: full (C46_ring). With division the claim is false (C46_violated, the C32 defect); C46_fundamental_partial covers every expression whose divisions have no wrongly signed zero bound in the divisor, or a dividend that reaches infinity, and whose min/max operands are not NaN."
 },
 "C47": {
  "note": "Proved for +, -, *, unary operations, comparisons, min/max, if_else and all integer operations. Division is not isotone when a divisor has a wrongly signed zero bound (C47_div_violated), or when the zero bounds of the two divisors have different signs (C47_div_zero_violated); C47_div_partial covers the rest. C47_div_iff: the quotients of all smaller operands are contained exactly when the divisor excludes zero or the quotient is the whole line."
 },
 "C50": {
  "note": "Proved for every operation except set<sign>*interval with the set {zero} or the empty set, which return a result (C50_signset_violated). C50_signset_fails: for every unassigned interval."
 },
 "C52": {
  "note": "Proved for same-type ranges and intervals: content for all (C52_keeps, C52_within), success for every member-wise position (C52_no_failure) and for every returned position, unless the value type is discrete and the elements on both sides of the positions are equal (C52_positions_partial). In that case the call always fails (C52_positions_fail, C52_violated). False also for mixed element types (C52_violated_mixed) and for rvalue arguments (C52_rvalue)."
 },
 "C55": {
  "note": "Proved in exact arithmetic as stated (C55_exact). With rounding, it holds for a table if and only if its differences stay finite and its widths positive (C55_rounded_partial, C55_iff). In double the difference of two abscissae can overflow; then the scalar result is NaN at the right end of the cell (C55_violated_double, C55_width_violated). If the difference of two ordinates overflows, the result for that cell misses the scalar result at its right end (C55_height_violated, C55_height_fails)."
 },
 "C57": {
  "note": "Copy assignment in full, self-assignment and exceptions included. Self-move is undefined behaviour (C57_self_move_violated); moves between distinct objects and every history without self-moves are the _partial theorems. C57_history_all gives the outcome of every history of every type, exceptions and std::terminate included; C57_history_iff: a history of a type that does not throw is undefined behaviour exactly if it contains a self-move."
 },
 "C65": {
  "note": "set_of_t drops a non-default reflector, interval_of<T>::type names the trait instead of an interval, and propagate_set_t treats conditions as plain values (C65_violated, C65_violated_all); everything else is proved, these parts with the default reflector, through interval_of_t and for sources that are not conditions (C65_partial)."
 },
 "C66": {
  "note": "Violated: == and != never give the empty set (C66_eq_violated), and <, <=, >, >= do not if the other operand reaches a limit of the type (C66_order_violated); proved for the ordering operators otherwise (C66_order_partial). C66_order_exact gives the result of the ordering operators for every operand. C66_max_partial, C66_max_violated: consequences for the programs of the README."
 },
 "C67": {
  "note": "The unchecked casts and format-to-format narrowing in full. The checked conversions to and from integer types are undefined behaviour if the bound leaves the integer type (C67_violated); the _partial theorems say exactly when they return, report, or are undefined."
 },
 "C68": {
  "note": "Everything except one case of the quotient: a divisor of integral type whose upper bound is zero converts to +0, and quotients by its negative points are missed (C68_div_violated); C68_float_div_partial covers all other divisors, and dividends that reach infinity. C68_div_iff: in exact arithmetic exactly the divisors [l, 0] with l <= -2 miss quotients, for every dividend without infinite bound. C68_eq_inexact: == can be possibly true though no two points are equal."
 },
 "C69": {
  "note": "narrow_cast between integer types fails if wrap-around reverses the bounds (C69_violated; C69_narrow_cast_int_iff says exactly when); everything else in full."
 },
 "C70": {
  "note": "In exact arithmetic as stated, and the range of the weights in every format. C70_overflow and C70_rounding: in binary64 the exact-arithmetic laws fail, in particular both weights become 0 when a+b overflows."
 },
 "C71": {
  "note": "In full. C71_not_enclosed records that the real results themselves need not be enclosed (no outward rounding)."
 },
 "C72": {
  "note": "In full. C72_rounding: in binary64 addition does not associate and multiplication does not subdistribute; C72_mul_zero_sign: x*y and y*x can differ in the sign of a zero bound, which a later division turns into different intervals."
 },
 "C73": {
  "note": "cbrt, exp, atan, tan, floor, ceil, round (C73_unary_partial), sqrt, log, asin, acos (C73_domain) and atan2 (C73_atan2) as stated. False for cos and sin, which return [-1,1], frac, which returns [0,1] (C73_cos_violated), and pow, which returns an unassigned interval or is undefined behaviour (C73_pow_violated, C73_pow_exponent_violated)."
 },
 "C74": {
  "note": "C74_real_partial: exact real arithmetic, all elementary functions. C74_float_partial: every format, monotone functions of <cmath>. Both assume that the functions are applied within their domain and that the operands avoid the known defects of division, min/max and NaN (false otherwise, see C32, C34, C41, C73)."
 },
 "C75": {
  "note": "C75_unambiguous, C75_constrain, C75_assign, C75_merge in full; C75_compare: which conditions comparisons and their negations return. C75_lift_partial covers numbers that are not narrower than int, iterators, truth values and signs with all operators and functions; false for narrow integer types (list-initialization; exactly which operators fail: C75_short), merge and intersect of a value and an interval, orderings of sets of an enumeration, if_else on iterators (C75_violated). C75_plain_partial: false for if_else on enumeration values, which returns a set (C75_plain_violated). C75_converse, C75_floating, C75_operands: nothing more compiles with intervals than with values. C75_de_morgan: the types of negated conjunctions and disjunctions."
 },
 "C76": {
  "note": "C76_mul_partial, C76_div_partial, C76_sign_partial, C76_sign_scalar_partial, C76_signset_scalar_partial state exactly when the results contain the results of all points: when the narrow type can represent them. False otherwise (C76_violated, C76_violated_all): the int results are reduced modulo 2^(k+1)."
 },
 "C77": {
  "note": "C77_fractions_partial and C77_linear_partial: both functions succeed and return intervals without NaN whose bounds are scalar blends. Containment of the scalar results is proved for a known fraction (C77_fractions_known_partial, C77_linear_known_partial) and up to a rounding tolerance in general: C77_error_partial (7*2^(n-54) in double on operands up to 2^n: C77_double_partial) and C77_linear_error_partial (for all finite weights; 5*2^(n-52) for the real blend and 9*2^(n-52) for the scalar result: C77_linear_double_partial). Containment as stated is false for both functions (C77_violated, C77_violated_linear, C77_full_violated)."
 },
 "C79": {
  "note": "C79_bounds, C79_type, C79_set, C79_set_copy in full. C79_interval_partial: values and plain intervals. False for every interval with identity and for every condition: constrained_interval is not derived from interval, and set(T0) is a better match than a copy of the base class (C79_violated_all, C79_violated)."
 },
 "C80": {
  "note": "All functions except tan in full: C80_monotone, C80_frac, C80_pow, C80_pow_real, C80_atan2, C80_trig, C80_weights, C80_blend_fractions, C80_blend_linear. C80_tan_partial: larger operand without pole, or at least pi wide. False for every larger operand narrower than pi with a pole strictly inside (C80_tan_violated_all, C80_violated)."
 },
 "C81": {
  "note": "Success, the range [-1, 1] and infinite bounds in full (C81_infinite). Containment up to a tolerance proportional to the rounding error, and the bounds exceed the range of cos or sin by no more than the same tolerance (C81_cos_partial, C81_sin_partial): 2^(n-47) in double and 2^(n-18) in float for bounds up to 2^n (C81_double_partial, C81_float_partial). Containment without tolerance is false, and for large arguments no fixed tolerance would do: C81_violated, C81_not_full. math.hpp:22-23 documents that the argument reduction is not adequate for large arguments."
 },
 "C87": {
  "note": "Intervals and sets in full (C87_interval, C87_interval_faithful, C87_operand, C87_set). Conditions without == and != and without a disjunction inside a conjunction that is itself an operand (C87_member_partial, C87_cond_partial). The rest is false: the rules for == and != name classes that do not exist (C87_violated_eq), and the view of an operand has no parentheses (C87_violated_nested)."
 },
 "C89": {
  "note": "Success exactly if the rounded weights at two corners are in order, which are then the bounds (C89_iff_partial); success and equality with the scalar function for known weights (C89_known_partial); in general, success if the real weights spread over more than a rounding tolerance, and containment of the real and of the computed weights up to that tolerance (C89_error_partial; 5*2^-54 in double: C89_double_partial). As stated it is false: contract violations on valid operands by rounding and by overflow of one of the sums (C89_violated, C89_full_violated); the overflow case fails throughout (C89_overflow)."
 },
 "C51": {
  "note": "For unsorted ranges too: C51_any_range, C51_bounds_any."
 },
 "C90": {
  "note": "C90_search: predicates; C90_scalar, C90_bounds, C90_partition: comparison by < or > of a key. C90_constrain generalizes the last part to predicates whose conditions meet the hypotheses of C18, C19 and C21. C90_isotone: smaller intervals."
 },
 "C91": {
  "note": "An element counts as looked at if the outcome depends on what the predicate returns for it, or fails with."
 },
 "C92": {
  "note": "False for conjuncts that are disjunctions: the overload of detail::constrain for conjunctions does not see the one for disjunctions, and the conjunct is ignored (C92_violated; C92_hidden and C92_fails for all such conditions). Proved for all other conjuncts (C92_both_partial, C92_one_partial); C92_impossible says what happens if the conjunction cannot be true."
 },
 "C23": {
  "note": "Hypothesis Steps: the neighbours of the bounds of integral operands exist; shown to hold for all conditions on integers (steps_of_lawful) and on floating-point intervals with integral operands (steps_of_float)."
 },
 "C93": {
  "note": "Intervals wider than pi by a few rounding errors and infinite bounds in full (second part of C93_tan_partial, C93_infinite). If the tangent has no pole on the interval widened by the error of the reduction and is at most T there: success, and containment up to a tolerance proportional to the rounding error times 1+T^2, with bounds that exceed the range by no more (C93_tan_partial; double and float: C93_double_partial, C93_float_partial). Containment without tolerance is false even for single points (C93_violated), and false for narrower intervals with a pole inside (C93_violated_pole, C93_not_full)."
 },
 "C94": {
  "note": "C94_pow_partial: in any format with bounded rounding error and with accurate monotone log and exp, pow(X,Y) of a positive finite base contains every power of real points up to the relative error 2d+2(Bd+e), and both bounds are powers up to it; C94_double_partial, C94_float_partial with explicit numbers (2^(n-48), 2^(n-19) for exponents up to 2^n). C94_negative_partial, C94_double_negative_partial: the same for a negative base and a single integer exponent. Exact containment is false: C94_violated (2^221), C94_violated_square (10^2), C94_not_full."
 },
 "C95": {
  "note": "C95_encloses and C95_total: all programs, all families of value types. Usable functions: every function admitted by C62 (C95_functions), indexed access and constants (C95_at), loops over enumerate of integer intervals (C95_enumerate) and of sets (C95_set; sgn(x): C95_sgn, tables of enumerators at an interval index: C95_kinds); the loops are the loops over the library's iterators (C95_loop). C95_single: on programs over one type the language agrees with the one of C62. C95_unmentioned: constrain with a condition that says nothing about the interval does not return. Conditions may call predicates: isinf, isfinite, isnan (C95_classify), sgn(x) == v (C95_sgn_eq), a bool (C95_bool), any predicate that returns exactly the possible values (C95_predicate); ! of a conjunction with such an operand is only a set of truth values, constrain with it does not return (C95_not_mixed). Variables may be sets (set<sign>, set<bool>, sets of enumerators): sgn(x) (C95_sgn_fn), -s and s * t (C95_sign_arith), connectives of sets of truth values (C95_bool_fns), stored comparisons (C95_cmp_fns) and classifications (C95_classify_fns), if_else(b, x, y) (C95_if_else), any function that returns exactly the possible values (C95_exact); loops over the members of a set variable (C95_enumerate_set); conditions s == t, s == v (C95_set_eq) and b (C95_bool_var). C95_assign_set: why assign to a set from outside of a branch is rejected. C95_reset_in_loop: why loop bodies must not reset outer variables. Simplification: the operands of one comparison have one type."
 },
 "C96": {
  "note": "C96_isotone and C96_defined: all programs, all families of value types, all nested inputs. Usable functions: every function admitted by C82 (C96_functions), indexed access and constants (C96_at), loops over enumerate of integer intervals (C96_visit, C96_ascending, C96_enumerate) and of sets (C96_set; sgn(x): C96_sgn, tables of enumerators at an interval index: C96_kinds). Why C96_defined is about single comparisons: C82_conj_fails (conjunctions may fail for the narrower inputs). Simplifications as for C95. Conditions may call the predicates of C95. Variables may be sets, with the functions, loops and conditions of C95 (C95_exact, C95_enumerate_set, C95_if_else and the others state isotonicity as well)."
 },
 "C97": {
  "note": "C97_range: all trees of conditions, all boxes, all value types. C97_seams: attained bounds if the pieces agree at the seams; C97_discrete: attained bounds for discrete types; C97_onto: no value between the bounds is missed for continuous types; C97_expr: functions of real variables defined by cases, with pieces as in C84. C97_clamp: one program for every value type. C97_discrete_equal and C97_jump: why tests for equality and disagreeing seams are excluded. Simplification: the constants have the value type of the parameters and stand on the right of the comparison."
 },
 "C98": {
  "note": "Proved in full: arithmetic and comparisons with a signed (C98_int, C98_compare_signed) or floating-point (C98_float) common type; conversions (C98_to_signed, C98_to_float). Unsigned common type: C98_compare_partial for intervals of one sign; C98_mixed_sign says for every other interval and every scalar whether each comparison is right and whether it is the empty set; C98_violated, C98_violated_empty: witnesses. constrain: C98_constrain_lt_partial, C98_constrain_gt_partial (all but `x < 0u` and `x > max`, for which they say what is returned), C98_constrain_violated; C98_constrain_float_iff, C98_constrain_float_violated: floating-point intervals (disagreement b)."
 },
 "C99": {
  "note": "All value types. The programs are Model/Readme (README.md:277–291, 390–405, 437–452); the numbers given in the README are an example beside the theorems. max3, the last version, is C17."
 },
 "C100": {
  "note": "Partial because the claim is false for blend_linear with two integer weights (C100_violated, C100_violated_ub; C100_blend_linear_int gives the result in all cases without overflow, C100_blend_linear_int_iff when it encloses the means). One integer and one floating-point type per call; the type of each subexpression is modelled (Model/MixedFn). Exact arithmetic, except C100_pow_same, C100_weights_same, C100_fractions_same and C100_linear_same: in any format, integer operands with representable bounds act like the converted ones, so that C77, C89 and C94 apply."
 },
 "C101": {
  "note": "Partial because the claim is false for strict comparisons with operands that are stepped by one before they are converted: a signed operand at the limit of its own type is undefined (C101_violated, C101_violated_double; C101_ub_iff, C101_int_ub, C101_float_ub: exactly when), and a floating-point interval loses the values between the stepped bound and the bound (C101_violated_step; C101_lt_iff, C101_gt_iff: exactly when values are lost). C101_keeps_partial covers all other comparisons and operands that are not stepped (floating-point types); C101_int_partial: signed integers, exact result away from the limit. Types narrower than int wrap instead of being undefined: that is C101_lt_iff/C101_gt_iff with the wrapped step. Comparisons other than < and > never lose a value. The condition is formed from x with its current bounds. C101_same and C101_converted link to the model of C18-C24 (C101_converted_float: integers in conditions on floating-point intervals), C101_unsigned to C98. C101_isotone: all six comparisons are inclusion isotone. C101_isotone_operand: also in the operand. C101_idempotent: constraining again."
 },
 "C102": {
  "note": "Partial because the claim is false where the implicit conversion narrows: an integer interval may silently become unassigned or lose points (C102_violated; C102_int, C102_int_iff: exactly when), and a floating-point interval out of the range of the integer type is undefined behaviour (C102_to_int_partial: exactly when). C102_int_exact: the bounds are kept iff both are values of the target type. C102_narrow relates narrow_cast, narrow and narrow_failfast (C48) to it. Conversions to a wider integer type or to a floating-point format are C49 and C49_points."
 },
 "C103": {
  "note": "Partial because the claim is false where the value is converted to the type of the interval first: truncation, reduction and rounding map values outside to values inside (C103_violated, C103_full; C103_to_int: exactly when). C103_to_int_partial and C103_to_float_partial: contains never misses a contained value and encloses never reports a value that is not enclosed; all three are right for values representable in the interval's type. C103_int_partial: two integer types. C103_of_int reduces integers in floating-point intervals to C103_to_float_partial."
 },
 "C104": {
  "note": "Partial because the claim is false for disjunctions with a possible side that does not mention x (C104_violated, as C18). C104_sound_partial: all other conditions; C104_narrows for every condition. C104_and and C104_or: what conjunctions (of operands other than disjunctions; a disjunction below a conjunction is ignored, as C92) and disjunctions return. C104_success: a satisfiable conjunction returns. The comparisons have to be ones that keep what satisfies them on their own; C104_good, C104_good_nonstrict, C104_good_int and C104_good_float say which do, C101 says why the others do not. C104_truth_isotone: smaller intervals. C104_isotone: conjunctions are inclusion isotone; C104_isotone_fails: conditions with disjunctions are not (disagreement c and disjunctions ignored below a conjunction). C104_isotone_or: disjunctions of conjunctions that each mention x are isotone wherever both calls succeed; C104_isotone_or_fails: the larger interval may be rejected (disagreement e). C104_idempotent: conjunctions without != can be used again; C104_idempotent_fails: with != they may narrow further; C104_idempotent_float_fails: strict comparisons of floating-point numbers may reject the result."
 },
 "C105": {
  "note": "Partial because the claim is false for disjunctions below a conjunction, which are ignored, and for disjunctions with a conjunction that no value satisfies although each of its comparisons is possible, which are a contract violation (C105_violated). C105_conj, C105_tight: conjunctions in full, also those that arise from negated disjunctions. C105_or_partial: disjunctions of conditions that can be satisfied, to any depth; C105_or_impossible: beside an impossible comparison. C105_leq, C105_equal, C105_int: which comparisons are exact on their own. C105_disj: any disjunction of conjunctions each of which some value satisfies; C105_idempotent: constraining the result by it again changes nothing."
 },
 "C106": {
  "note": "Partial because constraining by a partition steps the element in its own type before the conversion: with integer elements and a floating-point interval it loses the values between the element and the next integer, and it is undefined behaviour at the limits of the element type (C106_violated). The searches are proved in full (C106_search, C106_scalar, C106_any). C106_result: exactly what constraining keeps; C106_keeps_partial and C106_lost: which values of a partition it keeps and which it loses; C106_keeps_same: floating-point elements, nothing is lost; C106_int_partial: narrower integer elements, exactly the partition; C106_ub, C106_ub_upper: the undefined behaviour. C106_isotone, C106_any_isotone: smaller intervals."
 },
 "C107": {
  "note": "C107_search, C107_constrain, C107_linear_isotone, C107_nearest_isotone: isotonicity. C107_linear, C107_linear_least, C107_nearest_exact: tightness in exact arithmetic. C107_nearest_distinct: tightness of the nearest neighbour in every format if the midpoints are distinct; C107_nearest_rounded: in a rounded format midpoints can coincide, and then the result is not tight."
 },
 "C108": {
  "note": "C108_positions: which positions are attained, in any sorted range; C108_strict: all of them in a strictly increasing one. C108_step, C108_step_set: step functions with values that are numbers or enumerators; C108_isotone; C108_mixed: abscissas of another value type; C108_duplicates: with equal abscissas the result can have a bound that the step function never takes."
 },
 "C109": {
  "note": "C109_up_scalar, C109_down_scalar: numbers; C109_up, C109_down: intervals, with the undefined behaviour; C109_up_grid, C109_down_grid: the elements in the result are the snapped values; C109_isotone."
 },
 "C110": {
  "note": "Partial because the claim is false for == and != (C110_violated; C110_equal, C110_unequal: what they return; C110_equal_fails), for < and > in a release build once no value satisfies them (C110_strict_fails), and for disjunctions one side of which has become impossible: these are contract violations although the other side can be satisfied (C110_or_fails, C110_or_violated). C110_order_partial: <=, >= always, <, > in debug builds and while some value satisfies them; C110_narrows_partial; C110_keeps for all six; C110_conj_partial: conjunctions of these (of any value types); C110_fresh links to C101."
 },
 "C111": {
  "note": "The proviso on strict comparisons is needed: C111_limit (an operand at the limit of its own type is stepped: undefined behaviour, disagreement of C101). C111_int discharges it for integers; C111_steps, C101_casts give the other hypotheses. C111_supported (integers, all comparisons) and C111_supported_any (all types, <=, >=, ==): what holds at the bounds of a state that nothing changes. C111_float: floating-point variables; a strict comparison keeps the bound it compares with. C111_terminates_int, C111_terminates_float: every order comes to an end."
 }
}
