{
 "claims": [
  {
   "property": "C01",
   "status": "proved",
   "theorems": [
    "Intervals.Props.C01_not",
    "Intervals.Props.C01_not_empty",
    "Intervals.Props.C01_and",
    "Intervals.Props.C01_and_set_bool",
    "Intervals.Props.C01_and_bool_set",
    "Intervals.Props.C01_or",
    "Intervals.Props.C01_or_set_bool",
    "Intervals.Props.C01_or_bool_set",
    "Intervals.Props.C01_xor",
    "Intervals.Props.C01_xor_set_bool",
    "Intervals.Props.C01_xor_bool_set",
    "Intervals.Props.C01_gt",
    "Intervals.Props.C01_gt_set_bool",
    "Intervals.Props.C01_gt_bool_set",
    "Intervals.Props.C01_lt",
    "Intervals.Props.C01_lt_set_bool",
    "Intervals.Props.C01_lt_bool_set",
    "Intervals.Props.C01_eq_tables",
    "Intervals.Props.C01_empty_contagious"
   ],
   "note": ""
  },
  {
   "property": "C02",
   "status": "partial",
   "theorems": [
    "Intervals.Props.C02_violated",
    "Intervals.Props.C02_wrong_entry",
    "Intervals.Props.C02_geq_partial",
    "Intervals.Props.C02_geq_mixed_partial"
   ],
   "note": "The code violates the property at one table entry ({false,true} >= {true}); C02_violated proves the negation, the _partial theorems cover every other operand pair."
  },
  {
   "property": "C03",
   "status": "proved",
   "theorems": [
    "Intervals.Props.C03_assoc_comm",
    "Intervals.Props.C03_idem",
    "Intervals.Props.C03_distrib",
    "Intervals.Props.C03_de_morgan",
    "Intervals.Props.C03_xor",
    "Intervals.Props.C03_mixed"
   ],
   "note": ""
  },
  {
   "property": "C04",
   "status": "proved",
   "theorems": [
    "Intervals.Props.C04_projections",
    "Intervals.Props.C04_duality",
    "Intervals.Props.C04_bool"
   ],
   "note": ""
  },
  {
   "property": "C05",
   "status": "proved",
   "theorems": [
    "Intervals.Props.C05_step",
    "Intervals.Props.C05_history",
    "Intervals.Props.C05_illegal",
    "Intervals.Props.C05_init_list",
    "Intervals.Props.C05_order",
    "Intervals.Props.C05_extensional"
   ],
   "note": ""
  },
  {
   "property": "C06",
   "status": "proved",
   "theorems": [
    "Intervals.Props.C06_eq",
    "Intervals.Props.C06_ne",
    "Intervals.Props.C06_eq_empty",
    "Intervals.Props.C06_contains",
    "Intervals.Props.C06_matches",
    "Intervals.Props.C06_matches_value",
    "Intervals.Props.C06_value",
    "Intervals.Props.C06_value_fails"
   ],
   "note": ""
  },
  {
   "property": "C07",
   "status": "proved",
   "theorems": [
    "Intervals.Props.C07_roundtrip",
    "Intervals.Props.C07_to_bits_throws",
    "Intervals.Props.C07_to_bits",
    "Intervals.Props.C07_to_from",
    "Intervals.Props.C07_index",
    "Intervals.Props.C07_index_value"
   ],
   "note": ""
  },
  {
   "property": "C08",
   "status": "partial",
   "theorems": [
    "Intervals.Props.C08_sign_arith",
    "Intervals.Props.C08_neg",
    "Intervals.Props.C08_plus",
    "Intervals.Props.C08_mul_violated",
    "Intervals.Props.C08_zero_times_empty",
    "Intervals.Props.C08_mul_partial",
    "Intervals.Props.C08_mul_sign_partial",
    "Intervals.Props.C08_sgn",
    "Intervals.Props.C08_sgn_nan"
   ],
   "note": "Negation, sgn: full. Products: violated when one operand is empty and the other contains zero (C08_mul_violated), proved otherwise."
  },
  {
   "property": "C09",
   "status": "proved",
   "theorems": [
    "Intervals.Props.C09_eq",
    "Intervals.Props.C09_ne",
    "Intervals.Props.C09_lt",
    "Intervals.Props.C09_le",
    "Intervals.Props.C09_gt",
    "Intervals.Props.C09_ge"
   ],
   "note": ""
  },
  {
   "property": "C10",
   "status": "proved",
   "theorems": [
    "Intervals.Props.C10_consistency"
   ],
   "note": ""
  },
  {
   "property": "C11",
   "status": "proved",
   "theorems": [
    "Intervals.Props.C11_never_vacuous",
    "Intervals.Props.C11_unassigned_debug",
    "Intervals.Props.C11_nan_vacuous"
   ],
   "note": ""
  },
  {
   "property": "C12",
   "status": "proved",
   "theorems": [
    "Intervals.Props.C12_history",
    "Intervals.Props.C12_order",
    "Intervals.Props.C12_assign_unassigned",
    "Intervals.Props.C12_assign_once"
   ],
   "note": ""
  },
  {
   "property": "C13",
   "status": "partial",
   "theorems": [
    "Intervals.Props.C13_contains_value",
    "Intervals.Props.C13_contains",
    "Intervals.Props.C13_matches",
    "Intervals.Props.C13_matches_value",
    "Intervals.Props.C13_encloses_value",
    "Intervals.Props.C13_encloses",
    "Intervals.Props.C13_value",
    "Intervals.Props.C13_overlaps_violated",
    "Intervals.Props.C13_overlaps_partial",
    "Intervals.Props.C13_overlaps_iff"
   ],
   "note": "overlaps_with is not symmetric when an operand is unassigned (C13_overlaps_violated; C13_overlaps_iff: exactly if the second operand is unassigned and both of its bounds lie in the first); proved for assigned operands."
  },
  {
   "property": "C14",
   "status": "partial",
   "theorems": [
    "Intervals.Props.C14_merge",
    "Intervals.Props.C14_merge_unassigned",
    "Intervals.Props.C14_intersect_violated",
    "Intervals.Props.C14_intersect_partial",
    "Intervals.Props.C14_intersect_gap",
    "Intervals.Props.C14_intersect_iff"
   ],
   "note": "intersect of disjoint arguments returns the gap between them (C14_intersect_violated, C14_intersect_gap); it is right exactly if the arguments have a common point (C14_intersect_partial, C14_intersect_iff)."
  },
  {
   "property": "C15",
   "status": "proved",
   "theorems": [
    "Intervals.Props.C15_if_else",
    "Intervals.Props.C15_points",
    "Intervals.Props.C15_unassigned_branch",
    "Intervals.Props.C15_scalar_branches",
    "Intervals.Props.C15_set"
   ],
   "note": ""
  },
  {
   "property": "C16",
   "status": "proved",
   "theorems": [
    "Intervals.Props.C16_min",
    "Intervals.Props.C16_max",
    "Intervals.Props.C16_scalar"
   ],
   "note": ""
  },
  {
   "property": "C17",
   "status": "proved",
   "theorems": [
    "Intervals.Props.C17_max3",
    "Intervals.Props.C17_imax",
    "Intervals.Props.C17_imax0",
    "Intervals.Props.C17_max3_scalar"
   ],
   "note": ""
  },
  {
   "property": "C18",
   "status": "partial",
   "theorems": [
    "Intervals.Props.C18_violated",
    "Intervals.Props.C18_sound_partial",
    "Intervals.Props.C18_ignored",
    "Intervals.Props.C18_fails"
   ],
   "note": "False for a disjunction (not below a conjunction) that mentions the interval and has a possible side that does not: that side is ignored (C18_violated; C18_ignored and C18_fails for all such conditions). C18_sound_partial covers all other homogeneous conditions."
  },
  {
   "property": "C19",
   "status": "partial",
   "theorems": [
    "Intervals.Props.C19_narrows_partial",
    "Intervals.Props.C19_violated",
    "Intervals.Props.C19_stale",
    "Intervals.Props.C19_fails"
   ],
   "note": "False for == and != formed before the interval was narrowed (C19_violated; C19_stale, C19_fails for all operands); proved otherwise, for <, <=, >, >= formed at any time."
  },
  {
   "property": "C20",
   "status": "proved",
   "theorems": [
    "Intervals.Props.C20_tight_attained",
    "Intervals.Props.C20_tight_limit"
   ],
   "note": ""
  },
  {
   "property": "C21",
   "status": "partial",
   "theorems": [
    "Intervals.Props.C21_unmentioned",
    "Intervals.Props.C21_impossible",
    "Intervals.Props.C21_no_ub",
    "Intervals.Props.C21_success_partial",
    "Intervals.Props.C21_violated",
    "Intervals.Props.C21_violated_hidden",
    "Intervals.Props.C21_hidden_fails",
    "Intervals.Props.C21_conj_fails"
   ],
   "note": "Failure and no-undefined-behaviour parts proved; success is false for a contradictory conjunction below a disjunction (C21_violated, C21_conj_fails) and when the interval is mentioned only in disjunctions that are operands of a conjunction, which constrain does not look at (C21_violated_hidden, C21_hidden_fails); proved otherwise."
  },
  {
   "property": "C22",
   "status": "partial",
   "theorems": [
    "Intervals.Props.C22_truth_set",
    "Intervals.Props.C22_build",
    "Intervals.Props.C22_not_truth_set",
    "Intervals.Props.C22_not_partial",
    "Intervals.Props.C22_violated",
    "Intervals.Props.C22_fails"
   ],
   "note": "Negation of a compound condition with a plain operand always loses the constraint (C22_violated, C22_fails); proved for conditions without plain operands."
  },
  {
   "property": "C23",
   "status": "proved",
   "theorems": [
    "Intervals.Props.C23_or",
    "Intervals.Props.C23_and"
   ],
   "note": "Hypothesis Steps: the neighbours of the bounds of integral operands exist; shown to hold for all conditions on integers (steps_of_lawful) and on floating-point intervals with integral operands (steps_of_float)."
  },
  {
   "property": "C24",
   "status": "partial",
   "theorems": [
    "Intervals.Props.C24_violated",
    "Intervals.Props.C24_violated_failure",
    "Intervals.Props.C24_nonstrict_partial",
    "Intervals.Props.C24_lt",
    "Intervals.Props.C24_gt",
    "Intervals.Props.C24_lt_iff",
    "Intervals.Props.C24_gt_iff"
   ],
   "note": "False for strict relations (C24_violated, C24_violated_failure); C24_lt_iff and C24_gt_iff say exactly for which intervals: those with a value strictly within one unit of the scalar. Proved for ==, !=, <=, >=."
  },
  {
   "property": "C25",
   "status": "proved",
   "theorems": [
    "Intervals.Props.C25_add",
    "Intervals.Props.C25_sub",
    "Intervals.Props.C25_neg",
    "Intervals.Props.C25_plus"
   ],
   "note": ""
  },
  {
   "property": "C26",
   "status": "proved",
   "theorems": [
    "Intervals.Props.C26_mul",
    "Intervals.Props.C26_scalar"
   ],
   "note": ""
  },
  {
   "property": "C27",
   "status": "proved",
   "theorems": [
    "Intervals.Props.C27_quotient",
    "Intervals.Props.C27_div",
    "Intervals.Props.C27_scalar"
   ],
   "note": ""
  },
  {
   "property": "C28",
   "status": "proved",
   "theorems": [
    "Intervals.Props.C28_square",
    "Intervals.Props.C28_cube",
    "Intervals.Props.C28_abs",
    "Intervals.Props.C28_sgn",
    "Intervals.Props.C28_scalar",
    "Intervals.Props.C28_sign_mul",
    "Intervals.Props.C28_sign_mul_scalar",
    "Intervals.Props.C28_signset_mul",
    "Intervals.Props.C28_signset_mul_scalar"
   ],
   "note": ""
  },
  {
   "property": "C29",
   "status": "proved",
   "theorems": [
    "Intervals.Props.C29_iter_add",
    "Intervals.Props.C29_add_iter",
    "Intervals.Props.C29_iter_sub",
    "Intervals.Props.C29_iter_diff",
    "Intervals.Props.C29_iter_diff_defined",
    "Intervals.Props.C29_next",
    "Intervals.Props.C29_prev",
    "Intervals.Props.C29_deref_reads",
    "Intervals.Props.C29_deref",
    "Intervals.Props.C29_index"
   ],
   "note": ""
  },
  {
   "property": "C30",
   "status": "proved",
   "theorems": [
    "Intervals.Props.C30_add",
    "Intervals.Props.C30_sub",
    "Intervals.Props.C30_neg",
    "Intervals.Props.C30_plus",
    "Intervals.Props.C30_scalar"
   ],
   "note": ""
  },
  {
   "property": "C31",
   "status": "proved",
   "theorems": [
    "Intervals.Props.C31_mul",
    "Intervals.Props.C31_scalar"
   ],
   "note": ""
  },
  {
   "property": "C32",
   "status": "partial",
   "theorems": [
    "Intervals.Props.C32_incl_iff",
    "Intervals.Props.C32_nan",
    "Intervals.Props.C32_incl_partial",
    "Intervals.Props.C32_exact",
    "Intervals.Props.C32_scalar",
    "Intervals.Props.C32_violated"
   ],
   "note": "False when the divisor has a zero bound whose sign points away from its other points, e.g. 1/[-1,+0] (C32_violated); NaN part proved in full (C32_nan); inclusion proved for all other divisors and for dividends that reach infinity (C32_incl_partial), exactness for divisors without zero (C32_exact). C32_incl_iff says exactly, in exact arithmetic, for which operands inclusion fails."
  },
  {
   "property": "C33",
   "status": "partial",
   "theorems": [
    "Intervals.Props.C33_square",
    "Intervals.Props.C33_cube",
    "Intervals.Props.C33_abs",
    "Intervals.Props.C33_sgn",
    "Intervals.Props.C33_signset_mul",
    "Intervals.Props.C33_signset_incl_partial",
    "Intervals.Props.C33_signset_violated",
    "Intervals.Props.C33_sign_mul",
    "Intervals.Props.C33_signset_fails",
    "Intervals.Props.C33_signset_mul_scalar"
   ],
   "note": "square, cube, abs, sgn, sign products: full. set<sign> product is false when the set contains zero and the interval an infinity, compared with the library's own sign*scalar (C33_signset_violated); proved with 0*inf=0 (C33_signset_mul) and for sets without zero or finite intervals (C33_signset_incl_partial). C33_signset_fails: false for all other operands."
  },
  {
   "property": "C34",
   "status": "partial",
   "theorems": [
    "Intervals.Props.C34_add_sub",
    "Intervals.Props.C34_mul",
    "Intervals.Props.C34_div",
    "Intervals.Props.C34_unary",
    "Intervals.Props.C34_scalar",
    "Intervals.Props.C34_scalar_div_partial",
    "Intervals.Props.C34_scalar_div_violated",
    "Intervals.Props.C34_min_max_partial",
    "Intervals.Props.C34_merge_partial",
    "Intervals.Props.C34_min_violated",
    "Intervals.Props.C34_assign_violated",
    "Intervals.Props.C34_merge_violated",
    "Intervals.Props.C34_if_else_violated"
   ],
   "note": "Arithmetic proved. scalar NaN divided by an interval containing zero (C34_scalar_div_violated) and min/max/assign/merge/if_else with the NaN as right operand (C34_min_violated, C34_assign_violated, C34_merge_violated, C34_if_else_violated) are false; the other cases are the _partial theorems."
  },
  {
   "property": "C35",
   "status": "partial",
   "theorems": [
    "Intervals.Props.C35_isinf",
    "Intervals.Props.C35_isfinite_partial",
    "Intervals.Props.C35_isfinite_violated",
    "Intervals.Props.C35_isinf_nan",
    "Intervals.Props.C35_isnan"
   ],
   "note": "isfinite of a NaN interval is {true} (C35_isfinite_violated); proved for NaN-free intervals."
  },
  {
   "property": "C36",
   "status": "proved",
   "theorems": [
    "Intervals.Props.C36_floor",
    "Intervals.Props.C36_ceil",
    "Intervals.Props.C36_round",
    "Intervals.Props.C36_frac",
    "Intervals.Props.C36_frac_tight",
    "Intervals.Props.C36_sign"
   ],
   "note": ""
  },
  {
   "property": "C37",
   "status": "proved",
   "theorems": [
    "Intervals.Props.C37_sqrt",
    "Intervals.Props.C37_cbrt",
    "Intervals.Props.C37_log",
    "Intervals.Props.C37_exp",
    "Intervals.Props.C37_atan",
    "Intervals.Props.C37_asin",
    "Intervals.Props.C37_acos",
    "Intervals.Props.C37_domain",
    "Intervals.Props.C37_release",
    "Intervals.Props.C37_real"
   ],
   "note": ""
  },
  {
   "property": "C38",
   "status": "proved",
   "theorems": [
    "Intervals.Props.C38_cos",
    "Intervals.Props.C38_sin",
    "Intervals.Props.C38_range",
    "Intervals.Props.C38_infinite"
   ],
   "note": ""
  },
  {
   "property": "C39",
   "status": "partial",
   "theorems": [
    "Intervals.Props.C39_tan_partial",
    "Intervals.Props.C39_violated_all",
    "Intervals.Props.C39_violated"
   ],
   "note": "False for every interval narrower than pi with a pole of the tangent strictly inside (C39_violated_all), e.g. tan([1,2]); exact for intervals without a pole and [-inf,inf] for width >= pi (C39_tan_partial)."
  },
  {
   "property": "C40",
   "status": "proved",
   "theorems": [
    "Intervals.Props.C40_atan2",
    "Intervals.Props.C40_real"
   ],
   "note": ""
  },
  {
   "property": "C41",
   "status": "partial",
   "theorems": [
    "Intervals.Props.C41_nonneg",
    "Intervals.Props.C41_integer_partial",
    "Intervals.Props.C41_nan_partial",
    "Intervals.Props.C41_violated_all",
    "Intervals.Props.C41_violated",
    "Intervals.Props.C41_float_nonneg",
    "Intervals.Props.C41_float_integer_partial",
    "Intervals.Props.C41_float_nan_partial",
    "Intervals.Props.C41_float_violated",
    "Intervals.Props.C41_unbounded",
    "Intervals.Props.C41_unbounded_integer_partial"
   ],
   "note": "False for exponents whose lower bound is infinite or outside the range of long long when the base may be negative: undefined behaviour (C41_violated, C41_violated_all, C41_float_violated). Proved for all other operands, also unbounded ones: in exact arithmetic (C41_nonneg, C41_integer_partial, C41_nan_partial, C41_unbounded, C41_unbounded_integer_partial), and in every format relative to exp(y*log x) computed on numbers (C41_float_nonneg, C41_float_integer_partial, C41_float_nan_partial)."
  },
  {
   "property": "C42",
   "status": "proved",
   "theorems": [
    "Intervals.Props.C42_rounded",
    "Intervals.Props.C42_wraparound",
    "Intervals.Props.C42_unique",
    "Intervals.Props.C42_fail",
    "Intervals.Props.C42_violated_double"
   ],
   "note": "Proved in exact arithmetic as stated. With rounding the upper end can be returned: wraparound(1-2^-53,1,2) = 2 in double (C42_violated_double). C42_rounded bounds the error in every format."
  },
  {
   "property": "C43",
   "status": "proved",
   "theorems": [
    "Intervals.Props.C43_fractional_weights",
    "Intervals.Props.C43_domain",
    "Intervals.Props.C43_violated_double"
   ],
   "note": "Proved in exact arithmetic as stated. In double precision the weights can violate the constructor contract on valid inputs (C43_violated_double)."
  },
  {
   "property": "C44",
   "status": "proved",
   "theorems": [
    "Intervals.Props.C44_blend_fractions",
    "Intervals.Props.C44_domain"
   ],
   "note": ""
  },
  {
   "property": "C45",
   "status": "proved",
   "theorems": [
    "Intervals.Props.C45_blend_linear",
    "Intervals.Props.C45_domain"
   ],
   "note": ""
  },
  {
   "property": "C46",
   "status": "partial",
   "theorems": [
    "Intervals.Props.C46_fundamental_partial",
    "Intervals.Props.C46_ring",
    "Intervals.Props.C46_exact_partial",
    "Intervals.Props.C46_violated",
    "Intervals.Props.C46_int"
   ],
   "note": "Integers: full (C46_int). Ring expressions over floats: full (C46_ring). With division the claim is false (C46_violated, the C32 defect); C46_fundamental_partial covers every expression whose divisions have no wrongly signed zero bound in the divisor, or a dividend that reaches infinity, and whose min/max operands are not NaN."
  },
  {
   "property": "C47",
   "status": "partial",
   "theorems": [
    "Intervals.Props.C47_float",
    "Intervals.Props.C47_float_unary",
    "Intervals.Props.C47_div_partial",
    "Intervals.Props.C47_div_iff",
    "Intervals.Props.C47_div_zero_violated",
    "Intervals.Props.C47_div_violated",
    "Intervals.Props.C47_compare",
    "Intervals.Props.C47_min_max",
    "Intervals.Props.C47_if_else",
    "Intervals.Props.C47_int"
   ],
   "note": "Proved for +, -, *, unary operations, comparisons, min/max, if_else and all integer operations. Division is not isotone when a divisor has a wrongly signed zero bound (C47_div_violated), or when the zero bounds of the two divisors have different signs (C47_div_zero_violated); C47_div_partial covers the rest. C47_div_iff: the quotients of all smaller operands are contained exactly when the divisor excludes zero or the quotient is the whole line."
  },
  {
   "property": "C48",
   "status": "proved",
   "theorems": [
    "Intervals.Props.C48_narrow",
    "Intervals.Props.C48_narrow_failfast",
    "Intervals.Props.C48_narrow_cast",
    "Intervals.Props.C48_unassigned",
    "Intervals.Props.C48_narrow_cast_unchecked"
   ],
   "note": ""
  },
  {
   "property": "C49",
   "status": "proved",
   "theorems": [
    "Intervals.Props.C49_convert",
    "Intervals.Props.C49_iter",
    "Intervals.Props.C49_conversions_monotone",
    "Intervals.Props.C49_points"
   ],
   "note": ""
  },
  {
   "property": "C50",
   "status": "partial",
   "theorems": [
    "Intervals.Props.C50_binary",
    "Intervals.Props.C50_compare",
    "Intervals.Props.C50_unary",
    "Intervals.Props.C50_sign",
    "Intervals.Props.C50_signset_partial",
    "Intervals.Props.C50_signset_fails",
    "Intervals.Props.C50_signset_violated",
    "Intervals.Props.C50_elementary",
    "Intervals.Props.C50_elementary_binary",
    "Intervals.Props.C50_blend",
    "Intervals.Props.C50_iter",
    "Intervals.Props.C50_index",
    "Intervals.Props.C50_step"
   ],
   "note": "Proved for every operation except set<sign>*interval with the set {zero} or the empty set, which return a result (C50_signset_violated). C50_signset_fails: for every unassigned interval."
  },
  {
   "property": "C51",
   "status": "proved",
   "theorems": [
    "Intervals.Props.C51_partition_point",
    "Intervals.Props.C51_scalar",
    "Intervals.Props.C51_lower_bound",
    "Intervals.Props.C51_upper_bound",
    "Intervals.Props.C51_any_range",
    "Intervals.Props.C51_bounds_any",
    "Intervals.Props.C51_isotone"
   ],
   "note": "For unsorted ranges too: C51_any_range, C51_bounds_any."
  },
  {
   "property": "C52",
   "status": "partial",
   "theorems": [
    "Intervals.Props.C52_keeps",
    "Intervals.Props.C52_within",
    "Intervals.Props.C52_no_failure",
    "Intervals.Props.C52_positions_partial",
    "Intervals.Props.C52_positions_strict",
    "Intervals.Props.C52_positions_fail",
    "Intervals.Props.C52_exact_discrete",
    "Intervals.Props.C52_rvalue",
    "Intervals.Props.C52_scalar",
    "Intervals.Props.C52_scalar_rejects",
    "Intervals.Props.C52_violated",
    "Intervals.Props.C52_violated_mixed"
   ],
   "note": "Proved for same-type ranges and intervals: content for all (C52_keeps, C52_within), success for every member-wise position (C52_no_failure) and for every returned position, unless the value type is discrete and the elements on both sides of the positions are equal (C52_positions_partial). In that case the call always fails (C52_positions_fail, C52_violated). False also for mixed element types (C52_violated_mixed) and for rvalue arguments (C52_rvalue)."
  },
  {
   "property": "C53",
   "status": "proved",
   "theorems": [
    "Intervals.Props.C53_scalar",
    "Intervals.Props.C53_interval",
    "Intervals.Props.C53_set",
    "Intervals.Props.C53_unassigned",
    "Intervals.Props.C53_exhausted",
    "Intervals.Props.C53_post_increment"
   ],
   "note": ""
  },
  {
   "property": "C54",
   "status": "proved",
   "theorems": [
    "Intervals.Props.C54_scalar_index",
    "Intervals.Props.C54_intervals",
    "Intervals.Props.C54_scalars",
    "Intervals.Props.C54_enumerators",
    "Intervals.Props.C54_sets",
    "Intervals.Props.C54_fail_fast",
    "Intervals.Props.C54_fail_fast_scalar"
   ],
   "note": ""
  },
  {
   "property": "C55",
   "status": "partial",
   "theorems": [
    "Intervals.Props.C55_rounded_partial",
    "Intervals.Props.C55_exact",
    "Intervals.Props.C55_violated_double",
    "Intervals.Props.C55_width_violated",
    "Intervals.Props.C55_height_violated",
    "Intervals.Props.C55_generic_scalar",
    "Intervals.Props.C55_height_fails",
    "Intervals.Props.C55_iff"
   ],
   "note": "Proved in exact arithmetic as stated (C55_exact). With rounding, it holds for a table if and only if its differences stay finite and its widths positive (C55_rounded_partial, C55_iff). In double the difference of two abscissae can overflow; then the scalar result is NaN at the right end of the cell (C55_violated_double, C55_width_violated). If the difference of two ordinates overflows, the result for that cell misses the scalar result at its right end (C55_height_violated, C55_height_fails)."
  },
  {
   "property": "C56",
   "status": "proved",
   "theorems": [
    "Intervals.Props.C56_nearest",
    "Intervals.Props.C56_exact",
    "Intervals.Props.C56_rounded"
   ],
   "note": ""
  },
  {
   "property": "C57",
   "status": "partial",
   "theorems": [
    "Intervals.Props.C57_copy",
    "Intervals.Props.C57_copy_throws",
    "Intervals.Props.C57_strong",
    "Intervals.Props.C57_move_partial",
    "Intervals.Props.C57_self_move_violated",
    "Intervals.Props.C57_history_all",
    "Intervals.Props.C57_history_partial",
    "Intervals.Props.C57_history_iff"
   ],
   "note": "Copy assignment in full, self-assignment and exceptions included. Self-move is undefined behaviour (C57_self_move_violated); moves between distinct objects and every history without self-moves are the _partial theorems. C57_history_all gives the outcome of every history of every type, exceptions and std::terminate included; C57_history_iff: a history of a type that does not throw is undefined behaviour exactly if it contains a self-move."
  },
  {
   "property": "C58",
   "status": "proved",
   "theorems": [
    "Intervals.Props.C58_set",
    "Intervals.Props.C58_set_unique",
    "Intervals.Props.C58_set_faithful",
    "Intervals.Props.C58_interval",
    "Intervals.Props.C58_interval_faithful",
    "Intervals.Props.C58_interval_unassigned"
   ],
   "note": ""
  },
  {
   "property": "C59",
   "status": "proved",
   "theorems": [
    "Intervals.Props.C59_s",
    "Intervals.Props.C59_scalar",
    "Intervals.Props.C59_real"
   ],
   "note": ""
  },
  {
   "property": "C60",
   "status": "proved",
   "theorems": [
    "Intervals.Props.C60_dependency"
   ],
   "note": ""
  },
  {
   "property": "C61",
   "status": "proved",
   "theorems": [
    "Intervals.Props.C61_endpoints",
    "Intervals.Props.C61_points",
    "Intervals.Props.C61_converting",
    "Intervals.Props.C61_default",
    "Intervals.Props.C61_unordered",
    "Intervals.Props.C61_value",
    "Intervals.Props.C61_extreme",
    "Intervals.Props.C61_convert"
   ],
   "note": ""
  },
  {
   "property": "C62",
   "status": "proved",
   "theorems": [
    "Intervals.Props.C62_encloses",
    "Intervals.Props.C62_total",
    "Intervals.Props.C62_minmax",
    "Intervals.Props.C62_max3",
    "Intervals.Props.C62_max2",
    "Intervals.Props.C62_float_unary",
    "Intervals.Props.C62_float_binary",
    "Intervals.Props.C62_int",
    "Intervals.Props.C62_stale",
    "Intervals.Props.C62_loop",
    "Intervals.Props.C62_loop_run",
    "Intervals.Props.C62_recursive",
    "Intervals.Props.C62_overwrite",
    "Intervals.Props.C62_assign",
    "Intervals.Props.C62_elem",
    "Intervals.Props.C62_elem_debug",
    "Intervals.Props.C62_asin_release"
   ],
   "note": ""
  },
  {
   "property": "C63",
   "status": "proved",
   "theorems": [
    "Intervals.Props.C63_if_else",
    "Intervals.Props.C63_if_else_empty",
    "Intervals.Props.C63_mixed",
    "Intervals.Props.C63_scalar",
    "Intervals.Props.C63_overwrite"
   ],
   "note": ""
  },
  {
   "property": "C64",
   "status": "proved",
   "theorems": [
    "Intervals.Props.C64_compare",
    "Intervals.Props.C64_projections",
    "Intervals.Props.C64_minmax",
    "Intervals.Props.C64_select",
    "Intervals.Props.C64_merge",
    "Intervals.Props.C64_constrain",
    "Intervals.Props.C64_int",
    "Intervals.Props.C64_int_unary",
    "Intervals.Props.C64_float",
    "Intervals.Props.C64_float_unary",
    "Intervals.Props.C64_elem",
    "Intervals.Props.C64_atan2",
    "Intervals.Props.C64_floor",
    "Intervals.Props.C64_frac_nan",
    "Intervals.Props.C64_weights",
    "Intervals.Props.C64_blend",
    "Intervals.Props.C64_classify",
    "Intervals.Props.C64_iter",
    "Intervals.Props.C64_deref"
   ],
   "note": ""
  },
  {
   "property": "C65",
   "status": "partial",
   "theorems": [
    "Intervals.Props.C65_set_of",
    "Intervals.Props.C65_propagate",
    "Intervals.Props.C65_interval_of",
    "Intervals.Props.C65_interval_arg",
    "Intervals.Props.C65_common",
    "Intervals.Props.C65_violated_all",
    "Intervals.Props.C65_violated",
    "Intervals.Props.C65_partial"
   ],
   "note": "set_of_t drops a non-default reflector, interval_of<T>::type names the trait instead of an interval, and propagate_set_t treats conditions as plain values (C65_violated, C65_violated_all); everything else is proved, these parts with the default reflector, through interval_of_t and for sources that are not conditions (C65_partial)."
  },
  {
   "property": "C66",
   "status": "partial",
   "theorems": [
    "Intervals.Props.C66_order_partial",
    "Intervals.Props.C66_order_exact",
    "Intervals.Props.C66_order_violated",
    "Intervals.Props.C66_eq_violated",
    "Intervals.Props.C66_violated",
    "Intervals.Props.C66_max_partial",
    "Intervals.Props.C66_max_violated"
   ],
   "note": "Violated: == and != never give the empty set (C66_eq_violated), and <, <=, >, >= do not if the other operand reaches a limit of the type (C66_order_violated); proved for the ordering operators otherwise (C66_order_partial). C66_order_exact gives the result of the ordering operators for every operand. C66_max_partial, C66_max_violated: consequences for the programs of the README."
  },
  {
   "property": "C67",
   "status": "partial",
   "theorems": [
    "Intervals.Props.C67_float_cast",
    "Intervals.Props.C67_float_narrow",
    "Intervals.Props.C67_nan",
    "Intervals.Props.C67_to_int_cast",
    "Intervals.Props.C67_to_int_narrow_partial",
    "Intervals.Props.C67_of_int_cast",
    "Intervals.Props.C67_of_int_narrow_partial",
    "Intervals.Props.C67_unassigned",
    "Intervals.Props.C67_formats",
    "Intervals.Props.C67_violated"
   ],
   "note": "The unchecked casts and format-to-format narrowing in full. The checked conversions to and from integer types are undefined behaviour if the bound leaves the integer type (C67_violated); the _partial theorems say exactly when they return, report, or are undefined."
  },
  {
   "property": "C68",
   "status": "partial",
   "theorems": [
    "Intervals.Props.C68_div_iff",
    "Intervals.Props.C68_same_type",
    "Intervals.Props.C68_compare_sound",
    "Intervals.Props.C68_compare_exact",
    "Intervals.Props.C68_float_add_sub_mul",
    "Intervals.Props.C68_float_div_exact",
    "Intervals.Props.C68_float_div_partial",
    "Intervals.Props.C68_int_to_float",
    "Intervals.Props.C68_float_to_float",
    "Intervals.Props.C68_no_conversion",
    "Intervals.Props.C68_int_to_int",
    "Intervals.Props.C68_int",
    "Intervals.Props.C68_formats",
    "Intervals.Props.C68_div_violated",
    "Intervals.Props.C68_eq_inexact"
   ],
   "note": "Everything except one case of the quotient: a divisor of integral type whose upper bound is zero converts to +0, and quotients by its negative points are missed (C68_div_violated); C68_float_div_partial covers all other divisors, and dividends that reach infinity. C68_div_iff: in exact arithmetic exactly the divisors [l, 0] with l <= -2 miss quotients, for every dividend without infinite bound. C68_eq_inexact: == can be possibly true though no two points are equal."
  },
  {
   "property": "C69",
   "status": "partial",
   "theorems": [
    "Intervals.Props.C69_special",
    "Intervals.Props.C69_narrow_cast_float",
    "Intervals.Props.C69_narrow_cast_int_iff",
    "Intervals.Props.C69_violated",
    "Intervals.Props.C69_narrow_cast_int_partial"
   ],
   "note": "narrow_cast between integer types fails if wrap-around reverses the bounds (C69_violated; C69_narrow_cast_int_iff says exactly when); everything else in full."
  },
  {
   "property": "C70",
   "status": "proved",
   "theorems": [
    "Intervals.Props.C70_weights",
    "Intervals.Props.C70_blend_fractions",
    "Intervals.Props.C70_blend_linear",
    "Intervals.Props.C70_domain",
    "Intervals.Props.C70_fractions_domain",
    "Intervals.Props.C70_blend_quadratic",
    "Intervals.Props.C70_weights_format",
    "Intervals.Props.C70_overflow",
    "Intervals.Props.C70_rounding"
   ],
   "note": "In exact arithmetic as stated, and the range of the weights in every format. C70_overflow and C70_rounding: in binary64 the exact-arithmetic laws fail, in particular both weights become 0 when a+b overflows."
  },
  {
   "property": "C71",
   "status": "proved",
   "theorems": [
    "Intervals.Props.C71_add",
    "Intervals.Props.C71_sub",
    "Intervals.Props.C71_mul",
    "Intervals.Props.C71_div",
    "Intervals.Props.C71_error",
    "Intervals.Props.C71_not_enclosed"
   ],
   "note": "In full. C71_not_enclosed records that the real results themselves need not be enclosed (no outward rounding)."
  },
  {
   "property": "C72",
   "status": "proved",
   "theorems": [
    "Intervals.Props.C72_add_comm",
    "Intervals.Props.C72_mul_comm",
    "Intervals.Props.C72_sub_neg",
    "Intervals.Props.C72_neutral",
    "Intervals.Props.C72_sub_self",
    "Intervals.Props.C72_assoc",
    "Intervals.Props.C72_subdistrib",
    "Intervals.Props.C72_rounding",
    "Intervals.Props.C72_mul_zero_sign",
    "Intervals.Props.C72_int_add_comm",
    "Intervals.Props.C72_int_mul_comm",
    "Intervals.Props.C72_int_add_assoc",
    "Intervals.Props.C72_int_mul_assoc",
    "Intervals.Props.C72_int_subdistrib",
    "Intervals.Props.C72_int_distrib_scalar",
    "Intervals.Props.C72_int_neutral",
    "Intervals.Props.C72_int_zero",
    "Intervals.Props.C72_int_sub_neg",
    "Intervals.Props.C72_int_sub_self"
   ],
   "note": "In full. C72_rounding: in binary64 addition does not associate and multiplication does not subdistribute; C72_mul_zero_sign: x*y and y*x can differ in the sign of a zero bound, which a later division turns into different intervals."
  },
  {
   "property": "C73",
   "status": "partial",
   "theorems": [
    "Intervals.Props.C73_unary_partial",
    "Intervals.Props.C73_domain",
    "Intervals.Props.C73_atan2",
    "Intervals.Props.C73_cos_violated",
    "Intervals.Props.C73_pow_violated",
    "Intervals.Props.C73_pow_exponent_violated"
   ],
   "note": "cbrt, exp, atan, tan, floor, ceil, round (C73_unary_partial), sqrt, log, asin, acos (C73_domain) and atan2 (C73_atan2) as stated. False for cos and sin, which return [-1,1], frac, which returns [0,1] (C73_cos_violated), and pow, which returns an unassigned interval or is undefined behaviour (C73_pow_violated, C73_pow_exponent_violated)."
  },
  {
   "property": "C74",
   "status": "partial",
   "theorems": [
    "Intervals.Props.C74_float_partial",
    "Intervals.Props.C74_real_partial"
   ],
   "note": "C74_real_partial: exact real arithmetic, all elementary functions. C74_float_partial: every format, monotone functions of <cmath>. Both assume that the functions are applied within their domain and that the operands avoid the known defects of division, min/max and NaN (false otherwise, see C32, C34, C41, C73)."
  },
  {
   "property": "C75",
   "status": "partial",
   "theorems": [
    "Intervals.Props.C75_unambiguous",
    "Intervals.Props.C75_converse",
    "Intervals.Props.C75_floating",
    "Intervals.Props.C75_operands",
    "Intervals.Props.C75_de_morgan",
    "Intervals.Props.C75_lift_partial",
    "Intervals.Props.C75_plain_partial",
    "Intervals.Props.C75_plain_violated",
    "Intervals.Props.C75_violated",
    "Intervals.Props.C75_short",
    "Intervals.Props.C75_constrain",
    "Intervals.Props.C75_assign",
    "Intervals.Props.C75_assign_iff",
    "Intervals.Props.C75_compare",
    "Intervals.Props.C75_merge"
   ],
   "note": "C75_unambiguous, C75_constrain, C75_assign, C75_merge in full; C75_compare: which conditions comparisons and their negations return. C75_lift_partial covers numbers that are not narrower than int, iterators, truth values and signs with all operators and functions; false for narrow integer types (list-initialization; exactly which operators fail: C75_short), merge and intersect of a value and an interval, orderings of sets of an enumeration, if_else on iterators (C75_violated). C75_plain_partial: false for if_else on enumeration values, which returns a set (C75_plain_violated). C75_converse, C75_floating, C75_operands: nothing more compiles with intervals than with values. C75_de_morgan: the types of negated conjunctions and disjunctions."
  },
  {
   "property": "C76",
   "status": "partial",
   "theorems": [
    "Intervals.Props.C76_mul_partial",
    "Intervals.Props.C76_violated",
    "Intervals.Props.C76_div_partial",
    "Intervals.Props.C76_sign_partial",
    "Intervals.Props.C76_sign_scalar_partial",
    "Intervals.Props.C76_signset_scalar_partial",
    "Intervals.Props.C76_violated_all"
   ],
   "note": "C76_mul_partial, C76_div_partial, C76_sign_partial, C76_sign_scalar_partial, C76_signset_scalar_partial state exactly when the results contain the results of all points: when the narrow type can represent them. False otherwise (C76_violated, C76_violated_all): the int results are reduced modulo 2^(k+1)."
  },
  {
   "property": "C77",
   "status": "partial",
   "theorems": [
    "Intervals.Props.C77_fractions_partial",
    "Intervals.Props.C77_fractions_known_partial",
    "Intervals.Props.C77_linear_partial",
    "Intervals.Props.C77_linear_known_partial",
    "Intervals.Props.C77_error_partial",
    "Intervals.Props.C77_double_partial",
    "Intervals.Props.C77_violated",
    "Intervals.Props.C77_violated_linear",
    "Intervals.Props.C77_full_violated",
    "Intervals.Props.C77_linear_error_partial",
    "Intervals.Props.C77_linear_double_partial"
   ],
   "note": "C77_fractions_partial and C77_linear_partial: both functions succeed and return intervals without NaN whose bounds are scalar blends. Containment of the scalar results is proved for a known fraction (C77_fractions_known_partial, C77_linear_known_partial) and up to a rounding tolerance in general: C77_error_partial (7*2^(n-54) in double on operands up to 2^n: C77_double_partial) and C77_linear_error_partial (for all finite weights; 5*2^(n-52) for the real blend and 9*2^(n-52) for the scalar result: C77_linear_double_partial). Containment as stated is false for both functions (C77_violated, C77_violated_linear, C77_full_violated)."
  },
  {
   "property": "C78",
   "status": "proved",
   "theorems": [
    "Intervals.Props.C78_narrows",
    "Intervals.Props.C78_keeps",
    "Intervals.Props.C78_succeeds",
    "Intervals.Props.C78_monotone",
    "Intervals.Props.C78_above_stable",
    "Intervals.Props.C78_order",
    "Intervals.Props.C78_terminates",
    "Intervals.Props.C78_reaches",
    "Intervals.Props.C78_supported",
    "Intervals.Props.C78_sequence",
    "Intervals.Props.C78_terminates_int",
    "Intervals.Props.C78_fixpoint_int"
   ],
   "note": ""
  },
  {
   "property": "C79",
   "status": "partial",
   "theorems": [
    "Intervals.Props.C79_interval_partial",
    "Intervals.Props.C79_bounds",
    "Intervals.Props.C79_type",
    "Intervals.Props.C79_set",
    "Intervals.Props.C79_set_copy",
    "Intervals.Props.C79_set_iff",
    "Intervals.Props.C79_violated_all",
    "Intervals.Props.C79_violated"
   ],
   "note": "C79_bounds, C79_type, C79_set, C79_set_copy in full. C79_interval_partial: values and plain intervals. False for every interval with identity and for every condition: constrained_interval is not derived from interval, and set(T0) is a better match than a copy of the base class (C79_violated_all, C79_violated)."
  },
  {
   "property": "C80",
   "status": "partial",
   "theorems": [
    "Intervals.Props.C80_monotone",
    "Intervals.Props.C80_frac",
    "Intervals.Props.C80_pow",
    "Intervals.Props.C80_weights",
    "Intervals.Props.C80_blend_fractions",
    "Intervals.Props.C80_blend_linear",
    "Intervals.Props.C80_trig",
    "Intervals.Props.C80_tan_partial",
    "Intervals.Props.C80_tan_violated_all",
    "Intervals.Props.C80_violated",
    "Intervals.Props.C80_pow_real",
    "Intervals.Props.C80_atan2"
   ],
   "note": "All functions except tan in full: C80_monotone, C80_frac, C80_pow, C80_pow_real, C80_atan2, C80_trig, C80_weights, C80_blend_fractions, C80_blend_linear. C80_tan_partial: larger operand without pole, or at least pi wide. False for every larger operand narrower than pi with a pole strictly inside (C80_tan_violated_all, C80_violated)."
  },
  {
   "property": "C81",
   "status": "partial",
   "theorems": [
    "Intervals.Props.C81_cos_partial",
    "Intervals.Props.C81_sin_partial",
    "Intervals.Props.C81_infinite",
    "Intervals.Props.C81_double_partial",
    "Intervals.Props.C81_float_partial",
    "Intervals.Props.C81_violated",
    "Intervals.Props.C81_not_full"
   ],
   "note": "Success, the range [-1, 1] and infinite bounds in full (C81_infinite). Containment up to a tolerance proportional to the rounding error, and the bounds exceed the range of cos or sin by no more than the same tolerance (C81_cos_partial, C81_sin_partial): 2^(n-47) in double and 2^(n-18) in float for bounds up to 2^n (C81_double_partial, C81_float_partial). Containment without tolerance is false, and for large arguments no fixed tolerance would do: C81_violated, C81_not_full. math.hpp:22-23 documents that the argument reduction is not adequate for large arguments."
  },
  {
   "property": "C82",
   "status": "proved",
   "theorems": [
    "Intervals.Props.C82_recursive",
    "Intervals.Props.C82_elem",
    "Intervals.Props.C82_elem_debug",
    "Intervals.Props.C82_constrain",
    "Intervals.Props.C82_isotone",
    "Intervals.Props.C82_defined",
    "Intervals.Props.C82_minmax",
    "Intervals.Props.C82_float_unary",
    "Intervals.Props.C82_float_binary",
    "Intervals.Props.C82_int",
    "Intervals.Props.C82_one_sided",
    "Intervals.Props.C82_conj_fails"
   ],
   "note": ""
  },
  {
   "property": "C83",
   "status": "proved",
   "theorems": [
    "Intervals.Props.C83_convergence",
    "Intervals.Props.C83_rate",
    "Intervals.Props.C83_jump",
    "Intervals.Props.C83_rate_sqrt"
   ],
   "note": ""
  },
  {
   "property": "C84",
   "status": "proved",
   "theorems": [
    "Intervals.Props.C84_single_use",
    "Intervals.Props.C84_repeated"
   ],
   "note": ""
  },
  {
   "property": "C85",
   "status": "proved",
   "theorems": [
    "Intervals.Props.C85_subdivision",
    "Intervals.Props.C85_equal_parts"
   ],
   "note": ""
  },
  {
   "property": "C86",
   "status": "proved",
   "theorems": [
    "Intervals.Props.C86_rounding",
    "Intervals.Props.C86_enclosure",
    "Intervals.Props.C86_binary"
   ],
   "note": ""
  },
  {
   "property": "C87",
   "status": "partial",
   "theorems": [
    "Intervals.Props.C87_interval",
    "Intervals.Props.C87_member_partial",
    "Intervals.Props.C87_cond_partial",
    "Intervals.Props.C87_violated_eq",
    "Intervals.Props.C87_operand",
    "Intervals.Props.C87_interval_faithful",
    "Intervals.Props.C87_set",
    "Intervals.Props.C87_violated_nested"
   ],
   "note": "Intervals and sets in full (C87_interval, C87_interval_faithful, C87_operand, C87_set). Conditions without == and != and without a disjunction inside a conjunction that is itself an operand (C87_member_partial, C87_cond_partial). The rest is false: the rules for == and != name classes that do not exist (C87_violated_eq), and the view of an operand has no parentheses (C87_violated_nested)."
  },
  {
   "property": "C88",
   "status": "proved",
   "theorems": [
    "Intervals.Props.C88_branch",
    "Intervals.Props.C88_short_circuit",
    "Intervals.Props.C88_assign",
    "Intervals.Props.C88_replacement"
   ],
   "note": ""
  },
  {
   "property": "C89",
   "status": "partial",
   "theorems": [
    "Intervals.Props.C89_iff_partial",
    "Intervals.Props.C89_known_partial",
    "Intervals.Props.C89_overflow",
    "Intervals.Props.C89_error_partial",
    "Intervals.Props.C89_double_partial",
    "Intervals.Props.C89_violated",
    "Intervals.Props.C89_full_violated"
   ],
   "note": "Success exactly if the rounded weights at two corners are in order, which are then the bounds (C89_iff_partial); success and equality with the scalar function for known weights (C89_known_partial); in general, success if the real weights spread over more than a rounding tolerance, and containment of the real and of the computed weights up to that tolerance (C89_error_partial; 5*2^-54 in double: C89_double_partial). As stated it is false: contract violations on valid operands by rounding and by overflow of one of the sums (C89_violated, C89_full_violated); the overflow case fails throughout (C89_overflow)."
  },
  {
   "property": "C90",
   "status": "proved",
   "theorems": [
    "Intervals.Props.C90_search",
    "Intervals.Props.C90_constrain",
    "Intervals.Props.C90_scalar",
    "Intervals.Props.C90_bounds",
    "Intervals.Props.C90_partition",
    "Intervals.Props.C90_isotone"
   ],
   "note": "C90_search: predicates; C90_scalar, C90_bounds, C90_partition: comparison by < or > of a key. C90_constrain generalizes the last part to predicates whose conditions meet the hypotheses of C18, C19 and C21. C90_isotone: smaller intervals."
  },
  {
   "property": "C91",
   "status": "proved",
   "theorems": [
    "Intervals.Props.C91_partition_point",
    "Intervals.Props.C91_partition_point_interval",
    "Intervals.Props.C91_bounds",
    "Intervals.Props.C91_constrain"
   ],
   "note": "An element counts as looked at if the outcome depends on what the predicate returns for it, or fails with."
  },
  {
   "property": "C92",
   "status": "partial",
   "theorems": [
    "Intervals.Props.C92_both_partial",
    "Intervals.Props.C92_one_partial",
    "Intervals.Props.C92_hidden",
    "Intervals.Props.C92_fails",
    "Intervals.Props.C92_impossible",
    "Intervals.Props.C92_violated"
   ],
   "note": "False for conjuncts that are disjunctions: the overload of detail::constrain for conjunctions does not see the one for disjunctions, and the conjunct is ignored (C92_violated; C92_hidden and C92_fails for all such conditions). Proved for all other conjuncts (C92_both_partial, C92_one_partial); C92_impossible says what happens if the conjunction cannot be true."
  },
  {
   "property": "C93",
   "status": "partial",
   "theorems": [
    "Intervals.Props.C93_tan_partial",
    "Intervals.Props.C93_infinite",
    "Intervals.Props.C93_double_partial",
    "Intervals.Props.C93_float_partial",
    "Intervals.Props.C93_violated",
    "Intervals.Props.C93_violated_pole",
    "Intervals.Props.C93_not_full"
   ],
   "note": "Intervals wider than pi by a few rounding errors and infinite bounds in full (second part of C93_tan_partial, C93_infinite). If the tangent has no pole on the interval widened by the error of the reduction and is at most T there: success, and containment up to a tolerance proportional to the rounding error times 1+T^2, with bounds that exceed the range by no more (C93_tan_partial; double and float: C93_double_partial, C93_float_partial). Containment without tolerance is false even for single points (C93_violated), and false for narrower intervals with a pole inside (C93_violated_pole, C93_not_full)."
  },
  {
   "property": "C94",
   "status": "partial",
   "theorems": [
    "Intervals.Props.C94_pow_partial",
    "Intervals.Props.C94_double_partial",
    "Intervals.Props.C94_float_partial",
    "Intervals.Props.C94_violated",
    "Intervals.Props.C94_violated_square",
    "Intervals.Props.C94_not_full",
    "Intervals.Props.C94_negative_partial",
    "Intervals.Props.C94_double_negative_partial"
   ],
   "note": "C94_pow_partial: in any format with bounded rounding error and with accurate monotone log and exp, pow(X,Y) of a positive finite base contains every power of real points up to the relative error 2d+2(Bd+e), and both bounds are powers up to it; C94_double_partial, C94_float_partial with explicit numbers (2^(n-48), 2^(n-19) for exponents up to 2^n). C94_negative_partial, C94_double_negative_partial: the same for a negative base and a single integer exponent. Exact containment is false: C94_violated (2^221), C94_violated_square (10^2), C94_not_full."
  },
  {
   "property": "C95",
   "status": "proved",
   "theorems": [
    "Intervals.Props.C95_encloses",
    "Intervals.Props.C95_total",
    "Intervals.Props.C95_unmentioned",
    "Intervals.Props.C95_functions",
    "Intervals.Props.C95_single",
    "Intervals.Props.C95_enumerate",
    "Intervals.Props.C95_visit",
    "Intervals.Props.C95_set",
    "Intervals.Props.C95_sgn",
    "Intervals.Props.C95_loop",
    "Intervals.Props.C95_at",
    "Intervals.Props.C95_kinds",
    "Intervals.Props.C95_reset_in_loop",
    "Intervals.Props.C95_look_wf",
    "Intervals.Props.C95_predicate",
    "Intervals.Props.C95_bool",
    "Intervals.Props.C95_sgn_eq",
    "Intervals.Props.C95_not_mixed",
    "Intervals.Props.C95_classify",
    "Intervals.Props.C95_exact",
    "Intervals.Props.C95_enumerate_set",
    "Intervals.Props.C95_set_eq",
    "Intervals.Props.C95_sgn_fn",
    "Intervals.Props.C95_sign_arith",
    "Intervals.Props.C95_bool_fns",
    "Intervals.Props.C95_cmp_fns",
    "Intervals.Props.C95_bool_var",
    "Intervals.Props.C95_if_else",
    "Intervals.Props.C95_classify_fns",
    "Intervals.Props.C95_assign_set"
   ],
   "note": "C95_encloses and C95_total: all programs, all families of value types. Usable functions: every function admitted by C62 (C95_functions), indexed access and constants (C95_at), loops over enumerate of integer intervals (C95_enumerate) and of sets (C95_set; sgn(x): C95_sgn, tables of enumerators at an interval index: C95_kinds); the loops are the loops over the library's iterators (C95_loop). C95_single: on programs over one type the language agrees with the one of C62. C95_unmentioned: constrain with a condition that says nothing about the interval does not return. Conditions may call predicates: isinf, isfinite, isnan (C95_classify), sgn(x) == v (C95_sgn_eq), a bool (C95_bool), any predicate that returns exactly the possible values (C95_predicate); ! of a conjunction with such an operand is only a set of truth values, constrain with it does not return (C95_not_mixed). Variables may be sets (set<sign>, set<bool>, sets of enumerators): sgn(x) (C95_sgn_fn), -s and s * t (C95_sign_arith), connectives of sets of truth values (C95_bool_fns), stored comparisons (C95_cmp_fns) and classifications (C95_classify_fns), if_else(b, x, y) (C95_if_else), any function that returns exactly the possible values (C95_exact); loops over the members of a set variable (C95_enumerate_set); conditions s == t, s == v (C95_set_eq) and b (C95_bool_var). C95_assign_set: why assign to a set from outside of a branch is rejected. C95_reset_in_loop: why loop bodies must not reset outer variables. Simplification: the operands of one comparison have one type."
  },
  {
   "property": "C96",
   "status": "proved",
   "theorems": [
    "Intervals.Props.C96_isotone",
    "Intervals.Props.C96_defined",
    "Intervals.Props.C96_functions",
    "Intervals.Props.C96_set",
    "Intervals.Props.C96_visit",
    "Intervals.Props.C96_sgn",
    "Intervals.Props.C96_ascending",
    "Intervals.Props.C96_enumerate",
    "Intervals.Props.C96_at",
    "Intervals.Props.C96_kinds"
   ],
   "note": "C96_isotone and C96_defined: all programs, all families of value types, all nested inputs. Usable functions: every function admitted by C82 (C96_functions), indexed access and constants (C96_at), loops over enumerate of integer intervals (C96_visit, C96_ascending, C96_enumerate) and of sets (C96_set; sgn(x): C96_sgn, tables of enumerators at an interval index: C96_kinds). Why C96_defined is about single comparisons: C82_conj_fails (conjunctions may fail for the narrower inputs). Simplifications as for C95. Conditions may call the predicates of C95. Variables may be sets, with the functions, loops and conditions of C95 (C95_exact, C95_enumerate_set, C95_if_else and the others state isotonicity as well)."
  },
  {
   "property": "C97",
   "status": "proved",
   "theorems": [
    "Intervals.Props.C97_range",
    "Intervals.Props.C97_seams",
    "Intervals.Props.C97_onto",
    "Intervals.Props.C97_discrete",
    "Intervals.Props.C97_clamp",
    "Intervals.Props.C97_discrete_equal",
    "Intervals.Props.C97_jump",
    "Intervals.Props.C97_expr"
   ],
   "note": "C97_range: all trees of conditions, all boxes, all value types. C97_seams: attained bounds if the pieces agree at the seams; C97_discrete: attained bounds for discrete types; C97_onto: no value between the bounds is missed for continuous types; C97_expr: functions of real variables defined by cases, with pieces as in C84. C97_clamp: one program for every value type. C97_discrete_equal and C97_jump: why tests for equality and disagreeing seams are excluded. Simplification: the constants have the value type of the parameters and stand on the right of the comparison."
  },
  {
   "property": "C98",
   "status": "partial",
   "theorems": [
    "Intervals.Props.C98_compare_partial",
    "Intervals.Props.C98_compare_signed",
    "Intervals.Props.C98_mixed_sign",
    "Intervals.Props.C98_violated",
    "Intervals.Props.C98_violated_empty",
    "Intervals.Props.C98_to_signed",
    "Intervals.Props.C98_int",
    "Intervals.Props.C98_to_float",
    "Intervals.Props.C98_float",
    "Intervals.Props.C98_flip",
    "Intervals.Props.C98_constrain_lt_partial",
    "Intervals.Props.C98_constrain_gt_partial",
    "Intervals.Props.C98_constrain_violated",
    "Intervals.Props.C98_constrain_float_iff",
    "Intervals.Props.C98_constrain_float_violated"
   ],
   "note": "Proved in full: arithmetic and comparisons with a signed (C98_int, C98_compare_signed) or floating-point (C98_float) common type; conversions (C98_to_signed, C98_to_float). Unsigned common type: C98_compare_partial for intervals of one sign; C98_mixed_sign says for every other interval and every scalar whether each comparison is right and whether it is the empty set; C98_violated, C98_violated_empty: witnesses. constrain: C98_constrain_lt_partial, C98_constrain_gt_partial (all but `x < 0u` and `x > max`, for which they say what is returned), C98_constrain_violated; C98_constrain_float_iff, C98_constrain_float_violated: floating-point intervals (disagreement b)."
  },
  {
   "property": "C99",
   "status": "proved",
   "theorems": [
    "Intervals.Props.C99_identities",
    "Intervals.Props.C99_max_possibly",
    "Intervals.Props.C99_max_certainly",
    "Intervals.Props.C99_no_two_valued",
    "Intervals.Props.C99_overwrite",
    "Intervals.Props.C99_max2"
   ],
   "note": "All value types. The programs are Model/Readme (README.md:277–291, 390–405, 437–452); the numbers given in the README are an example beside the theorems. max3, the last version, is C17."
  },
  {
   "property": "C100",
   "status": "partial",
   "theorems": [
    "Intervals.Props.C100_fractional_weights",
    "Intervals.Props.C100_blend_fractions",
    "Intervals.Props.C100_blend_fractions_domain",
    "Intervals.Props.C100_fractional_weights_domain",
    "Intervals.Props.C100_blend_linear_domain",
    "Intervals.Props.C100_blend_linear_partial",
    "Intervals.Props.C100_violated_ub",
    "Intervals.Props.C100_blend_linear_int",
    "Intervals.Props.C100_blend_linear_int_iff",
    "Intervals.Props.C100_violated",
    "Intervals.Props.C100_pow_same",
    "Intervals.Props.C100_pow_nonneg",
    "Intervals.Props.C100_pow_integer",
    "Intervals.Props.C100_pow_nan",
    "Intervals.Props.C100_weights_same",
    "Intervals.Props.C100_fractions_same",
    "Intervals.Props.C100_linear_same"
   ],
   "note": "Partial because the claim is false for blend_linear with two integer weights (C100_violated, C100_violated_ub; C100_blend_linear_int gives the result in all cases without overflow, C100_blend_linear_int_iff when it encloses the means). One integer and one floating-point type per call; the type of each subexpression is modelled (Model/MixedFn). Exact arithmetic, except C100_pow_same, C100_weights_same, C100_fractions_same and C100_linear_same: in any format, integer operands with representable bounds act like the converted ones, so that C77, C89 and C94 apply."
  },
  {
   "property": "C101",
   "status": "partial",
   "theorems": [
    "Intervals.Props.C101_converted",
    "Intervals.Props.C101_ub_iff",
    "Intervals.Props.C101_float_ub",
    "Intervals.Props.C101_converted_float",
    "Intervals.Props.C101_violated_double",
    "Intervals.Props.C101_idempotent",
    "Intervals.Props.C101_isotone",
    "Intervals.Props.C101_impossible",
    "Intervals.Props.C101_exact",
    "Intervals.Props.C101_equal",
    "Intervals.Props.C101_narrows",
    "Intervals.Props.C101_keeps_partial",
    "Intervals.Props.C101_lt_iff",
    "Intervals.Props.C101_gt_iff",
    "Intervals.Props.C101_ub",
    "Intervals.Props.C101_unassigned",
    "Intervals.Props.C101_not",
    "Intervals.Props.C101_same",
    "Intervals.Props.C101_casts",
    "Intervals.Props.C101_int_partial",
    "Intervals.Props.C101_int_ub",
    "Intervals.Props.C101_unsigned",
    "Intervals.Props.C101_violated",
    "Intervals.Props.C101_violated_step",
    "Intervals.Props.C101_isotone_operand"
   ],
   "note": "Partial because the claim is false for strict comparisons with operands that are stepped by one before they are converted: a signed operand at the limit of its own type is undefined (C101_violated, C101_violated_double; C101_ub_iff, C101_int_ub, C101_float_ub: exactly when), and a floating-point interval loses the values between the stepped bound and the bound (C101_violated_step; C101_lt_iff, C101_gt_iff: exactly when values are lost). C101_keeps_partial covers all other comparisons and operands that are not stepped (floating-point types); C101_int_partial: signed integers, exact result away from the limit. Types narrower than int wrap instead of being undefined: that is C101_lt_iff/C101_gt_iff with the wrapped step. Comparisons other than < and > never lose a value. The condition is formed from x with its current bounds. C101_same and C101_converted link to the model of C18-C24 (C101_converted_float: integers in conditions on floating-point intervals), C101_unsigned to C98. C101_isotone: all six comparisons are inclusion isotone. C101_isotone_operand: also in the operand. C101_idempotent: constraining again."
  },
  {
   "property": "C102",
   "status": "partial",
   "theorems": [
    "Intervals.Props.C102_int",
    "Intervals.Props.C102_int_iff",
    "Intervals.Props.C102_int_exact",
    "Intervals.Props.C102_narrow",
    "Intervals.Props.C102_to_int_partial",
    "Intervals.Props.C102_violated"
   ],
   "note": "Partial because the claim is false where the implicit conversion narrows: an integer interval may silently become unassigned or lose points (C102_violated; C102_int, C102_int_iff: exactly when), and a floating-point interval out of the range of the integer type is undefined behaviour (C102_to_int_partial: exactly when). C102_int_exact: the bounds are kept iff both are values of the target type. C102_narrow relates narrow_cast, narrow and narrow_failfast (C48) to it. Conversions to a wider integer type or to a floating-point format are C49 and C49_points."
  },
  {
   "property": "C103",
   "status": "partial",
   "theorems": [
    "Intervals.Props.C103_to_int",
    "Intervals.Props.C103_to_int_partial",
    "Intervals.Props.C103_to_float_partial",
    "Intervals.Props.C103_of_int",
    "Intervals.Props.C103_int_partial",
    "Intervals.Props.C103_assign",
    "Intervals.Props.C103_violated"
   ],
   "note": "Partial because the claim is false where the value is converted to the type of the interval first: truncation, reduction and rounding map values outside to values inside (C103_violated, C103_full; C103_to_int: exactly when). C103_to_int_partial and C103_to_float_partial: contains never misses a contained value and encloses never reports a value that is not enclosed; all three are right for values representable in the interval's type. C103_int_partial: two integer types. C103_of_int reduces integers in floating-point intervals to C103_to_float_partial."
  },
  {
   "property": "C104",
   "status": "partial",
   "theorems": [
    "Intervals.Props.C104_idempotent_fails",
    "Intervals.Props.C104_idempotent",
    "Intervals.Props.C104_idempotent_float_fails",
    "Intervals.Props.C104_isotone",
    "Intervals.Props.C104_isotone_fails",
    "Intervals.Props.C104_isotone_or",
    "Intervals.Props.C104_isotone_or_fails",
    "Intervals.Props.C104_sound_partial",
    "Intervals.Props.C104_narrows",
    "Intervals.Props.C104_and",
    "Intervals.Props.C104_or",
    "Intervals.Props.C104_or_impossible",
    "Intervals.Props.C104_unmentioned",
    "Intervals.Props.C104_defined",
    "Intervals.Props.C104_success",
    "Intervals.Props.C104_cmp",
    "Intervals.Props.C104_or_never",
    "Intervals.Props.C104_and_never",
    "Intervals.Props.C104_and_plain",
    "Intervals.Props.C104_deMorgan",
    "Intervals.Props.C104_not_plain",
    "Intervals.Props.C104_unassigned",
    "Intervals.Props.C104_good",
    "Intervals.Props.C104_good_nonstrict",
    "Intervals.Props.C104_good_int",
    "Intervals.Props.C104_violated",
    "Intervals.Props.C104_good_float",
    "Intervals.Props.C104_truth_isotone"
   ],
   "note": "Partial because the claim is false for disjunctions with a possible side that does not mention x (C104_violated, as C18). C104_sound_partial: all other conditions; C104_narrows for every condition. C104_and and C104_or: what conjunctions (of operands other than disjunctions; a disjunction below a conjunction is ignored, as C92) and disjunctions return. C104_success: a satisfiable conjunction returns. The comparisons have to be ones that keep what satisfies them on their own; C104_good, C104_good_nonstrict, C104_good_int and C104_good_float say which do, C101 says why the others do not. C104_truth_isotone: smaller intervals. C104_isotone: conjunctions are inclusion isotone; C104_isotone_fails: conditions with disjunctions are not (disagreement c and disjunctions ignored below a conjunction). C104_isotone_or: disjunctions of conjunctions that each mention x are isotone wherever both calls succeed; C104_isotone_or_fails: the larger interval may be rejected (disagreement e). C104_idempotent: conjunctions without != can be used again; C104_idempotent_fails: with != they may narrow further; C104_idempotent_float_fails: strict comparisons of floating-point numbers may reject the result."
  },
  {
   "property": "C105",
   "status": "partial",
   "theorems": [
    "Intervals.Props.C105_disj",
    "Intervals.Props.C105_idempotent",
    "Intervals.Props.C105_conj",
    "Intervals.Props.C105_tight",
    "Intervals.Props.C105_or_partial",
    "Intervals.Props.C105_or_impossible",
    "Intervals.Props.C105_leq",
    "Intervals.Props.C105_equal",
    "Intervals.Props.C105_int",
    "Intervals.Props.C105_violated"
   ],
   "note": "Partial because the claim is false for disjunctions below a conjunction, which are ignored, and for disjunctions with a conjunction that no value satisfies although each of its comparisons is possible, which are a contract violation (C105_violated). C105_conj, C105_tight: conjunctions in full, also those that arise from negated disjunctions. C105_or_partial: disjunctions of conditions that can be satisfied, to any depth; C105_or_impossible: beside an impossible comparison. C105_leq, C105_equal, C105_int: which comparisons are exact on their own. C105_disj: any disjunction of conjunctions each of which some value satisfies; C105_idempotent: constraining the result by it again changes nothing."
  },
  {
   "property": "C106",
   "status": "partial",
   "theorems": [
    "Intervals.Props.C106_isotone",
    "Intervals.Props.C106_any_isotone",
    "Intervals.Props.C106_scalar",
    "Intervals.Props.C106_search",
    "Intervals.Props.C106_unassigned",
    "Intervals.Props.C106_result",
    "Intervals.Props.C106_impossible",
    "Intervals.Props.C106_ub",
    "Intervals.Props.C106_ub_upper",
    "Intervals.Props.C106_part",
    "Intervals.Props.C106_keeps_partial",
    "Intervals.Props.C106_lost",
    "Intervals.Props.C106_keeps_same",
    "Intervals.Props.C106_int_partial",
    "Intervals.Props.C106_any",
    "Intervals.Props.C106_violated"
   ],
   "note": "Partial because constraining by a partition steps the element in its own type before the conversion: with integer elements and a floating-point interval it loses the values between the element and the next integer, and it is undefined behaviour at the limits of the element type (C106_violated). The searches are proved in full (C106_search, C106_scalar, C106_any). C106_result: exactly what constraining keeps; C106_keeps_partial and C106_lost: which values of a partition it keeps and which it loses; C106_keeps_same: floating-point elements, nothing is lost; C106_int_partial: narrower integer elements, exactly the partition; C106_ub, C106_ub_upper: the undefined behaviour. C106_isotone, C106_any_isotone: smaller intervals."
  },
  {
   "property": "C107",
   "status": "proved",
   "theorems": [
    "Intervals.Props.C107_search",
    "Intervals.Props.C107_constrain",
    "Intervals.Props.C107_linear",
    "Intervals.Props.C107_linear_least",
    "Intervals.Props.C107_linear_isotone",
    "Intervals.Props.C107_nearest_distinct",
    "Intervals.Props.C107_nearest_isotone",
    "Intervals.Props.C107_nearest_exact",
    "Intervals.Props.C107_nearest_rounded"
   ],
   "note": "C107_search, C107_constrain, C107_linear_isotone, C107_nearest_isotone: isotonicity. C107_linear, C107_linear_least, C107_nearest_exact: tightness in exact arithmetic. C107_nearest_distinct: tightness of the nearest neighbour in every format if the midpoints are distinct; C107_nearest_rounded: in a rounded format midpoints can coincide, and then the result is not tight."
  },
  {
   "property": "C108",
   "status": "proved",
   "theorems": [
    "Intervals.Props.C108_positions",
    "Intervals.Props.C108_strict",
    "Intervals.Props.C108_step",
    "Intervals.Props.C108_isotone",
    "Intervals.Props.C108_mixed",
    "Intervals.Props.C108_step_set",
    "Intervals.Props.C108_duplicates"
   ],
   "note": "C108_positions: which positions are attained, in any sorted range; C108_strict: all of them in a strictly increasing one. C108_step, C108_step_set: step functions with values that are numbers or enumerators; C108_isotone; C108_mixed: abscissas of another value type; C108_duplicates: with equal abscissas the result can have a bound that the step function never takes."
  },
  {
   "property": "C109",
   "status": "proved",
   "theorems": [
    "Intervals.Props.C109_up_scalar",
    "Intervals.Props.C109_up",
    "Intervals.Props.C109_down_scalar",
    "Intervals.Props.C109_down",
    "Intervals.Props.C109_up_grid",
    "Intervals.Props.C109_down_grid",
    "Intervals.Props.C109_isotone"
   ],
   "note": "C109_up_scalar, C109_down_scalar: numbers; C109_up, C109_down: intervals, with the undefined behaviour; C109_up_grid, C109_down_grid: the elements in the result are the snapped values; C109_isotone."
  },
  {
   "property": "C110",
   "status": "partial",
   "theorems": [
    "Intervals.Props.C110_fresh",
    "Intervals.Props.C110_order_partial",
    "Intervals.Props.C110_equal",
    "Intervals.Props.C110_unequal",
    "Intervals.Props.C110_keeps",
    "Intervals.Props.C110_narrows_partial",
    "Intervals.Props.C110_equal_fails",
    "Intervals.Props.C110_strict_fails",
    "Intervals.Props.C110_or_fails",
    "Intervals.Props.C110_violated",
    "Intervals.Props.C110_or_violated",
    "Intervals.Props.C110_conj_partial"
   ],
   "note": "Partial because the claim is false for == and != (C110_violated; C110_equal, C110_unequal: what they return; C110_equal_fails), for < and > in a release build once no value satisfies them (C110_strict_fails), and for disjunctions one side of which has become impossible: these are contract violations although the other side can be satisfied (C110_or_fails, C110_or_violated). C110_order_partial: <=, >= always, <, > in debug builds and while some value satisfies them; C110_narrows_partial; C110_keeps for all six; C110_conj_partial: conjunctions of these (of any value types); C110_fresh links to C101."
  },
  {
   "property": "C111",
   "status": "proved",
   "theorems": [
    "Intervals.Props.C111_float",
    "Intervals.Props.C111_terminates_int",
    "Intervals.Props.C111_terminates_float",
    "Intervals.Props.C111_narrows",
    "Intervals.Props.C111_monotone",
    "Intervals.Props.C111_above_stable",
    "Intervals.Props.C111_order",
    "Intervals.Props.C111_keeps",
    "Intervals.Props.C111_fixpoint",
    "Intervals.Props.C111_steps",
    "Intervals.Props.C111_int",
    "Intervals.Props.C111_limit",
    "Intervals.Props.C111_supported",
    "Intervals.Props.C111_supported_any"
   ],
   "note": "The proviso on strict comparisons is needed: C111_limit (an operand at the limit of its own type is stepped: undefined behaviour, disagreement of C101). C111_int discharges it for integers; C111_steps, C101_casts give the other hypotheses. C111_supported (integers, all comparisons) and C111_supported_any (all types, <=, >=, ==): what holds at the bounds of a state that nothing changes. C111_float: floating-point variables; a strict comparison keeps the bound it compares with. C111_terminates_int, C111_terminates_float: every order comes to an end."
  }
 ]
}