# Axioms used (output of `#print axioms`, grouped; generated by tools/axioms.py)

## none (3 theorems)

`C08_sign_arith`, `C12_assign_once`, `C68_no_conversion`

## propext (19 theorems)

`C04_bool`, `C07_roundtrip`, `C07_to_from`, `C13_contains_value`, `C13_encloses_value`, `C14_intersect_violated`, `C15_scalar_branches`, `C50_binary`, `C50_sign`, `C50_iter`, `C57_copy_throws`, `C57_strong`, `C57_self_move_violated`, `C64_projections`, `C75_de_morgan`, `C88_branch`, `C88_assign`, `C95_visit`, `C96_visit`

## Quot.sound, propext (163 theorems)

`C01_not`, `C01_not_empty`, `C01_and`, `C01_and_set_bool`, `C01_and_bool_set`, `C01_or`, `C01_or_set_bool`, `C01_or_bool_set`, `C01_xor`, `C01_xor_set_bool`, `C01_xor_bool_set`, `C01_gt`, `C01_gt_set_bool`, `C01_gt_bool_set`, `C01_lt`, `C01_lt_set_bool`, `C01_lt_bool_set`, `C01_eq_tables`, `C01_empty_contagious`, `C02_violated`, `C02_wrong_entry`, `C02_geq_partial`, `C02_geq_mixed_partial`, `C03_assoc_comm`, `C03_idem`, `C03_distrib`, `C03_de_morgan`, `C03_xor`, `C03_mixed`, `C04_projections`, `C04_duality`, `C07_to_bits_throws`, `C07_to_bits`, `C07_index`, `C08_plus`, `C08_zero_times_empty`, `C08_sgn`, `C08_sgn_nan`, `C11_unassigned_debug`, `C12_assign_unassigned`, `C13_overlaps_violated`, `C14_merge_unassigned`, `C15_unassigned_branch`, `C15_set`, `C18_violated`, `C19_violated`, `C21_unmentioned`, `C21_hidden_fails`, `C22_violated`, `C22_fails`, `C25_plus`, `C28_sign_mul_scalar`, `C29_deref_reads`, `C34_add_sub`, `C34_mul`, `C34_div`, `C34_unary`, `C34_scalar`, `C34_scalar_div_partial`, `C34_min_max_partial`, `C34_merge_partial`, `C34_assign_violated`, `C34_merge_violated`, `C35_isfinite_violated`, `C35_isinf_nan`, `C35_isnan`, `C42_fail`, `C48_narrow_cast`, `C48_unassigned`, `C48_narrow_cast_unchecked`, `C50_compare`, `C50_unary`, `C50_signset_partial`, `C50_signset_violated`, `C50_elementary`, `C50_elementary_binary`, `C50_blend`, `C50_index`, `C50_step`, `C52_violated`, `C53_scalar`, `C54_scalar_index`, `C54_fail_fast`, `C54_fail_fast_scalar`, `C57_copy`, `C57_move_partial`, `C57_history_all`, `C57_history_partial`, `C58_interval_unassigned`, `C59_scalar`, `C61_endpoints`, `C62_max3`, `C62_stale`, `C62_loop`, `C62_loop_run`, `C62_overwrite`, `C62_assign`, `C63_if_else`, `C63_overwrite`, `C64_compare`, `C64_minmax`, `C64_elem`, `C64_atan2`, `C64_blend`, `C65_set_of`, `C65_propagate`, `C65_interval_of`, `C65_interval_arg`, `C65_common`, `C65_violated_all`, `C65_violated`, `C65_partial`, `C66_order_violated`, `C66_violated`, `C66_max_violated`, `C67_nan`, `C67_unassigned`, `C68_float_to_float`, `C69_violated`, `C70_domain`, `C70_fractions_domain`, `C73_unary_partial`, `C73_domain`, `C73_pow_violated`, `C75_converse`, `C75_short`, `C75_assign`, `C75_assign_iff`, `C75_compare`, `C75_merge`, `C79_interval_partial`, `C79_bounds`, `C79_type`, `C79_set`, `C79_set_copy`, `C79_violated_all`, `C82_one_sided`, `C82_conj_fails`, `C88_short_circuit`, `C88_replacement`, `C91_partition_point`, `C91_partition_point_interval`, `C91_bounds`, `C92_impossible`, `C95_reset_in_loop`, `C98_violated`, `C98_violated_empty`, `C98_flip`, `C101_unassigned`, `C101_unsigned`, `C102_narrow`, `C103_of_int`, `C104_unmentioned`, `C104_or_never`, `C104_and_never`, `C104_and_plain`, `C104_not_plain`, `C104_unassigned`, `C106_unassigned`, `C110_fresh`, `C110_equal`, `C110_or_violated`, `C111_limit`

## Classical.choice, Quot.sound, propext (674 theorems)

`C05_step`, `C05_history`, `C05_illegal`, `C05_init_list`, `C05_order`, `C05_extensional`, `C06_eq`, `C06_ne`, `C06_eq_empty`, `C06_contains`, `C06_matches`, `C06_matches_value`, `C06_value`, `C06_value_fails`, `C07_index_value`, `C08_neg`, `C08_mul_violated`, `C08_mul_partial`, `C08_mul_sign_partial`, `C09_eq`, `C09_ne`, `C09_lt`, `C09_le`, `C09_gt`, `C09_ge`, `C10_consistency`, `C11_never_vacuous`, `C11_nan_vacuous`, `C12_history`, `C12_order`, `C13_contains`, `C13_matches`, `C13_matches_value`, `C13_encloses`, `C13_value`, `C13_overlaps_partial`, `C13_overlaps_iff`, `C14_merge`, `C14_intersect_partial`, `C14_intersect_gap`, `C14_intersect_iff`, `C15_if_else`, `C15_points`, `C16_min`, `C16_max`, `C16_scalar`, `C17_max3`, `C17_imax`, `C17_imax0`, `C17_max3_scalar`, `C18_sound_partial`, `C18_ignored`, `C18_fails`, `C19_narrows_partial`, `C19_stale`, `C19_fails`, `C20_tight_attained`, `C20_tight_limit`, `C21_impossible`, `C21_no_ub`, `C21_success_partial`, `C21_violated`, `C21_violated_hidden`, `C21_conj_fails`, `C22_truth_set`, `C22_build`, `C22_not_truth_set`, `C22_not_partial`, `C23_or`, `C23_and`, `C24_violated`, `C24_violated_failure`, `C24_nonstrict_partial`, `C24_lt`, `C24_gt`, `C24_lt_iff`, `C24_gt_iff`, `C25_add`, `C25_sub`, `C25_neg`, `C26_mul`, `C26_scalar`, `C27_quotient`, `C27_div`, `C27_scalar`, `C28_square`, `C28_cube`, `C28_abs`, `C28_sgn`, `C28_scalar`, `C28_sign_mul`, `C28_signset_mul`, `C28_signset_mul_scalar`, `C29_iter_add`, `C29_add_iter`, `C29_iter_sub`, `C29_iter_diff`, `C29_iter_diff_defined`, `C29_next`, `C29_prev`, `C29_deref`, `C29_index`, `C30_add`, `C30_sub`, `C30_neg`, `C30_plus`, `C30_scalar`, `C31_mul`, `C31_scalar`, `C32_incl_iff`, `C32_nan`, `C32_incl_partial`, `C32_exact`, `C32_scalar`, `C32_violated`, `C33_square`, `C33_cube`, `C33_abs`, `C33_sgn`, `C33_signset_mul`, `C33_signset_incl_partial`, `C33_signset_violated`, `C33_sign_mul`, `C33_signset_fails`, `C33_signset_mul_scalar`, `C34_scalar_div_violated`, `C34_min_violated`, `C34_if_else_violated`, `C35_isinf`, `C35_isfinite_partial`, `C36_floor`, `C36_ceil`, `C36_round`, `C36_frac`, `C36_frac_tight`, `C36_sign`, `C37_sqrt`, `C37_cbrt`, `C37_log`, `C37_exp`, `C37_atan`, `C37_asin`, `C37_acos`, `C37_domain`, `C37_release`, `C37_real`, `C38_cos`, `C38_sin`, `C38_range`, `C38_infinite`, `C39_tan_partial`, `C39_violated_all`, `C39_violated`, `C40_atan2`, `C40_real`, `C41_nonneg`, `C41_integer_partial`, `C41_nan_partial`, `C41_violated_all`, `C41_violated`, `C41_float_nonneg`, `C41_float_integer_partial`, `C41_float_nan_partial`, `C41_float_violated`, `C41_unbounded`, `C41_unbounded_integer_partial`, `C42_rounded`, `C42_wraparound`, `C42_unique`, `C42_violated_double`, `C43_fractional_weights`, `C43_domain`, `C43_violated_double`, `C44_blend_fractions`, `C44_domain`, `C45_blend_linear`, `C45_domain`, `C46_fundamental_partial`, `C46_ring`, `C46_exact_partial`, `C46_violated`, `C46_int`, `C47_float`, `C47_float_unary`, `C47_div_partial`, `C47_div_iff`, `C47_div_zero_violated`, `C47_div_violated`, `C47_compare`, `C47_min_max`, `C47_if_else`, `C47_int`, `C48_narrow`, `C48_narrow_failfast`, `C49_convert`, `C49_iter`, `C49_conversions_monotone`, `C49_points`, `C50_signset_fails`, `C51_partition_point`, `C51_scalar`, `C51_lower_bound`, `C51_upper_bound`, `C51_any_range`, `C51_bounds_any`, `C51_isotone`, `C52_keeps`, `C52_within`, `C52_no_failure`, `C52_positions_partial`, `C52_positions_strict`, `C52_positions_fail`, `C52_exact_discrete`, `C52_rvalue`, `C52_scalar`, `C52_scalar_rejects`, `C52_violated_mixed`, `C53_interval`, `C53_set`, `C53_unassigned`, `C53_exhausted`, `C53_post_increment`, `C54_intervals`, `C54_scalars`, `C54_enumerators`, `C54_sets`, `C55_rounded_partial`, `C55_exact`, `C55_violated_double`, `C55_width_violated`, `C55_height_violated`, `C55_generic_scalar`, `C55_height_fails`, `C55_iff`, `C56_nearest`, `C56_exact`, `C56_rounded`, `C57_history_iff`, `C58_set`, `C58_set_unique`, `C58_set_faithful`, `C58_interval`, `C58_interval_faithful`, `C59_s`, `C59_real`, `C60_dependency`, `C61_points`, `C61_converting`, `C61_default`, `C61_unordered`, `C61_value`, `C61_extreme`, `C61_convert`, `C62_encloses`, `C62_total`, `C62_minmax`, `C62_max2`, `C62_float_unary`, `C62_float_binary`, `C62_int`, `C62_recursive`, `C62_elem`, `C62_elem_debug`, `C62_asin_release`, `C63_if_else_empty`, `C63_mixed`, `C63_scalar`, `C64_select`, `C64_merge`, `C64_constrain`, `C64_int`, `C64_int_unary`, `C64_float`, `C64_float_unary`, `C64_floor`, `C64_frac_nan`, `C64_weights`, `C64_classify`, `C64_iter`, `C64_deref`, `C66_order_partial`, `C66_order_exact`, `C66_eq_violated`, `C66_max_partial`, `C67_float_cast`, `C67_float_narrow`, `C67_to_int_cast`, `C67_to_int_narrow_partial`, `C67_of_int_cast`, `C67_of_int_narrow_partial`, `C67_formats`, `C67_violated`, `C68_div_iff`, `C68_same_type`, `C68_compare_sound`, `C68_compare_exact`, `C68_float_add_sub_mul`, `C68_float_div_exact`, `C68_float_div_partial`, `C68_int_to_float`, `C68_int_to_int`, `C68_int`, `C68_formats`, `C68_div_violated`, `C68_eq_inexact`, `C69_special`, `C69_narrow_cast_float`, `C69_narrow_cast_int_iff`, `C69_narrow_cast_int_partial`, `C70_weights`, `C70_blend_fractions`, `C70_blend_linear`, `C70_blend_quadratic`, `C70_weights_format`, `C70_overflow`, `C70_rounding`, `C71_add`, `C71_sub`, `C71_mul`, `C71_div`, `C71_error`, `C71_not_enclosed`, `C72_add_comm`, `C72_mul_comm`, `C72_sub_neg`, `C72_neutral`, `C72_sub_self`, `C72_assoc`, `C72_subdistrib`, `C72_rounding`, `C72_mul_zero_sign`, `C72_int_add_comm`, `C72_int_mul_comm`, `C72_int_add_assoc`, `C72_int_mul_assoc`, `C72_int_subdistrib`, `C72_int_distrib_scalar`, `C72_int_neutral`, `C72_int_zero`, `C72_int_sub_neg`, `C72_int_sub_self`, `C73_atan2`, `C73_cos_violated`, `C73_pow_exponent_violated`, `C74_float_partial`, `C74_real_partial`, `C75_unambiguous`, `C75_floating`, `C75_operands`, `C75_lift_partial`, `C75_plain_partial`, `C75_plain_violated`, `C75_violated`, `C75_constrain`, `C76_mul_partial`, `C76_violated`, `C76_div_partial`, `C76_sign_partial`, `C76_sign_scalar_partial`, `C76_signset_scalar_partial`, `C76_violated_all`, `C77_fractions_partial`, `C77_fractions_known_partial`, `C77_linear_partial`, `C77_linear_known_partial`, `C77_error_partial`, `C77_double_partial`, `C77_violated`, `C77_violated_linear`, `C77_full_violated`, `C77_linear_error_partial`, `C77_linear_double_partial`, `C78_narrows`, `C78_keeps`, `C78_succeeds`, `C78_monotone`, `C78_above_stable`, `C78_order`, `C78_terminates`, `C78_reaches`, `C78_supported`, `C78_sequence`, `C78_terminates_int`, `C78_fixpoint_int`, `C79_set_iff`, `C79_violated`, `C80_monotone`, `C80_frac`, `C80_pow`, `C80_weights`, `C80_blend_fractions`, `C80_blend_linear`, `C80_trig`, `C80_tan_partial`, `C80_tan_violated_all`, `C80_violated`, `C80_pow_real`, `C80_atan2`, `C81_cos_partial`, `C81_sin_partial`, `C81_infinite`, `C81_double_partial`, `C81_float_partial`, `C81_violated`, `C81_not_full`, `C82_recursive`, `C82_elem`, `C82_elem_debug`, `C82_constrain`, `C82_isotone`, `C82_defined`, `C82_minmax`, `C82_float_unary`, `C82_float_binary`, `C82_int`, `C83_convergence`, `C83_rate`, `C83_jump`, `C83_rate_sqrt`, `C84_single_use`, `C84_repeated`, `C85_subdivision`, `C85_equal_parts`, `C86_rounding`, `C86_enclosure`, `C86_binary`, `C87_interval`, `C87_member_partial`, `C87_cond_partial`, `C87_violated_eq`, `C87_operand`, `C87_interval_faithful`, `C87_set`, `C87_violated_nested`, `C89_iff_partial`, `C89_known_partial`, `C89_overflow`, `C89_error_partial`, `C89_double_partial`, `C89_violated`, `C89_full_violated`, `C90_search`, `C90_constrain`, `C90_scalar`, `C90_bounds`, `C90_partition`, `C90_isotone`, `C91_constrain`, `C92_both_partial`, `C92_one_partial`, `C92_hidden`, `C92_fails`, `C92_violated`, `C93_tan_partial`, `C93_infinite`, `C93_double_partial`, `C93_float_partial`, `C93_violated`, `C93_violated_pole`, `C93_not_full`, `C94_pow_partial`, `C94_double_partial`, `C94_float_partial`, `C94_violated`, `C94_violated_square`, `C94_not_full`, `C94_negative_partial`, `C94_double_negative_partial`, `C95_encloses`, `C95_total`, `C95_unmentioned`, `C95_functions`, `C95_single`, `C95_enumerate`, `C95_set`, `C95_sgn`, `C95_loop`, `C95_at`, `C95_kinds`, `C95_look_wf`, `C95_predicate`, `C95_bool`, `C95_sgn_eq`, `C95_not_mixed`, `C95_classify`, `C95_exact`, `C95_enumerate_set`, `C95_set_eq`, `C95_sgn_fn`, `C95_sign_arith`, `C95_bool_fns`, `C95_cmp_fns`, `C95_bool_var`, `C95_if_else`, `C95_classify_fns`, `C95_assign_set`, `C96_isotone`, `C96_defined`, `C96_functions`, `C96_set`, `C96_sgn`, `C96_ascending`, `C96_enumerate`, `C96_at`, `C96_kinds`, `C97_range`, `C97_seams`, `C97_onto`, `C97_discrete`, `C97_clamp`, `C97_discrete_equal`, `C97_jump`, `C97_expr`, `C98_compare_partial`, `C98_compare_signed`, `C98_mixed_sign`, `C98_to_signed`, `C98_int`, `C98_to_float`, `C98_float`, `C98_constrain_lt_partial`, `C98_constrain_gt_partial`, `C98_constrain_violated`, `C98_constrain_float_iff`, `C98_constrain_float_violated`, `C99_identities`, `C99_max_possibly`, `C99_max_certainly`, `C99_no_two_valued`, `C99_overwrite`, `C99_max2`, `C100_fractional_weights`, `C100_blend_fractions`, `C100_blend_fractions_domain`, `C100_fractional_weights_domain`, `C100_blend_linear_domain`, `C100_blend_linear_partial`, `C100_violated_ub`, `C100_blend_linear_int`, `C100_blend_linear_int_iff`, `C100_violated`, `C100_pow_same`, `C100_pow_nonneg`, `C100_pow_integer`, `C100_pow_nan`, `C100_weights_same`, `C100_fractions_same`, `C100_linear_same`, `C101_converted`, `C101_ub_iff`, `C101_float_ub`, `C101_converted_float`, `C101_violated_double`, `C101_idempotent`, `C101_isotone`, `C101_impossible`, `C101_exact`, `C101_equal`, `C101_narrows`, `C101_keeps_partial`, `C101_lt_iff`, `C101_gt_iff`, `C101_ub`, `C101_not`, `C101_same`, `C101_casts`, `C101_int_partial`, `C101_int_ub`, `C101_violated`, `C101_violated_step`, `C101_isotone_operand`, `C102_int`, `C102_int_iff`, `C102_int_exact`, `C102_to_int_partial`, `C102_violated`, `C103_to_int`, `C103_to_int_partial`, `C103_to_float_partial`, `C103_int_partial`, `C103_assign`, `C103_violated`, `C104_idempotent_fails`, `C104_idempotent`, `C104_idempotent_float_fails`, `C104_isotone`, `C104_isotone_fails`, `C104_isotone_or`, `C104_isotone_or_fails`, `C104_sound_partial`, `C104_narrows`, `C104_and`, `C104_or`, `C104_or_impossible`, `C104_defined`, `C104_success`, `C104_cmp`, `C104_deMorgan`, `C104_good`, `C104_good_nonstrict`, `C104_good_int`, `C104_violated`, `C104_good_float`, `C104_truth_isotone`, `C105_disj`, `C105_idempotent`, `C105_conj`, `C105_tight`, `C105_or_partial`, `C105_or_impossible`, `C105_leq`, `C105_equal`, `C105_int`, `C105_violated`, `C106_isotone`, `C106_any_isotone`, `C106_scalar`, `C106_search`, `C106_result`, `C106_impossible`, `C106_ub`, `C106_ub_upper`, `C106_part`, `C106_keeps_partial`, `C106_lost`, `C106_keeps_same`, `C106_int_partial`, `C106_any`, `C106_violated`, `C107_search`, `C107_constrain`, `C107_linear`, `C107_linear_least`, `C107_linear_isotone`, `C107_nearest_distinct`, `C107_nearest_isotone`, `C107_nearest_exact`, `C107_nearest_rounded`, `C108_positions`, `C108_strict`, `C108_step`, `C108_isotone`, `C108_mixed`, `C108_step_set`, `C108_duplicates`, `C109_up_scalar`, `C109_up`, `C109_down_scalar`, `C109_down`, `C109_up_grid`, `C109_down_grid`, `C109_isotone`, `C110_order_partial`, `C110_unequal`, `C110_keeps`, `C110_narrows_partial`, `C110_equal_fails`, `C110_strict_fails`, `C110_or_fails`, `C110_violated`, `C110_conj_partial`, `C111_float`, `C111_terminates_int`, `C111_terminates_float`, `C111_narrows`, `C111_monotone`, `C111_above_stable`, `C111_order`, `C111_keeps`, `C111_fixpoint`, `C111_steps`, `C111_int`, `C111_supported`, `C111_supported_any`
