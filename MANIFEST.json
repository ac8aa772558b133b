{
 "claims": [
  {
   "property": "C01",
   "status": "proved",
   "theorems": [
    "Verif.C01_round_nearest_ties_away",
    "Verif.C01_round_negative_digits",
    "Verif.C01_round_error"
   ],
   "note": ""
  },
  {
   "property": "C02",
   "status": "proved",
   "theorems": [
    "Verif.C02_round_idempotent",
    "Verif.C02_round_monotone",
    "Verif.C02_round_odd",
    "Verif.C02_round_value_only"
   ],
   "note": ""
  },
  {
   "property": "C03",
   "status": "proved",
   "theorems": [
    "Verif.C03_number_round_trip",
    "Verif.C03_expression_is_numeric",
    "Verif.C03_exponent"
   ],
   "note": ""
  },
  {
   "property": "C04",
   "status": "proved",
   "theorems": [
    "Verif.C04_eval_sum_exact"
   ],
   "note": ""
  },
  {
   "property": "C05",
   "status": "proved",
   "theorems": [
    "Verif.C05_eval_error_bound",
    "Verif.C05_eval_mul",
    "Verif.C05_eval_div"
   ],
   "note": ""
  },
  {
   "property": "C06",
   "status": "proved",
   "theorems": [
    "Verif.C06_eval_compare",
    "Verif.C06_eval_compare_value_only"
   ],
   "note": ""
  },
  {
   "property": "C07",
   "status": "proved",
   "theorems": [
    "Verif.C07_eval_only_known",
    "Verif.C07_eval_names"
   ],
   "note": ""
  },
  {
   "property": "C08",
   "status": "proved",
   "theorems": [
    "Verif.C08_eval_literal",
    "Verif.C08_eval_idempotent",
    "Verif.C08_field_not_literal"
   ],
   "note": ""
  },
  {
   "property": "C09",
   "status": "proved",
   "theorems": [
    "Verif.C09_eval_ignores_parens"
   ],
   "note": ""
  },
  {
   "property": "C10",
   "status": "proved",
   "theorems": [
    "Verif.C10_subst_meaning",
    "Verif.C10_subst_total"
   ],
   "note": ""
  },
  {
   "property": "C11",
   "status": "proved",
   "theorems": [
    "Verif.C11_subst_as_is",
    "Verif.C11_subst_swap",
    "Verif.C11_subst_unlisted"
   ],
   "note": ""
  },
  {
   "property": "C12",
   "status": "proved",
   "theorems": [
    "Verif.C12_add_var_positions",
    "Verif.C12_find_earliest",
    "Verif.C12_find_none",
    "Verif.C12_find_stable"
   ],
   "note": ""
  },
  {
   "property": "C13",
   "status": "proved",
   "theorems": [
    "Verif.C13_subst_refuses",
    "Verif.C13_collect_refuses",
    "Verif.C13_paren_refuses",
    "Verif.C13_use_number_type_refuses",
    "Verif.C13_use_number_type_refuses_iff"
   ],
   "note": ""
  },
  {
   "property": "C14",
   "status": "proved",
   "theorems": [
    "Verif.C14_collect_identity"
   ],
   "note": ""
  },
  {
   "property": "C15",
   "status": "proved",
   "theorems": [
    "Verif.C15_paren_operands",
    "Verif.C15_paren_erase",
    "Verif.C15_paren_minimal",
    "Verif.C15_paren_idempotent",
    "Verif.C15_paren_meaning"
   ],
   "note": ""
  },
  {
   "property": "C16",
   "status": "partial",
   "theorems": [
    "Verif.C16_reads_iff_partial",
    "Verif.C16_reads_only",
    "Verif.C16_receiver_wrong",
    "Verif.C16_sign_wrong",
    "Verif.C16_without_paren"
   ],
   "note": "Exact condition: reads back as itself iff no method receiver or field base is a bare operator and no literal has a sign (C16_reads_iff_partial). False otherwise: C16_receiver_wrong, C16_sign_wrong."
  },
  {
   "property": "C17",
   "status": "proved",
   "theorems": [
    "Verif.C17_expand_value"
   ],
   "note": ""
  },
  {
   "property": "C18",
   "status": "proved",
   "theorems": [
    "Verif.C18_expand_terms",
    "Verif.C18_expand_negated_terms",
    "Verif.C18_term_count",
    "Verif.C18_expand_succeeds"
   ],
   "note": ""
  },
  {
   "property": "C19",
   "status": "proved",
   "theorems": [
    "Verif.C19_expand_total"
   ],
   "note": ""
  },
  {
   "property": "C20",
   "status": "proved",
   "theorems": [
    "Verif.C20_only_numeric_literals",
    "Verif.C20_unknown_type_unchanged",
    "Verif.C20_unknown_type_succeeds"
   ],
   "note": ""
  },
  {
   "property": "C21",
   "status": "partial",
   "theorems": [
    "Verif.C21_hex32_partial",
    "Verif.C21_hex64_wrong"
   ],
   "note": "True at width 32 (C21_hex32_partial). At width 64 the code emits f32::from_bits applied to the 64-bit pattern, for every literal: C21_hex64_wrong."
  },
  {
   "property": "C22",
   "status": "partial",
   "theorems": [
    "Verif.C22_fold_numeric",
    "Verif.C22_symbolic_add_partial",
    "Verif.C22_symbolic_wrong",
    "Verif.C22_symbolic_sub_witness"
   ],
   "note": "Folding of numeric literals proved for all four operators, and + on symbolic operands. -, * and / on symbolic operands emit a sum: C22_symbolic_wrong."
  },
  {
   "property": "C23",
   "status": "proved",
   "theorems": [
    "Verif.C23_exp_error",
    "Verif.C23_exp_accurate"
   ],
   "note": ""
  },
  {
   "property": "C24",
   "status": "proved",
   "theorems": [
    "Verif.C24_sin_error",
    "Verif.C24_sin_accurate",
    "Verif.C24_cos_error",
    "Verif.C24_cos_accurate"
   ],
   "note": ""
  },
  {
   "property": "C25",
   "status": "proved",
   "theorems": [
    "Verif.C25_atan_error",
    "Verif.C25_atan_accurate"
   ],
   "note": ""
  },
  {
   "property": "C26",
   "status": "proved",
   "theorems": [
    "Verif.C26_asin_error",
    "Verif.C26_asin_accurate",
    "Verif.C26_acos_accurate",
    "Verif.C26_outside_panics"
   ],
   "note": ""
  },
  {
   "property": "C27",
   "status": "proved",
   "theorems": [
    "Verif.C27_ln_domain",
    "Verif.C27_ln_error",
    "Verif.C27_ln_accurate",
    "Verif.C27_zero_digits_never_returns"
   ],
   "note": ""
  },
  {
   "property": "C28",
   "status": "proved",
   "theorems": [
    "Verif.C28_ln_domain",
    "Verif.C28_pow_domain",
    "Verif.C28_log_domain",
    "Verif.C28_pow_log_values"
   ],
   "note": ""
  },
  {
   "property": "C29",
   "status": "proved",
   "theorems": [
    "Verif.C29_pi_correctly_rounded",
    "Verif.C29_pi_negative_digits"
   ],
   "note": ""
  },
  {
   "property": "C30",
   "status": "proved",
   "theorems": [
    "Verif.C30_series_loop_stops",
    "Verif.C30_elementary_stop"
   ],
   "note": ""
  },
  {
   "property": "C31",
   "status": "proved",
   "theorems": [
    "Verif.C31_sin_odd",
    "Verif.C31_cos_even",
    "Verif.C31_tan_odd",
    "Verif.C31_atan_odd",
    "Verif.C31_asin_odd",
    "Verif.C31_erf_odd"
   ],
   "note": ""
  },
  {
   "property": "C32",
   "status": "proved",
   "theorems": [
    "Verif.C32_erfc",
    "Verif.C32_erfc_returns",
    "Verif.C32_pnorm_symmetric",
    "Verif.C32_erf_error",
    "Verif.C32_erf_accurate",
    "Verif.C32_erfc_accurate",
    "Verif.C32_pnorm_accurate",
    "Verif.C32_dnorm_accurate"
   ],
   "note": ""
  },
  {
   "property": "C33",
   "status": "proved",
   "theorems": [
    "Verif.C33_qnorm_true_quantile",
    "Verif.C33_qnorm_correct",
    "Verif.C33_qnorm_domain"
   ],
   "note": ""
  },
  {
   "property": "C34",
   "status": "partial",
   "theorems": [
    "Verif.C34_accepts",
    "Verif.C34_rejects_partial",
    "Verif.C34_fraction_ignored"
   ],
   "note": "Acceptance of 32 and 64 and Overflow proved for every conversion; values whose integer part is neither 32 nor 64 are refused. 32.5 is accepted as 32 (C34_fraction_ignored), so the literal claim is false."
  },
  {
   "property": "C35",
   "status": "proved",
   "theorems": [
    "Verif.C35_returns_iff",
    "Verif.C35_panics_otherwise",
    "Verif.C35_length",
    "Verif.C35_residual",
    "Verif.C35_lossless",
    "Verif.C35_integer_points"
   ],
   "note": ""
  },
  {
   "property": "C36",
   "status": "proved",
   "theorems": [
    "Verif.C36_eval_is_sum",
    "Verif.C36_eval_empty"
   ],
   "note": ""
  },
  {
   "property": "C37",
   "status": "proved",
   "theorems": [
    "Verif.C37_chain_value",
    "Verif.C37_chain_symmetry"
   ],
   "note": ""
  },
  {
   "property": "C38",
   "status": "proved",
   "theorems": [
    "Verif.C38_wrong_number_of_terms",
    "Verif.C38_outcomes"
   ],
   "note": ""
  },
  {
   "property": "C39",
   "status": "proved",
   "theorems": [
    "Verif.C39_samples",
    "Verif.C39_mentions_only_variable",
    "Verif.C39_sample_error",
    "Verif.C39_zero_terms",
    "Verif.C39_one_term",
    "Verif.C39_nodes",
    "Verif.C39_value_at_nodes"
   ],
   "note": ""
  },
  {
   "property": "C40",
   "status": "partial",
   "theorems": [
    "Verif.C40_expr",
    "Verif.C40_stmt",
    "Verif.C40_item",
    "Verif.C40_file",
    "Verif.C40_verbatim_panics",
    "Verif.C40_verbatim_history",
    "Verif.C40_mul_add_panics",
    "Verif.C40_generated",
    "Verif.C40_polynomial"
   ],
   "note": "Proved for every program without unparsed tokens and with two arguments for each mul_add, which covers the whole generated library for every polynomial (C40_file, C40_generated, C40_polynomial). Outside it the claim is false: C40_verbatim_panics, C40_verbatim_history, C40_mul_add_panics."
  },
  {
   "property": "C41",
   "status": "partial",
   "theorems": [
    "Verif.C41_tokens_iff",
    "Verif.C41_library",
    "Verif.C41_sin_cos",
    "Verif.C41_output",
    "Verif.C41_polynomial",
    "Verif.C41_lexes",
    "Verif.C41_text_iff_partial",
    "Verif.C41_reads_only",
    "Verif.C41_bits_wrong",
    "Verif.C41_minus_wrong",
    "Verif.C41_minus_literal_wrong",
    "Verif.C41_if_wrong"
   ],
   "note": "Exact condition proved from the text (own lexer and C's precedence grammar): C41_text_iff_partial, C41_tokens_iff. True for every expression of the generated library except the pair in sin_cos (C41_library, C41_output, C41_polynomial, C41_sin_cos). False in general for bit operators under comparisons, two minus signs in a row and if under an operator: C41_bits_wrong, C41_minus_wrong, C41_if_wrong."
  },
  {
   "property": "C42",
   "status": "partial",
   "theorems": [
    "Verif.C42_types_iff_partial",
    "Verif.C42_other_types",
    "Verif.C42_definition",
    "Verif.C42_call_partial",
    "Verif.C42_from_bits",
    "Verif.C42_methods",
    "Verif.C42_paths_meet"
   ],
   "note": "Exactly six scalar types are translated to the C type of the same values (C42_types_iff_partial). Calls by name resolve (C42_call_partial); method calls never get the prefix (C42_methods)."
  },
  {
   "property": "C43",
   "status": "proved",
   "theorems": [
    "Verif.C43_pieces",
    "Verif.C43_white_space_only"
   ],
   "note": ""
  },
  {
   "property": "C44",
   "status": "proved",
   "theorems": [
    "Verif.C44_panics_iff",
    "Verif.C44_returns"
   ],
   "note": ""
  },
  {
   "property": "C45",
   "status": "partial",
   "theorems": [
    "Verif.C45_method_partial",
    "Verif.C45_file_partial",
    "Verif.C45_cast_wrong",
    "Verif.C45_free_call_wrong",
    "Verif.C45_const_chain_wrong",
    "Verif.C45_polynomial",
    "Verif.C45_generated_iff",
    "Verif.C45_generated_partial",
    "Verif.C45_all_partial"
   ],
   "note": "Proved for every function in the vectorisable fragment (C45_method_partial, C45_file_partial) and for 26 library functions with any polynomial (C45_generated_partial, C45_generated_iff). False outside: C45_cast_wrong, C45_free_call_wrong, C45_const_chain_wrong."
  },
  {
   "property": "C46",
   "status": "proved",
   "theorems": [
    "Verif.C46_reachable",
    "Verif.C46_excluded",
    "Verif.C46_dependencies_present"
   ],
   "note": ""
  },
  {
   "property": "C47",
   "status": "proved",
   "theorems": [
    "Verif.C47_terminates",
    "Verif.C47_table_order",
    "Verif.C47_no_duplicates"
   ],
   "note": ""
  },
  {
   "property": "C48",
   "status": "proved",
   "theorems": [
    "Verif.C48_request_set",
    "Verif.C48_monotone"
   ],
   "note": ""
  },
  {
   "property": "C49",
   "status": "partial",
   "theorems": [
    "Verif.C49_self_contained_iff",
    "Verif.C49_sinh_incomplete",
    "Verif.C49_all_partial"
   ],
   "note": "False as stated: exactly 16 of the 75 table entries give complete output (C49_self_contained_iff); sinh is a witness (C49_sinh_incomplete). The full list 'all' is complete (C49_all_partial)."
  },
  {
   "property": "C50",
   "status": "proved",
   "theorems": [
    "Verif.C50_counts_fit",
    "Verif.C50_all_in_table",
    "Verif.C50_never_wrong_number"
   ],
   "note": ""
  },
  {
   "property": "C51",
   "status": "partial",
   "theorems": [
    "Verif.C51_sin_cos",
    "Verif.C51_round",
    "Verif.C51_sin",
    "Verif.C51_cos",
    "Verif.C51_sin_exact",
    "Verif.C51_cos_exact",
    "Verif.C51_reduction_saturates",
    "Verif.C51_tan_const",
    "Verif.C51_tan",
    "Verif.C51_tan_exact",
    "Verif.C51_tan_pole"
   ],
   "note": "Proved for every argument whose reduced value fits the signed integer type used by the generated round (about 1e9 turns at 32 bits, 4e18 at 64). Beyond it the cast saturates and the claim is false: C51_reduction_saturates."
  },
  {
   "property": "C52",
   "status": "proved",
   "theorems": [
    "Verif.C52_asin_const",
    "Verif.C52_asin",
    "Verif.C52_acos_const",
    "Verif.C52_acos",
    "Verif.C52_atan_const",
    "Verif.C52_atan",
    "Verif.C52_atan2_const",
    "Verif.C52_atan2",
    "Verif.C52_atan2_origin"
   ],
   "note": ""
  },
  {
   "property": "C53",
   "status": "partial",
   "theorems": [
    "Verif.C53_scale",
    "Verif.C53_exp2_partial",
    "Verif.C53_overflow",
    "Verif.C53_underflow",
    "Verif.C53_not_finite",
    "Verif.C53_exp_m1_const",
    "Verif.C53_exp_m1"
   ],
   "note": "Proved on the exponents of normal results (C53_exp2_partial), with infinity above and zero below. The result is infinite for some arguments whose true value is finite: C53_not_finite."
  },
  {
   "property": "C54",
   "status": "proved",
   "theorems": [
    "Verif.C54_log2",
    "Verif.C54_log2_small"
   ],
   "note": ""
  },
  {
   "property": "C55",
   "status": "proved",
   "theorems": [
    "Verif.C55_recip",
    "Verif.C55_sqrt",
    "Verif.C55_cbrt_step",
    "Verif.C55_cbrt"
   ],
   "note": ""
  },
  {
   "property": "C56",
   "status": "partial",
   "theorems": [
    "Verif.C56_hypot_partial",
    "Verif.C56_hypot_tiny",
    "Verif.C56_hypot_negative"
   ],
   "note": "Proved when the larger coordinate exceeds MIN_POSITIVE (C56_hypot_partial). Otherwise the larger coordinate itself is returned, with its sign (C56_hypot_tiny), so the result can be negative: C56_hypot_negative."
  },
  {
   "property": "C57",
   "status": "proved",
   "theorems": [
    "Verif.C57_sinh",
    "Verif.C57_cosh",
    "Verif.C57_tanh",
    "Verif.C57_asinh",
    "Verif.C57_acosh",
    "Verif.C57_acosh_nan",
    "Verif.C57_atanh"
   ],
   "note": ""
  },
  {
   "property": "C58",
   "status": "partial",
   "theorems": [
    "Verif.C58_exp",
    "Verif.C58_ln",
    "Verif.C58_log10",
    "Verif.C58_log",
    "Verif.C58_powf",
    "Verif.C58_powi_partial",
    "Verif.C58_powi_negative"
   ],
   "note": "exp, ln, log10, log and powf proved on their domains. powi is right for positive bases only; for negative bases it is NaN: C58_powi_negative."
  },
  {
   "property": "C59",
   "status": "proved",
   "theorems": [
    "Verif.C59_runif_value",
    "Verif.C59_runif_form",
    "Verif.C59_runif_range"
   ],
   "note": ""
  },
  {
   "property": "C60",
   "status": "partial",
   "theorems": [
    "Verif.C60_negate_on_odd_partial",
    "Verif.C60_large_wrong"
   ],
   "note": "Proved whenever the integer part fits the integer type. For larger numbers the cast saturates to an odd number: C60_large_wrong."
  },
  {
   "property": "C61",
   "status": "proved",
   "theorems": [
    "Verif.C61_nextafter",
    "Verif.C61_nextafter_largest"
   ],
   "note": ""
  },
  {
   "property": "C62",
   "status": "partial",
   "theorems": [
    "Verif.C62_bucket",
    "Verif.C62_counts",
    "Verif.C62_reports_last",
    "Verif.C62_reports_max_partial",
    "Verif.C62_not_the_maximum",
    "Verif.C62_nan_counted"
   ],
   "note": "False as stated: only the last bucket's error is compared with the limit (C62_reports_last, C62_not_the_maximum). Bucket assignment and counts are proved; the reported number is the maximum only when errors grow."
  },
  {
   "property": "C63",
   "status": "proved",
   "theorems": [
    "Verif.C63_pi_machin_error",
    "Verif.C63_pi_machin_formula",
    "Verif.C63_pi_110_digits_wrong"
   ],
   "note": ""
  },
  {
   "property": "C68",
   "status": "proved",
   "theorems": [
    "Verif.C68_flit",
    "Verif.C68_ilit",
    "Verif.C68_bit_constants"
   ],
   "note": ""
  },
  {
   "property": "C64",
   "status": "proved",
   "theorems": [
    "Verif.C64_tan_accurate"
   ],
   "note": ""
  },
  {
   "property": "C65",
   "status": "proved",
   "theorems": [
    "Verif.C65_log_accurate"
   ],
   "note": ""
  },
  {
   "property": "C66",
   "status": "proved",
   "theorems": [
    "Verif.C66_pow_accurate"
   ],
   "note": ""
  },
  {
   "property": "C67",
   "status": "proved",
   "theorems": [
    "Verif.C67_lit",
    "Verif.C67_paren",
    "Verif.C67_neg",
    "Verif.C67_add",
    "Verif.C67_sub",
    "Verif.C67_mul",
    "Verif.C67_div",
    "Verif.C67_pi",
    "Verif.C67_sin",
    "Verif.C67_cos",
    "Verif.C67_exp",
    "Verif.C67_atan",
    "Verif.C67_ln",
    "Verif.C67_sqrt",
    "Verif.C67_abs",
    "Verif.C67_signum",
    "Verif.C67_round",
    "Verif.C67_tan",
    "Verif.C67_asin",
    "Verif.C67_acos",
    "Verif.C67_log",
    "Verif.C67_log2",
    "Verif.C67_log10",
    "Verif.C67_pow",
    "Verif.C67_exp2",
    "Verif.C67_erf",
    "Verif.C67_normal",
    "Verif.C67_qnorm"
   ],
   "note": ""
  },
  {
   "property": "C69",
   "status": "proved",
   "theorems": [
    "Verif.C69_constants",
    "Verif.C69_constants_in_code"
   ],
   "note": ""
  },
  {
   "property": "C70",
   "status": "partial",
   "theorems": [
    "Verif.C70_passes_iff",
    "Verif.C70_passes_iff_partial",
    "Verif.C70_numbers",
    "Verif.C70_nan_passes",
    "Verif.C70_reports_worst"
   ],
   "note": "False when the function returns NaN: such a function passes every accuracy test (C70_nan_passes). The exact criterion is C70_passes_iff; the claim holds when no error is NaN."
  },
  {
   "property": "C71",
   "status": "partial",
   "theorems": [
    "Verif.C71_lsb",
    "Verif.C71_unit64_partial",
    "Verif.C71_unit32_wrong"
   ],
   "note": "True at 64 bits (C71_unit64_partial). At 32 bits the unit is twice the documented one: C71_unit32_wrong."
  },
  {
   "property": "C72",
   "status": "proved",
   "theorems": [
    "Verif.C72_points",
    "Verif.C72_row"
   ],
   "note": ""
  },
  {
   "property": "C73",
   "status": "partial",
   "theorems": [
    "Verif.C73_types_iff_partial",
    "Verif.C73_bit_constants_wrong",
    "Verif.C73_repaired",
    "Verif.C73_polynomial_typed",
    "Verif.C73_hex64_untyped",
    "Verif.C73_other_number_types_untyped"
   ],
   "note": "False for exactly four table entries: ONE_BITS and ONE_MASK are declared fty with integer values, which breaks log2 and runif too (C73_types_iff_partial, C73_bit_constants_wrong). Also false for hex at 64 bits and for unknown number types."
  },
  {
   "property": "C77",
   "status": "partial",
   "theorems": [
    "Verif.C77_ident_partial",
    "Verif.C77_literal_joins"
   ],
   "note": "Identifiers are always separated (C77_ident_partial). A literal followed by an identifier is not: C77_literal_joins."
  },
  {
   "property": "C78",
   "status": "partial",
   "theorems": [
    "Verif.C78_typed_let",
    "Verif.C78_untyped_let",
    "Verif.C78_generated_iff_partial"
   ],
   "note": "Typed lets become declarations; an untyped let is printed as an assignment (C78_untyped_let). Exactly five library functions are affected (C78_generated_iff_partial)."
  },
  {
   "property": "C79",
   "status": "proved",
   "theorems": [
    "Verif.C79_expr_iff",
    "Verif.C79_file_iff",
    "Verif.C79_refused",
    "Verif.C79_generated"
   ],
   "note": ""
  },
  {
   "property": "C80",
   "status": "partial",
   "theorems": [
    "Verif.C80_types_iff_partial",
    "Verif.C80_entries_listed",
    "Verif.C80_free_call_untyped",
    "Verif.C80_integer_untyped",
    "Verif.C80_bad_statement",
    "Verif.C80_others_wrong"
   ],
   "note": "Exactly 26 of the 38 library functions have well typed methods (C80_types_iff_partial, with the polynomial replaced by its variable). The other twelve fail for every polynomial: C80_others_wrong."
  },
  {
   "property": "C81",
   "status": "proved",
   "theorems": [
    "Verif.C81_uniform",
    "Verif.C81_sin",
    "Verif.C81_cos",
    "Verif.C81_sin_shipped",
    "Verif.C81_cos_shipped",
    "Verif.C81_exp2",
    "Verif.C81_exp_m1",
    "Verif.C81_exp2_shipped",
    "Verif.C81_exp_m1_shipped",
    "Verif.C81_log2",
    "Verif.C81_log2_shipped",
    "Verif.C81_atan",
    "Verif.C81_atan_shipped",
    "Verif.C81_series",
    "Verif.C81_asin",
    "Verif.C81_acos",
    "Verif.C81_asin_shipped",
    "Verif.C81_acos_shipped",
    "Verif.C81_tan",
    "Verif.C81_tan_shipped",
    "Verif.C81_atan2",
    "Verif.C81_atan2_shipped"
   ],
   "note": ""
  },
  {
   "property": "C82",
   "status": "proved",
   "theorems": [
    "Verif.C82_sin",
    "Verif.C82_cos",
    "Verif.C82_tan",
    "Verif.C82_exp2",
    "Verif.C82_exp_m1",
    "Verif.C82_log2",
    "Verif.C82_atan",
    "Verif.C82_asin",
    "Verif.C82_acos",
    "Verif.C82_atan2"
   ],
   "note": ""
  },
  {
   "property": "C83",
   "status": "proved",
   "theorems": [
    "Verif.C83_rounding_nearest",
    "Verif.C83_rounding_float",
    "Verif.C83_round",
    "Verif.C83_round_below_half",
    "Verif.C83_round_fails",
    "Verif.C83_bit_constants",
    "Verif.C83_exp2",
    "Verif.C83_exp_m1",
    "Verif.C83_log2_code",
    "Verif.C83_log2",
    "Verif.C83_log2_small",
    "Verif.FloatFmt.C83_atan",
    "Verif.FloatFmt.C83_asin",
    "Verif.FloatFmt.C83_acos",
    "Verif.FloatFmt.C83_atan2",
    "Verif.C83_dnorm",
    "Verif.C83_sin",
    "Verif.C83_cos",
    "Verif.C83_tan"
   ],
   "note": ""
  },
  {
   "property": "C74",
   "status": "partial",
   "theorems": [
    "Verif.C74_sqrt_approx",
    "Verif.C74_sqrt_partial",
    "Verif.C74_sqrt_large_partial",
    "Verif.C74_sqrt_wrong",
    "Verif.C74_sqrt_negative",
    "Verif.C74_recip_approx",
    "Verif.C74_recip_partial",
    "Verif.C74_recip_wrong",
    "Verif.C74_cbrt",
    "Verif.C74_cbrt_approx",
    "Verif.C74_recip_large_wrong",
    "Verif.C74_recip_zero_wrong",
    "Verif.C74_sqrt_ieee_partial",
    "Verif.C74_sqrt_ieee_wrong",
    "Verif.C74_recip_ieee_partial",
    "Verif.C74_cbrt_ieee",
    "Verif.C74_sqrt_max_wrong",
    "Verif.C74_sqrt_zero_wrong",
    "Verif.C74_sqrt_small_wrong"
   ],
   "note": "cbrt proved for every normal float. False for sqrt (one Newton step: sqrt(1) > 1.003, sqrt(2^-10) < 0) and for recip of large arguments (recip(128) < -100000); exact error bounds of both are proved where the estimate is positive. The same in IEEE arithmetic; there sqrt is off by more than 1e-4 on all of [1/2,1], minus infinity for the largest floats (C74_sqrt_max_wrong) and about -0.04 at zero (C74_sqrt_zero_wrong) and negative up to 1/256 (C74_sqrt_small_wrong); recip(0) is NaN (C74_recip_zero_wrong) and recip is negative from 64 on (C74_recip_large_wrong)."
  },
  {
   "property": "C75",
   "status": "partial",
   "theorems": [
    "Verif.C75_dnorm",
    "Verif.C75_qnorm",
    "Verif.C75_rnorm_partial",
    "Verif.C75_rnorm_outside"
   ],
   "note": "dnorm and qnorm proved. rnorm is the quantile at a point of [1e-6, 1-1e-6) (C75_rnorm_partial), which is larger than the interval [1e-4, 1-1e-4] the polynomial is fitted on: C75_rnorm_outside."
  },
  {
   "property": "C84",
   "status": "proved",
   "theorems": [
    "Verif.C84_unique",
    "Verif.C84_attach_reads",
    "Verif.C84_attach_fails",
    "Verif.C84_vectorised",
    "Verif.C84_library",
    "Verif.C84_vector_library",
    "Verif.C84_sum_regroups",
    "Verif.C84_polynomial"
   ],
   "note": "Scalar library C84_library, any vectorised file C84_vectorised, the cast text C84_attach_reads / C84_attach_fails, polynomials C84_polynomial. C84_sum_regroups shows that the condition on inserted expressions is needed."
  },
  {
   "property": "C86",
   "status": "partial",
   "theorems": [
    "Verif.C86_no_request",
    "Verif.C86_help",
    "Verif.C86_help_names",
    "Verif.C86_messages",
    "Verif.C86_writes",
    "Verif.C86_file",
    "Verif.C86_stdout_iff",
    "Verif.C86_exclude_on_stdout",
    "Verif.C86_comma_on_stdout",
    "Verif.C86_stdout_partial",
    "Verif.C86_other_language",
    "Verif.C86_language_help",
    "Verif.C86_request_set",
    "Verif.C86_unknown_names",
    "Verif.C86_unused_prefix",
    "Verif.C86_other_widths",
    "Verif.C86_refused"
   ],
   "note": "False on standard output: C86_exclude_on_stdout, C86_comma_on_stdout; exact condition C86_stdout_iff, holding part C86_stdout_partial. File output C86_file, success and effects C86_writes, messages C86_messages, other languages C86_other_language, names as a set C86_request_set, unknown names C86_unknown_names. One option without effect: C86_unused_prefix."
  },
  {
   "property": "C87",
   "status": "proved",
   "theorems": [
    "Verif.C87_program",
    "Verif.C87_levels",
    "Verif.C87_layered",
    "Verif.C87_library",
    "Verif.C87_depth",
    "Verif.C87_all"
   ],
   "note": "C87_program for any program without recursion, C87_layered/C87_levels for the library, C87_library and C87_all for its meaning, C87_depth for the depth of calls."
  },
  {
   "property": "C76",
   "status": "partial",
   "theorems": [
    "Verif.FloatFmt.C76_asinh_partial",
    "Verif.FloatFmt.C76_asinh_neg_partial",
    "Verif.FloatFmt.C76_asinh_wrong",
    "Verif.FloatFmt.C76_asinh_overflow",
    "Verif.FloatFmt.C76_acosh_nan",
    "Verif.FloatFmt.C76_acosh_partial",
    "Verif.FloatFmt.C76_acosh_overflow",
    "Verif.FloatFmt.C76_atanh",
    "Verif.FloatFmt.C76_atanh_small",
    "Verif.FloatFmt.C76_atanh_edges",
    "Verif.C76_exp2_high",
    "Verif.C76_exp2_low",
    "Verif.C76_exp2_inf",
    "Verif.C76_exp2",
    "Verif.C76_exp",
    "Verif.C76_exp_high",
    "Verif.C76_exp_low",
    "Verif.C76_exp_inf",
    "Verif.C76_ln",
    "Verif.C76_log10",
    "Verif.C76_logs_edges",
    "Verif.C76_log",
    "Verif.C76_powf",
    "Verif.C76_powf_high",
    "Verif.C76_powf_zero",
    "Verif.C76_powi",
    "Verif.C76_exp_early",
    "Verif.C76_sinh_cosh",
    "Verif.C76_sinh_cosh_high",
    "Verif.C76_sinh_cosh_inf",
    "Verif.C76_tanh_partial",
    "Verif.C76_tanh_wrong",
    "Verif.C76_log2_inf",
    "Verif.C76_log2_ninf",
    "Verif.C76_log2_partial",
    "Verif.C76_library_exists"
   ],
   "note": "Every function is bounded on the arguments where it works: exp2, exp, log2, ln, log10, log, powf, powi, sinh, cosh, tanh, asinh, acosh, atanh. The claim is false elsewhere, with exact conditions: C76_log2_inf, C76_exp_early, C76_tanh_wrong, C76_asinh_wrong, C76_asinh_overflow, C76_acosh_overflow. NaN arguments are not covered."
  },
  {
   "property": "C88",
   "status": "partial",
   "theorems": [
    "Verif.C88_round_wrong",
    "Verif.C88_round_inf_wrong",
    "Verif.C88_log2_wrong",
    "Verif.C88_exp2",
    "Verif.C88_exp",
    "Verif.C88_exp_m1",
    "Verif.C88_exp_m1_inf_wrong",
    "Verif.C88_sin_cos",
    "Verif.C88_sin_cos_inf_partial",
    "Verif.C88_tan",
    "Verif.C88_asin",
    "Verif.C88_acos",
    "Verif.C88_atan",
    "Verif.C88_atan2",
    "Verif.C88_log2_nan_wrong",
    "Verif.C88_ln_wrong",
    "Verif.C88_log_wrong",
    "Verif.C88_powf_wrong",
    "Verif.C88_powf",
    "Verif.C88_sinh_cosh_tanh",
    "Verif.C88_asinh_wrong",
    "Verif.C88_acosh_wrong",
    "Verif.C88_acosh",
    "Verif.C88_atanh_wrong",
    "Verif.C88_atanh",
    "Verif.C88_sqrt",
    "Verif.C88_sqrt_wrong",
    "Verif.C88_recip",
    "Verif.C88_recip_wrong",
    "Verif.C88_cbrt",
    "Verif.C88_cbrt_wrong",
    "Verif.C88_hypot_inf",
    "Verif.C88_hypot_partial",
    "Verif.C88_hypot_wrong",
    "Verif.C88_dnorm",
    "Verif.C88_dnorm_inf",
    "Verif.C88_atan2_wrong"
   ],
   "note": "Holds for exp2, exp, sin, cos, tan, asin, acos, atan, sinh, cosh, dnorm and the second argument of powf (C88_exp2, C88_exp, C88_sin_cos, C88_tan, C88_asin, C88_acos, C88_atan, C88_sinh_cosh_tanh, C88_dnorm, C88_dnorm_inf, C88_powf). False for the others, each with the value it really returns: the C88 theorems ending in _wrong. sin and cos of an infinity are a NaN or an infinity (C88_sin_cos_inf_partial)."
  },
  {
   "property": "C85",
   "status": "partial",
   "theorems": [
    "Verif.C85_compiles_iff_partial",
    "Verif.C85_refused",
    "Verif.C85_all_wrong",
    "Verif.C85_asin_acos",
    "Verif.C85_constant_wrong",
    "Verif.C85_options",
    "Verif.C85_polynomial",
    "Verif.C85_hex_wrong"
   ],
   "note": "Exact condition proved for every request: C85_compiles_iff_partial. False for the whole library (C85_all_wrong), for every refused entry (C85_refused), for constants alone (C85_constant_wrong) and with hexadecimal numbers (C85_hex_wrong)."
  },
  {
   "property": "C89",
   "status": "proved",
   "theorems": [
    "Verif.C89_qnorm_returns",
    "Verif.C89_qnorm_evaluates",
    "Verif.C89_mean_panics"
   ],
   "note": "C89_qnorm_returns and C89_qnorm_evaluates. Outside the quantifier: with a mean ten standard deviations from 0 the call panics (C89_mean_panics)."
  },
  {
   "property": "C90",
   "status": "proved",
   "theorems": [
    "Verif.C90_rows",
    "Verif.C90_negligible",
    "Verif.C90_tables"
   ],
   "note": ""
  },
  {
   "property": "C91",
   "status": "partial",
   "theorems": [
    "Verif.C91_types_iff_partial",
    "Verif.C91_types",
    "Verif.C91_rnorm_wrong",
    "Verif.C91_rnorm32_wrong",
    "Verif.C91_names",
    "Verif.C91_owners"
   ],
   "note": "False as stated; the exact condition is proved for all requests, with witnesses: the histogram test of rnorm names dnorm, which is missing for some requests and has the wrong width at 32 bits."
  },
  {
   "property": "C92",
   "status": "partial",
   "theorems": [
    "Verif.C92_passes_iff",
    "Verif.C92_measured",
    "Verif.C92_row",
    "Verif.C92_limits",
    "Verif.C92_verdict",
    "Verif.C92_nan_passes"
   ],
   "note": "False as stated: samples with NaN are ignored, and a function that is NaN everywhere passes every test (C92_nan_passes). With NaN allowed both directions are proved for all tests and functions."
  },
  {
   "property": "C93",
   "status": "partial",
   "theorems": [
    "Verif.C93_runif_value",
    "Verif.C93_range",
    "Verif.C93_from_zero",
    "Verif.C93_max_reached",
    "Verif.C93_overflow"
   ],
   "note": "False as stated: the upper end is reached by rounding (C93_max_reached). The closed range is proved for all indices and bounds, the half-open one for min = 0."
  },
  {
   "property": "C94",
   "status": "partial",
   "theorems": [
    "Verif.C94_library",
    "Verif.C94_spec",
    "Verif.C94_sample",
    "Verif.C94_histogram",
    "Verif.C94_passes",
    "Verif.C94_not_the_maximum"
   ],
   "note": "It passes (C94_passes, with the exact counts in C94_histogram), but not because all buckets are within the limit: exactly 6 of the 32 are (C94_not_the_maximum). C94_spec: range, density and samples are those of the table of tests; C94_library: on every generated 64-bit library."
  },
  {
   "property": "C95",
   "status": "partial",
   "theorems": [
    "Verif.C95_spec",
    "Verif.C95_rnorm_value",
    "Verif.C95_rnorm_passes",
    "Verif.C95_not_the_maximum"
   ],
   "note": "It passes for every accurate qnorm and density (C95_rnorm_passes; the generated 64-bit qnorm is not accurate enough, see C97), but bucket 11 is always off by more than twice the limit (C95_not_the_maximum). C95_spec: range, density and samples are those of the table of tests."
  },
  {
   "property": "C96",
   "status": "partial",
   "theorems": [
    "Verif.C96_library",
    "Verif.C96_terms",
    "Verif.C96_value",
    "Verif.C96_test_fails"
   ],
   "note": "False: the value of the generated function is worked out for all p between 0.0002 and 0.9998 (C96_value, from C96_terms), and with it the test fails at its second sample (C96_test_fails; C96_library: on every generated 64-bit library, by the table of tests)."
  },
  {
   "property": "C97",
   "status": "partial",
   "theorems": [
    "Verif.C97_library",
    "Verif.C97_rnorm_fails"
   ],
   "note": "False: the test fails (C97_rnorm_fails; C97_library: on every generated 64-bit library, with its own dnorm as the density). The last bucket holds at least 7779 samples, too many by more than the limit."
  },
  {
   "property": "C98",
   "status": "proved",
   "theorems": [
    "Verif.C98_sin",
    "Verif.C98_cos",
    "Verif.C98_tan",
    "Verif.C98_log2",
    "Verif.C98_atan",
    "Verif.C98_asin",
    "Verif.C98_acos"
   ],
   "note": "For every target the theorem gives both bounds in both widths; Between.spell shows that they are about one and the same returned expression."
  },
  {
   "property": "C99",
   "status": "proved",
   "theorems": [
    "Verif.C99_asin",
    "Verif.C99_exp2_1",
    "Verif.C99_exp2_2",
    "Verif.C99_exp_1",
    "Verif.C99_exp_3",
    "Verif.C99_exp_m1_1",
    "Verif.C99_exp_m1_2",
    "Verif.C99_dnorm_1",
    "Verif.C99_log2_1",
    "Verif.C99_log2_2",
    "Verif.C99_ln_1",
    "Verif.C99_ln_2",
    "Verif.C99_log10_2",
    "Verif.C99_log_2",
    "Verif.C99_asin_library",
    "Verif.C99_tests_pass",
    "Verif.C99_named",
    "Verif.C99_library_exists"
   ],
   "note": "About the fourteen listed tests at 32 bits; two more are in C102. The limits of the other tests are closer to what the roundings allow; test_qnorm and test_rnorm fail (C96, C97)."
  },
  {
   "property": "C100",
   "status": "partial",
   "theorems": [
    "Verif.C100_acos2_fails"
   ],
   "note": "False: the test fails (C100_acos2_fails). At the sample -227/512 the function returns a float that is off by more than 5.5 * 2^-53 (acos_value), because the 34-term polynomial of acos is off by almost 4 units there and half of pi and the difference are rounded in the same direction."
  },
  {
   "property": "C101",
   "status": "partial",
   "theorems": [
    "Verif.C101_log_1_fails"
   ],
   "note": "False: the test fails (C101_log_1_fails). At the first sample log(0.1, 10.0) is -1 - 2^-52 (log_tenth): log2(10.0) is rounded correctly but log2(0.1) ends in a tie that is rounded the wrong way, so the two differ in the last place and the quotient is not -1. The error is two units, the test allows one and a half."
  },
  {
   "property": "C102",
   "status": "proved",
   "theorems": [
    "Verif.C102_asin2",
    "Verif.C102_acos"
   ],
   "note": "C102_asin2 and C102_acos. The hypothesis KeepsGrid about the samples holds for exact conversions (tableExt_grid). Conversions that print an f32 with 7 digits do not satisfy it; C102 says nothing about them. test_acos2 is not among them: its limit is half of that of test_acos."
  },
  {
   "property": "C103",
   "status": "proved",
   "theorems": [
    "Verif.C103_acos_fails"
   ],
   "note": "C103_acos_fails. The hypotheses say that the conversion of the sample is exact and that of the reference value is that of a float written with 16 digits or more; acosExt is an arithmetic that meets them."
  },
  {
   "property": "C104",
   "status": "proved",
   "theorems": [
    "Verif.C104_log2_1_fails"
   ],
   "note": "C104_log2_1_fails. The hypotheses say what the conversion to 64 bits does near one sample and near its logarithm; floats written exactly or with 16 digits qualify, and log2Ext is an arithmetic that meets them."
  },
  {
   "property": "C105",
   "status": "proved",
   "theorems": [
    "Verif.C105_asin2"
   ],
   "note": "C105_asin2. Exact conversions and those through 16 digits keep the multiples of 1/1024 (KeepsGrid64). test_asin at 64 bits is not covered: the bounds of its errors add up to more than the two units it allows."
  },
  {
   "property": "C106",
   "status": "proved",
   "theorems": [
    "Verif.C106_uniform"
   ],
   "note": "C106_uniform. At the index 2^64 - 1 the sum index + 1 is taken to wrap, as in an optimised build."
  },
  {
   "property": "C107",
   "status": "proved",
   "theorems": [
    "Verif.C107_parity"
   ],
   "note": "C107_parity. The model does not distinguish the two zeros."
  },
  {
   "property": "C108",
   "status": "partial",
   "theorems": [
    "Verif.C108_round",
    "Verif.C108_sin",
    "Verif.C108_cos",
    "Verif.C108_tan",
    "Verif.C108_sinh",
    "Verif.C108_cosh",
    "Verif.C108_tanh_wrong",
    "Verif.C108_asinh_wrong",
    "Verif.C108_atanh",
    "Verif.C108_atan",
    "Verif.C108_asin"
   ],
   "note": "C108_round, C108_sin, C108_cos, C108_tan, C108_asin, C108_atan, C108_sinh, C108_cosh, C108_atanh prove the symmetry of these functions. It is false for tanh (C108_tanh_wrong) and asinh (C108_asinh_wrong). The model does not distinguish the two zeros."
  },
  {
   "property": "C109",
   "status": "partial",
   "theorems": [
    "Verif.C109_hypot",
    "Verif.C109_hypot_swap_partial",
    "Verif.C109_hypot_swap_wrong"
   ],
   "note": "C109_hypot proves the accuracy in full. C109_hypot_swap_partial proves the exact symmetry if one argument exceeds the smallest normal number in size; it is false for two tiny arguments of opposite signs (C109_hypot_swap_wrong)."
  },
  {
   "property": "C110",
   "status": "proved",
   "theorems": [
    "Verif.C110_cbrt",
    "Verif.C110_recip"
   ],
   "note": "C110_recip and C110_cbrt. Zero is excluded in the statement, as the model has a single zero."
  }
 ]
}