{
 "claims": [
  {
   "property": "C01",
   "status": "proved",
   "theorems": [
    "Fixnum.C01_cadd_exact",
    "Fixnum.C01_cadd_ok"
   ],
   "note": ""
  },
  {
   "property": "C02",
   "status": "proved",
   "theorems": [
    "Fixnum.C02_csub_exact",
    "Fixnum.C02_csub_ok"
   ],
   "note": ""
  },
  {
   "property": "C03",
   "status": "proved",
   "theorems": [
    "Fixnum.C03_cmul_exact",
    "Fixnum.C03_cmul_order",
    "Fixnum.C03_intCmul_exact"
   ],
   "note": ""
  },
  {
   "property": "C04",
   "status": "proved",
   "theorems": [
    "Fixnum.C04_cneg_exact",
    "Fixnum.C04_cneg_overflow_iff",
    "Fixnum.C04_abs_exact",
    "Fixnum.C04_abs_overflow_iff"
   ],
   "note": ""
  },
  {
   "property": "C05",
   "status": "proved",
   "theorems": [
    "Fixnum.C05_saturating_add",
    "Fixnum.C05_saturating_sub"
   ],
   "note": ""
  },
  {
   "property": "C06",
   "status": "proved",
   "theorems": [
    "Fixnum.C06_saturating_mul",
    "Fixnum.C06_int_saturating_mul"
   ],
   "note": ""
  },
  {
   "property": "C07",
   "status": "partial",
   "theorems": [
    "Fixnum.C07_rmul_remainder_partial",
    "Fixnum.C07_rmul_partial",
    "Fixnum.C07_rmul_panics_iff",
    "Fixnum.C07_rmul_wrapped",
    "Fixnum.C07_rmul_floor",
    "Fixnum.C07_rmul_ceil",
    "Fixnum.C07_rmul_nearest_partial",
    "Fixnum.C07_rmul_false",
    "Fixnum.C07_rmul_release_false"
   ],
   "note": "False for Nearest on FixedPoint<i128,U38> (loss+loss overflows); proved on every other type and mode, and the exact panic condition and release result are proved outside."
  },
  {
   "property": "C08",
   "status": "proved",
   "theorems": [
    "Fixnum.C08_rmul_comm",
    "Fixnum.C08_rmul_neg_neg",
    "Fixnum.C08_rmul_neg"
   ],
   "note": ""
  },
  {
   "property": "C09",
   "status": "partial",
   "theorems": [
    "Fixnum.C09_saturating_rmul_partial",
    "Fixnum.C09_saturating_rmul_panics_iff",
    "Fixnum.C09_saturating_rmul_wrapped",
    "Fixnum.C09_saturating_rmul_types_partial",
    "Fixnum.C09_saturating_rmul_false"
   ],
   "note": "As C07: exact panic condition and release result proved outside."
  },
  {
   "property": "C10",
   "status": "proved",
   "theorems": [
    "Fixnum.C10_rdiv_directed",
    "Fixnum.C10_rdiv_zero_iff",
    "Fixnum.C10_rdiv_floor",
    "Fixnum.C10_rdiv_ceil"
   ],
   "note": ""
  },
  {
   "property": "C11",
   "status": "partial",
   "theorems": [
    "Fixnum.C11_rdiv_nearest_partial",
    "Fixnum.C11_rdiv_nearest_small_partial",
    "Fixnum.C11_rdiv_nearest_panics_iff",
    "Fixnum.C11_rdiv_nearest_wrapped",
    "Fixnum.C11_rdiv_nearest_false",
    "Fixnum.C11_rdiv_nearest_release_false",
    "Fixnum.C11_rdiv_nearest_min_false"
   ],
   "note": "False: loss_abs+loss_abs and rhs.abs() overflow; proved under the exact condition NearestSafe, with the exact panic condition and the release result outside it."
  },
  {
   "property": "C12",
   "status": "partial",
   "theorems": [
    "Fixnum.C12_rdivInt_partial",
    "Fixnum.C12_rdivInt_small_partial",
    "Fixnum.C12_rdivInt_zero_iff",
    "Fixnum.C12_rdivInt_min_false",
    "Fixnum.C12_rdivInt_panics_iff",
    "Fixnum.C12_rdivInt_wrapped",
    "Fixnum.C12_rdivInt_false"
   ],
   "note": "False for MIN/-1 (panic) and Nearest with large remainders; exact panic condition and release result proved there."
  },
  {
   "property": "C13",
   "status": "partial",
   "theorems": [
    "Fixnum.C13_intRdiv_overflow",
    "Fixnum.C13_intRdiv_zero",
    "Fixnum.C13_intRdiv_directed",
    "Fixnum.C13_intRdiv_nearest_partial",
    "Fixnum.C13_intRdiv_nearest_panics_iff",
    "Fixnum.C13_intRdiv_nearest_wrapped",
    "Fixnum.C13_intRdiv_nearest_false"
   ],
   "note": "Nearest restricted as C11, with the exact panic condition and release result outside; everything else without restriction."
  },
  {
   "property": "C14",
   "status": "partial",
   "theorems": [
    "Fixnum.C14_int_rdiv_partial",
    "Fixnum.C14_int_rdiv_zero_iff",
    "Fixnum.C14_int_rdiv_min_false",
    "Fixnum.C14_int_rdiv_false",
    "Fixnum.C14_int_rdiv_panics_iff",
    "Fixnum.C14_int_rdiv_wrapped"
   ],
   "note": "False for MIN/-1 (panic) and Nearest with large remainders; exact panic condition and release result proved there."
  },
  {
   "property": "C15",
   "status": "partial",
   "theorems": [
    "Fixnum.C15_recip_is_rdiv",
    "Fixnum.C15_recip_zero_iff",
    "Fixnum.C15_recip_directed",
    "Fixnum.C15_recip_nearest_partial",
    "Fixnum.C15_recip_nearest_panics_iff",
    "Fixnum.C15_recip_nearest_wrapped",
    "Fixnum.C15_recip_nearest_false"
   ],
   "note": "Nearest restricted as C11, with the exact panic condition and release result outside."
  },
  {
   "property": "C16",
   "status": "proved",
   "theorems": [
    "Fixnum.C16_half_sum_directed",
    "Fixnum.C16_half_sum_nearest",
    "Fixnum.C16_half_sum_comm",
    "Fixnum.C16_half_sum_between"
   ],
   "note": ""
  },
  {
   "property": "C17",
   "status": "partial",
   "theorems": [
    "Fixnum.C17_half_sum_ties_partial",
    "Fixnum.C17_half_sum_negative",
    "Fixnum.C17_half_sum_ties_false"
   ],
   "note": "False when both operands are negative: ties go towards zero (proved exactly)."
  },
  {
   "property": "C18",
   "status": "partial",
   "theorems": [
    "Fixnum.C18_integral_partial",
    "Fixnum.C18_integral_types_partial",
    "Fixnum.C18_integral_min_false",
    "Fixnum.C18_integral_panics_iff",
    "Fixnum.C18_integral_wrapped",
    "Fixnum.C18_integral_false",
    "Fixnum.C18_integral_nearest_false"
   ],
   "note": "False for MIN and for Nearest on i128/U38; exact panic condition and release result proved."
  },
  {
   "property": "C19",
   "status": "partial",
   "theorems": [
    "Fixnum.C19_floor",
    "Fixnum.C19_ceil",
    "Fixnum.C19_round_partial",
    "Fixnum.C19_round_types_partial",
    "Fixnum.C19_floor_ceil_min",
    "Fixnum.C19_round_panics",
    "Fixnum.C19_min_wrapped",
    "Fixnum.C19_round_wrapped",
    "Fixnum.C19_round_false"
   ],
   "note": "False for MIN, and for round on i128/U38 fractions above MAX/2; exact outcome with and without overflow checks proved there."
  },
  {
   "property": "C20",
   "status": "proved",
   "theorems": [
    "Fixnum.C20_truncated",
    "Fixnum.C20_round_towards_zero_by",
    "Fixnum.C20_zero"
   ],
   "note": ""
  },
  {
   "property": "C21",
   "status": "proved",
   "theorems": [
    "Fixnum.C21_next_exists",
    "Fixnum.C21_next_power_nonneg",
    "Fixnum.C21_next_power_neg"
   ],
   "note": ""
  },
  {
   "property": "C22",
   "status": "proved",
   "theorems": [
    "Fixnum.C22_unique",
    "Fixnum.C22_rsqrt",
    "Fixnum.C22_rsqrt_domain",
    "Fixnum.C22_rsqrt_exact"
   ],
   "note": ""
  },
  {
   "property": "C23",
   "status": "proved",
   "theorems": [
    "Fixnum.C23_rsqrt_std_independent",
    "Fixnum.C23_any_guess"
   ],
   "note": ""
  },
  {
   "property": "C24",
   "status": "partial",
   "theorems": [
    "Fixnum.C24_from_decimal_exponent",
    "Fixnum.C24_from_decimal_partial",
    "Fixnum.C24_from_decimal_nonpos",
    "Fixnum.C24_from_decimal_panics",
    "Fixnum.C24_from_decimal_wrapped",
    "Fixnum.C24_from_decimal_false"
   ],
   "note": "False when 10^(e+P) exceeds the layout: panic, or without overflow checks the exact result for the wrapped multiplier."
  },
  {
   "property": "C25",
   "status": "proved",
   "theorems": [
    "Fixnum.C25_to_decimal",
    "Fixnum.C25_to_decimal_panic_iff"
   ],
   "note": ""
  },
  {
   "property": "C26",
   "status": "proved",
   "theorems": [
    "Fixnum.C26_round_trip"
   ],
   "note": ""
  },
  {
   "property": "C27",
   "status": "proved",
   "theorems": [
    "Fixnum.C27_try_from_int",
    "Fixnum.C27_try_from_int_range"
   ],
   "note": ""
  },
  {
   "property": "C28",
   "status": "proved",
   "theorems": [
    "Fixnum.C28_overflow_types",
    "Fixnum.C28_display_any",
    "Fixnum.C28_display_panics",
    "Fixnum.C28_display_min_wrapped",
    "Fixnum.C28_display_fraction_wrapped",
    "Fixnum.C28_display",
    "Fixnum.C28_display_types",
    "Fixnum.C28_display_zero_precision",
    "Fixnum.C28_canonical_unique",
    "Fixnum.C28_outside_domain"
   ],
   "note": ""
  },
  {
   "property": "C29",
   "status": "partial",
   "theorems": [
    "Fixnum.C29_display_ub_iff",
    "Fixnum.C29_display_no_ub_partial",
    "Fixnum.C29_display_no_ub_fraction_partial",
    "Fixnum.C29_display_no_ub_zero_precision_partial",
    "Fixnum.C29_display_no_ub_false",
    "Fixnum.C29_display_no_ub_debug"
   ],
   "note": "False: precision 0 and i128/U38 write outside the buffer in release builds; the exact condition is proved (C29_display_ub_iff)."
  },
  {
   "property": "C30",
   "status": "proved",
   "theorems": [
    "Fixnum.C30_round_trip",
    "Fixnum.C30_round_trip_types",
    "Fixnum.C30_display_injective",
    "Fixnum.C30_outside_domain"
   ],
   "note": ""
  },
  {
   "property": "C31",
   "status": "proved",
   "theorems": [
    "Fixnum.C31_from_str_exact_iff",
    "Fixnum.C31_from_str_exact_returns"
   ],
   "note": ""
  },
  {
   "property": "C32",
   "status": "proved",
   "theorems": [
    "Fixnum.C32_from_str_iff",
    "Fixnum.C32_from_str_returns",
    "Fixnum.C32_from_str_zero_precision"
   ],
   "note": ""
  },
  {
   "property": "C33",
   "status": "proved",
   "theorems": [
    "Fixnum.C33_from_str_extends_exact"
   ],
   "note": ""
  },
  {
   "property": "C34",
   "status": "partial",
   "theorems": [
    "Fixnum.C34_macro_agrees_release",
    "Fixnum.C34_macro_agrees_or_fails",
    "Fixnum.C34_macro_agrees_partial",
    "Fixnum.C34_macro_agrees_false",
    "Fixnum.C34_too_precise",
    "Fixnum.C34_too_precise_partial",
    "Fixnum.C34_too_precise_false",
    "Fixnum.C34_compiles_iff",
    "Fixnum.C34_compiles_release_iff"
   ],
   "note": "False: compile errors for MIN and leading zeros with overflow checks; without them 19/39 fractional digits are dropped."
  },
  {
   "property": "C35",
   "status": "partial",
   "theorems": [
    "Fixnum.C35_value_partial",
    "Fixnum.C35_value_representable_partial",
    "Fixnum.C35_value_release_partial",
    "Fixnum.C35_value_false",
    "Fixnum.C35_value_release_exact"
   ],
   "note": "False: `as _` truncates; proved when the layout is as wide as Int, or the literal is representable."
  },
  {
   "property": "C36",
   "status": "proved",
   "theorems": [
    "Fixnum.C36_mul_exact",
    "Fixnum.C36_mul_i128",
    "Fixnum.C36_add_exact",
    "Fixnum.C36_sub_exact",
    "Fixnum.C36_neg_exact",
    "Fixnum.C36_cmp_exact",
    "Fixnum.C36_faithful",
    "Fixnum.C36_range",
    "Fixnum.C36_mul_determined",
    "Fixnum.C36_add_sub_determined",
    "Fixnum.C36_neg_min"
   ],
   "note": "Limb-level model of I256/U256 (carries, schoolbook product, comparison)."
  },
  {
   "property": "C37",
   "status": "proved",
   "theorems": [
    "Fixnum.C37_signed_div_zero",
    "Fixnum.C37_divMod_exact",
    "Fixnum.C37_div_exact",
    "Fixnum.C37_div_determined",
    "Fixnum.C37_div_zero",
    "Fixnum.C37_sqrt_exact"
   ],
   "note": "Limb-level model including div_mod_word, div_mod_small and Knuth D; every non-zero divisor."
  },
  {
   "property": "C38",
   "status": "proved",
   "theorems": [
    "Fixnum.C38_i128_roundtrip",
    "Fixnum.C38_i128_narrow",
    "Fixnum.C38_u128_roundtrip",
    "Fixnum.C38_u128_narrow",
    "Fixnum.C38_u256_narrow",
    "Fixnum.C38_u256_roundtrip"
   ],
   "note": "i128/u128 <-> I256."
  },
  {
   "property": "C39",
   "status": "proved",
   "theorems": [
    "Fixnum.C39_rmul",
    "Fixnum.C39_rdiv",
    "Fixnum.C39_rdiv_int",
    "Fixnum.C39_int_rdiv_fixed",
    "Fixnum.C39_prim_rdiv",
    "Fixnum.C39_saturating_rmul",
    "Fixnum.C39_recip",
    "Fixnum.C39_half_sum",
    "Fixnum.C39_integral",
    "Fixnum.C39_rsqrt",
    "Fixnum.C39_floor",
    "Fixnum.C39_ceil",
    "Fixnum.C39_round",
    "Fixnum.C39_from_decimal",
    "Fixnum.C39_try_from_int",
    "Fixnum.C39_display",
    "Fixnum.C39_from_str",
    "Fixnum.C39_from_str_exact",
    "Fixnum.C39_rmul_domain",
    "Fixnum.C39_rdiv_domain",
    "Fixnum.C39_integral_domain",
    "Fixnum.C39_half_sum_domain",
    "Fixnum.C39_from_str_domain",
    "Fixnum.C39_from_str_exact_domain",
    "Fixnum.C39_display_domain",
    "Fixnum.C39_fixnum_const",
    "Fixnum.C39_try_from_f64",
    "Fixnum.C39_to_f64",
    "Fixnum.C39_try_from_f64_domain",
    "Fixnum.C39_to_f64_domain",
    "Fixnum.C39_outside_domain",
    "Fixnum.C39_serialize",
    "Fixnum.C39_deserialize",
    "Fixnum.C39_serde_str",
    "Fixnum.C39_serde_float",
    "Fixnum.C39_impl_op_rmul",
    "Fixnum.C39_impl_op_saturating_rmul",
    "Fixnum.C39_impl_op_rdiv"
   ],
   "note": ""
  },
  {
   "property": "C40",
   "status": "proved",
   "theorems": [
    "Fixnum.C40_not_finite",
    "Fixnum.C40_finite",
    "Fixnum.C40_zero",
    "Fixnum.C40_zero_iff"
   ],
   "note": ""
  },
  {
   "property": "C41",
   "status": "proved",
   "theorems": [
    "Fixnum.C41_f64Neg_value",
    "Fixnum.C41_odd"
   ],
   "note": ""
  },
  {
   "property": "C42",
   "status": "proved",
   "theorems": [
    "Fixnum.C42_returns",
    "Fixnum.C42_as_u32"
   ],
   "note": ""
  },
  {
   "property": "C43",
   "status": "partial",
   "theorems": [
    "Fixnum.C43_integer_partial",
    "Fixnum.C43_integer_false",
    "Fixnum.C43_dyadic_partial",
    "Fixnum.C43_never_min"
   ],
   "note": "False for MIN, which is rejected."
  },
  {
   "property": "C44",
   "status": "proved",
   "theorems": [
    "Fixnum.C44_error_bound",
    "Fixnum.C44_error_bound_small",
    "Fixnum.C44_accepts",
    "Fixnum.C44_rejects"
   ],
   "note": ""
  },
  {
   "property": "C45",
   "status": "partial",
   "theorems": [
    "Fixnum.C45_nearest_partial",
    "Fixnum.C45_nearest_false"
   ],
   "note": "False: the rounding threshold is 44..4, not half; proved for arguments within 0.388 units of a value."
  },
  {
   "property": "C46",
   "status": "proved",
   "theorems": [
    "Fixnum.C46_model_rounding",
    "Fixnum.C46_finite",
    "Fixnum.C46_error_bound",
    "Fixnum.C46_error_bound_small",
    "Fixnum.C46_sign",
    "Fixnum.C46_odd",
    "Fixnum.C46_integer_exact",
    "Fixnum.C46_precision_zero"
   ],
   "note": ""
  },
  {
   "property": "C47",
   "status": "partial",
   "theorems": [
    "Fixnum.C47_min_rejected",
    "Fixnum.C47_round_trip_partial",
    "Fixnum.C47_round_trip_false",
    "Fixnum.C47_round_trip_outside_domain"
   ],
   "note": "False for MIN; proved for every other raw value up to 2.2e15, below 4e15 for precisions up to 22; counterexamples above 4.02e15 and (23 digits) 2.98e15."
  },
  {
   "property": "C48",
   "status": "proved",
   "theorems": [
    "Fixnum.C48_length",
    "Fixnum.C48_little_endian",
    "Fixnum.C48_encode_to",
    "Fixnum.C48_round_trip",
    "Fixnum.C48_decode_iff",
    "Fixnum.C48_decode_short",
    "Fixnum.C48_injective",
    "Fixnum.C48_compact"
   ],
   "note": ""
  },
  {
   "property": "C49",
   "status": "partial",
   "theorems": [
    "Fixnum.C49_binary",
    "Fixnum.C49_repr_option",
    "Fixnum.C49_human_partial",
    "Fixnum.C49_str_partial",
    "Fixnum.C49_str_option_partial",
    "Fixnum.C49_str_false",
    "Fixnum.C49_human_false"
   ],
   "note": "False for the str modules with temporary strings and for i128/U38; proved elsewhere."
  },
  {
   "property": "C50",
   "status": "proved",
   "theorems": [
    "Fixnum.C50_string",
    "Fixnum.C50_integer",
    "Fixnum.C50_float",
    "Fixnum.C50_accepts_iff",
    "Fixnum.C50_returns",
    "Fixnum.C50_errors",
    "Fixnum.C50_integer_errors",
    "Fixnum.C50_binary_iff"
   ],
   "note": ""
  },
  {
   "property": "C51",
   "status": "partial",
   "theorems": [
    "Fixnum.C51_cadd",
    "Fixnum.C51_csub",
    "Fixnum.C51_cmul",
    "Fixnum.C51_saturating",
    "Fixnum.C51_saturating_mul",
    "Fixnum.C51_rmul_partial",
    "Fixnum.C51_saturating_rmul_partial",
    "Fixnum.C51_rdiv_dividend",
    "Fixnum.C51_rdiv_zero",
    "Fixnum.C51_rdiv_partial",
    "Fixnum.C51_size_ratio_partial",
    "Fixnum.C51_rdiv_false",
    "Fixnum.C51_compiles"
   ],
   "note": "Restricted where the wrapped operation is (C07, C11, C12, C14)."
  },
  {
   "property": "C52",
   "status": "proved",
   "theorems": [
    "Fixnum.C52_zero",
    "Fixnum.C52_one",
    "Fixnum.C52_coef",
    "Fixnum.C52_neg_coef",
    "Fixnum.C52_epsilon",
    "Fixnum.C52_bounds",
    "Fixnum.C52_bounds_value"
   ],
   "note": ""
  },
  {
   "property": "C53",
   "status": "partial",
   "theorems": [
    "Fixnum.C53_precision_rejected_false",
    "Fixnum.C53_precision_partial",
    "Fixnum.C53_coef_exact",
    "Fixnum.C53_one_iff",
    "Fixnum.C53_coef_zero_iff",
    "Fixnum.C53_zero_panics",
    "Fixnum.C53_zero_collapses"
   ],
   "note": "False: precisions that do not fit the layout compile; their coefficient is determined exactly."
  },
  {
   "property": "C54",
   "status": "proved",
   "theorems": [
    "Fixnum.C54_cmp",
    "Fixnum.C54_eq",
    "Fixnum.C54_signum",
    "Fixnum.C54_max_min",
    "Fixnum.C54_clamp"
   ],
   "note": ""
  },
  {
   "property": "C55",
   "status": "partial",
   "theorems": [
    "Fixnum.C55_rmul_brackets",
    "Fixnum.C55_rdiv_brackets",
    "Fixnum.C55_integral_brackets_partial",
    "Fixnum.C55_integral_false",
    "Fixnum.C55_rsqrt_brackets"
   ],
   "note": "False for integral(MIN) without overflow checks; everything else proved."
  },
  {
   "property": "C56",
   "status": "partial",
   "theorems": [
    "Fixnum.C56_rmul_mono_partial",
    "Fixnum.C56_rmul_mono_types_partial",
    "Fixnum.C56_rmul_mono_checked",
    "Fixnum.C56_rmul_false",
    "Fixnum.C56_rdiv_mono_partial",
    "Fixnum.C56_rdiv_mono_checked",
    "Fixnum.C56_rdiv_false",
    "Fixnum.C56_rsqrt_mono",
    "Fixnum.C56_integral_mono_partial",
    "Fixnum.C56_integral_mono_checked",
    "Fixnum.C56_integral_false"
   ],
   "note": "False without overflow checks for Nearest and integral(MIN); complete with overflow checks."
  },
  {
   "property": "C57",
   "status": "proved",
   "theorems": [
    "Fixnum.C57_sum_exact",
    "Fixnum.C57_order_irrelevant",
    "Fixnum.C57_comm",
    "Fixnum.C57_cancel"
   ],
   "note": ""
  },
  {
   "property": "C58",
   "status": "proved",
   "theorems": [
    "Fixnum.C58_sequence_exact",
    "Fixnum.C58_sequence_succeeds"
   ],
   "note": ""
  },
  {
   "property": "C59",
   "status": "proved",
   "theorems": [
    "Fixnum.C59_rmul_one",
    "Fixnum.C59_rmul_zero",
    "Fixnum.C59_rdiv_one",
    "Fixnum.C59_rdiv_self",
    "Fixnum.C59_zero_rdiv"
   ],
   "note": ""
  },
  {
   "property": "C60",
   "status": "proved",
   "theorems": [
    "Fixnum.C60_accessors",
    "Fixnum.C60_faithful"
   ],
   "note": ""
  },
  {
   "property": "C61",
   "status": "proved",
   "theorems": [
    "Fixnum.C61_float",
    "Fixnum.C61_float_option",
    "Fixnum.C61_float_integer"
   ],
   "note": ""
  },
  {
   "property": "C62",
   "status": "proved",
   "theorems": [
    "Fixnum.C62_monotone",
    "Fixnum.C62_reflects_lt"
   ],
   "note": ""
  },
  {
   "property": "C63",
   "status": "proved",
   "theorems": [
    "Fixnum.C63_monotone",
    "Fixnum.C63_accepted_interval"
   ],
   "note": ""
  },
  {
   "property": "C64",
   "status": "proved",
   "theorems": [
    "Fixnum.C64_cut_unique",
    "Fixnum.C64_exact_form",
    "Fixnum.C64_closed_form"
   ],
   "note": ""
  },
  {
   "property": "C65",
   "status": "proved",
   "theorems": [
    "Fixnum.C65_saturating_add",
    "Fixnum.C65_saturating_sub",
    "Fixnum.C65_saturating_mul",
    "Fixnum.C65_instances",
    "Fixnum.C65_wide_left_outside_domain"
   ],
   "note": ""
  },
  {
   "property": "C66",
   "status": "partial",
   "theorems": [
    "Fixnum.C66_rdiv_neg_left",
    "Fixnum.C66_rdiv_neg_right",
    "Fixnum.C66_integral_neg",
    "Fixnum.C66_floor_ceil_neg",
    "Fixnum.C66_half_sum_neg",
    "Fixnum.C66_half_sum_nearest_false",
    "Fixnum.C66_half_sum_nearest_partial",
    "Fixnum.C66_round_towards_zero_neg",
    "Fixnum.C66_round_towards_zero_step",
    "Fixnum.C66_next_power_neg"
   ],
   "note": "half_sum Nearest of two numbers of the same sign is not odd (ties of negative numbers go up); everything else proved."
  },
  {
   "property": "C67",
   "status": "partial",
   "theorems": [
    "Fixnum.C67_remainder",
    "Fixnum.C67_remainder_floor",
    "Fixnum.C67_multiply_back",
    "Fixnum.C67_mul_div",
    "Fixnum.C67_div_mul",
    "Fixnum.C67_mul_div_nearest_partial",
    "Fixnum.C67_div_mul_nearest_partial",
    "Fixnum.C67_outside_domain",
    "Fixnum.C67_mul_div_nearest_false"
   ],
   "note": "Directed modes complete. Nearest: partial where rmul/rdiv Nearest panic or are wrong (C07, C11); counterexample proved."
  },
  {
   "property": "C68",
   "status": "proved",
   "theorems": [
    "Fixnum.C68_square_of_root",
    "Fixnum.C68_square_of_root_ceil",
    "Fixnum.C68_outside_domain",
    "Fixnum.C68_root_of_square",
    "Fixnum.C68_small_outside_domain"
   ],
   "note": ""
  },
  {
   "property": "C69",
   "status": "proved",
   "theorems": [
    "Fixnum.C69_interval"
   ],
   "note": ""
  },
  {
   "property": "C70",
   "status": "proved",
   "theorems": [
    "Fixnum.C70_error_accumulates"
   ],
   "note": ""
  },
  {
   "property": "C71",
   "status": "proved",
   "theorems": [
    "Fixnum.C71_split",
    "Fixnum.C71_outside_domain",
    "Fixnum.C71_halves"
   ],
   "note": ""
  },
  {
   "property": "C72",
   "status": "proved",
   "theorems": [
    "Fixnum.C72_same_number",
    "Fixnum.C72_monotone",
    "Fixnum.C72_neg",
    "Fixnum.C72_accepts_iff",
    "Fixnum.C72_display_neg",
    "Fixnum.C72_reprint"
   ],
   "note": ""
  },
  {
   "property": "C73",
   "status": "proved",
   "theorems": [
    "Fixnum.C73_default",
    "Fixnum.C73_hash",
    "Fixnum.C73_hash_cmp",
    "Fixnum.C73_round_mode",
    "Fixnum.C73_error_texts",
    "Fixnum.C73_error_text",
    "Fixnum.C73_convert_error_text",
    "Fixnum.C73_schema",
    "Fixnum.C73_schema_outside_domain"
   ],
   "note": ""
  },
  {
   "property": "C74",
   "status": "proved",
   "theorems": [
    "Fixnum.C74_same_precision",
    "Fixnum.C74_scaled",
    "Fixnum.C74_value_iff",
    "Fixnum.C74_mismatch_example"
   ],
   "note": ""
  },
  {
   "property": "C75",
   "status": "proved",
   "theorems": [
    "Fixnum.C75_display_bytes",
    "Fixnum.C75_printed_chars",
    "Fixnum.C75_utf8",
    "Fixnum.C75_no_ub"
   ],
   "note": ""
  },
  {
   "property": "C76",
   "status": "proved",
   "theorems": [
    "Fixnum.C76_parse_bytes",
    "Fixnum.C76_returns",
    "Fixnum.C76_slice"
   ],
   "note": ""
  },
  {
   "property": "C77",
   "status": "partial",
   "theorems": [
    "Fixnum.C77_types",
    "Fixnum.C77_isqrt_partial",
    "Fixnum.C77_isqrt_i128_false",
    "Fixnum.C77_radicand"
   ],
   "note": "False for i128 near MAX (exact outcome proved); unreachable from the public API."
  },
  {
   "property": "C78",
   "status": "proved",
   "theorems": [
    "Fixnum.C78_error_bound",
    "Fixnum.C78_geometric"
   ],
   "note": ""
  },
  {
   "property": "C79",
   "status": "proved",
   "theorems": [
    "Fixnum.C79_shl",
    "Fixnum.C79_shr",
    "Fixnum.C79_mul_prim",
    "Fixnum.C79_mul_prim_general",
    "Fixnum.C79_from",
    "Fixnum.C79_constants"
   ],
   "note": ""
  },
  {
   "property": "C80",
   "status": "proved",
   "theorems": [
    "Fixnum.C80_cadd",
    "Fixnum.C80_csub",
    "Fixnum.C80_cmul",
    "Fixnum.C80_cneg",
    "Fixnum.C80_abs",
    "Fixnum.C80_next_power",
    "Fixnum.C80_try_from_int",
    "Fixnum.C80_saturating",
    "Fixnum.C80_saturating_rmul",
    "Fixnum.C80_rmul",
    "Fixnum.C80_rdiv",
    "Fixnum.C80_rdiv_int",
    "Fixnum.C80_recip",
    "Fixnum.C80_int_rdiv",
    "Fixnum.C80_half_sum",
    "Fixnum.C80_rsqrt",
    "Fixnum.C80_integral",
    "Fixnum.C80_floor_ceil_round",
    "Fixnum.C80_round_towards_zero",
    "Fixnum.C80_cmp",
    "Fixnum.C80_display",
    "Fixnum.C80_from_str",
    "Fixnum.C80_to_f64",
    "Fixnum.C80_try_from_f64",
    "Fixnum.C80_to_decimal",
    "Fixnum.C80_from_decimal",
    "Fixnum.C80_step",
    "Fixnum.C80_program",
    "Fixnum.C80_outside_domain"
   ],
   "note": ""
  },
  {
   "property": "C81",
   "status": "proved",
   "theorems": [
    "Fixnum.C81_text",
    "Fixnum.C81_text_same",
    "Fixnum.C81_text_any",
    "Fixnum.C81_text_to_zero",
    "Fixnum.C81_text_same_any",
    "Fixnum.C81_decimal",
    "Fixnum.C81_scale",
    "Fixnum.C81_serde",
    "Fixnum.C81_serde_any"
   ],
   "note": ""
  },
  {
   "property": "C82",
   "status": "proved",
   "theorems": [
    "Fixnum.C82_integral_values",
    "Fixnum.C82_results_integral",
    "Fixnum.C82_floor_twice",
    "Fixnum.C82_round_towards_zero",
    "Fixnum.C82_next_power",
    "Fixnum.C82_next_power_bound",
    "Fixnum.C82_fixed"
   ],
   "note": ""
  },
  {
   "property": "C83",
   "status": "proved",
   "theorems": [
    "Fixnum.C83_mul_assoc",
    "Fixnum.C83_distrib",
    "Fixnum.C83_distrib_floor",
    "Fixnum.C83_distrib_ceil",
    "Fixnum.C83_div_distrib",
    "Fixnum.C83_div_distrib_floor",
    "Fixnum.C83_div_distrib_ceil",
    "Fixnum.C83_div_steps_int",
    "Fixnum.C83_div_steps",
    "Fixnum.C83_outside_domain",
    "Fixnum.C83_adjoint_floor",
    "Fixnum.C83_adjoint_ceil",
    "Fixnum.C83_int_distrib",
    "Fixnum.C83_int_cancel"
   ],
   "note": ""
  },
  {
   "property": "C84",
   "status": "proved",
   "theorems": [
    "Fixnum.C84_round_trip",
    "Fixnum.C84_decode_iff",
    "Fixnum.C84_returns",
    "Fixnum.C84_size",
    "Fixnum.C84_size_negative"
   ],
   "note": ""
  },
  {
   "property": "C85",
   "status": "proved",
   "theorems": [
    "Fixnum.C85_bisection",
    "Fixnum.C85_largest",
    "Fixnum.C85_nearest_outside_domain"
   ],
   "note": ""
  },
  {
   "property": "C86",
   "status": "proved",
   "theorems": [
    "Fixnum.C86_mean",
    "Fixnum.C86_mean_equal",
    "Fixnum.C86_mean_exists",
    "Fixnum.C86_lerp",
    "Fixnum.C86_lerp_ends",
    "Fixnum.C86_lerp_exists",
    "Fixnum.C86_lerp_mono",
    "Fixnum.C86_lerp_outside_domain"
   ],
   "note": ""
  },
  {
   "property": "C87",
   "status": "proved",
   "theorems": [
    "Fixnum.C87_chain",
    "Fixnum.C87_circle",
    "Fixnum.C87_chain_error",
    "Fixnum.C87_fixpoint",
    "Fixnum.C87_fixpoint_nearest",
    "Fixnum.C87_decay",
    "Fixnum.C87_decay_floor",
    "Fixnum.C87_decay_ceil",
    "Fixnum.C87_outside_domain",
    "Fixnum.C87_returns"
   ],
   "note": ""
  },
  {
   "property": "C88",
   "status": "proved",
   "theorems": [
    "Fixnum.C88_same_sign",
    "Fixnum.C88_order",
    "Fixnum.C88_mono",
    "Fixnum.C88_checked",
    "Fixnum.C88_outside_domain"
   ],
   "note": ""
  },
  {
   "property": "C89",
   "status": "proved",
   "theorems": [
    "Fixnum.C89_allocate",
    "Fixnum.C89_outside_domain"
   ],
   "note": ""
  },
  {
   "property": "C90",
   "status": "proved",
   "theorems": [
    "Fixnum.C90_am_gm",
    "Fixnum.C90_geo_mean",
    "Fixnum.C90_geo_mean_exists",
    "Fixnum.C90_hypot",
    "Fixnum.C90_outside_domain"
   ],
   "note": ""
  },
  {
   "property": "C91",
   "status": "proved",
   "theorems": [
    "Fixnum.C91_repr",
    "Fixnum.C91_repr_errors",
    "Fixnum.C91_str",
    "Fixnum.C91_str_invalid",
    "Fixnum.C91_str_other",
    "Fixnum.C91_float",
    "Fixnum.C91_option",
    "Fixnum.C91_float_not_finite",
    "Fixnum.C91_returns"
   ],
   "note": ""
  },
  {
   "property": "C92",
   "status": "proved",
   "theorems": [
    "Fixnum.C92_running_error",
    "Fixnum.C92_run"
   ],
   "note": ""
  },
  {
   "property": "C93",
   "status": "proved",
   "theorems": [
    "Fixnum.C93_swap",
    "Fixnum.C93_swaps",
    "Fixnum.C93_no_gain",
    "Fixnum.C93_nearest_outside_domain",
    "Fixnum.C93_returns"
   ],
   "note": ""
  },
  {
   "property": "C94",
   "status": "proved",
   "theorems": [
    "Fixnum.C94_vault",
    "Fixnum.C94_vaults",
    "Fixnum.C94_no_gain",
    "Fixnum.C94_ceil_outside_domain",
    "Fixnum.C94_fair",
    "Fixnum.C94_returns"
   ],
   "note": ""
  },
  {
   "property": "C95",
   "status": "proved",
   "theorems": [
    "Fixnum.C95_observe",
    "Fixnum.C95_observe_all",
    "Fixnum.C95_observe_exists"
   ],
   "note": ""
  },
  {
   "property": "C96",
   "status": "proved",
   "theorems": [
    "Fixnum.C96_charge",
    "Fixnum.C96_charge_mono",
    "Fixnum.C96_charge_split"
   ],
   "note": ""
  },
  {
   "property": "C97",
   "status": "proved",
   "theorems": [
    "Fixnum.C97_compound",
    "Fixnum.C97_compound_mono",
    "Fixnum.C97_returns"
   ],
   "note": ""
  },
  {
   "property": "C98",
   "status": "proved",
   "theorems": [
    "Fixnum.C98_panics_iff",
    "Fixnum.C98_corrupts_iff",
    "Fixnum.C98_terminates",
    "Fixnum.C98_returns",
    "Fixnum.C98_release",
    "Fixnum.C98_ordinary"
   ],
   "note": ""
  },
  {
   "property": "C99",
   "status": "proved",
   "theorems": [
    "Fixnum.C99_nearest_unique",
    "Fixnum.C99_root_exists",
    "Fixnum.C99_convert",
    "Fixnum.C99_guess_std",
    "Fixnum.C99_within_one",
    "Fixnum.C99_guess_nostd",
    "Fixnum.C99_three_steps"
   ],
   "note": ""
  },
  {
   "property": "C100",
   "status": "proved",
   "theorems": [
    "Fixnum.C100_profile",
    "Fixnum.C100_deterministic",
    "Fixnum.C100_ends",
    "Fixnum.C100_safe",
    "Fixnum.C100_widen",
    "Fixnum.C100_outside_domain"
   ],
   "note": ""
  },
  {
   "property": "C101",
   "status": "proved",
   "theorems": [
    "Fixnum.C101_rmul",
    "Fixnum.C101_saturating_rmul",
    "Fixnum.C101_rdiv",
    "Fixnum.C101_recip",
    "Fixnum.C101_int_rdiv",
    "Fixnum.C101_rdiv_int",
    "Fixnum.C101_half_sum",
    "Fixnum.C101_rsqrt",
    "Fixnum.C101_next_power",
    "Fixnum.C101_round_towards_zero_by",
    "Fixnum.C101_integral",
    "Fixnum.C101_floor_ceil_round",
    "Fixnum.C101_op",
    "Fixnum.C101_program",
    "Fixnum.C101_only_checks"
   ],
   "note": ""
  },
  {
   "property": "C102",
   "status": "proved",
   "theorems": [
    "Fixnum.C102_from_str",
    "Fixnum.C102_from_str_exact",
    "Fixnum.C102_one_reason",
    "Fixnum.C102_try_from_int",
    "Fixnum.C102_from_decimal",
    "Fixnum.C102_try_from_f64"
   ],
   "note": ""
  },
  {
   "property": "C103",
   "status": "proved",
   "theorems": [
    "Fixnum.C103_closed_form",
    "Fixnum.C103_rest",
    "Fixnum.C103_cut_decides",
    "Fixnum.C103_build"
   ],
   "note": ""
  },
  {
   "property": "C104",
   "status": "partial",
   "theorems": [
    "Fixnum.C104_outcome",
    "Fixnum.C104_literal_partial",
    "Fixnum.C104_back",
    "Fixnum.C104_literal_false"
   ],
   "note": "False: some numbers with leading digits 4.003 to 4.503 (4096.029 at 12 places) gain a unit of the 16th digit; the exact outcome is proved for all, equality for all others."
  },
  {
   "property": "C105",
   "status": "partial",
   "theorems": [
    "Fixnum.C105_faithful",
    "Fixnum.C105_exact",
    "Fixnum.C105_nearest_partial",
    "Fixnum.C105_nearest_false",
    "Fixnum.C105_faithful_outside_domain"
   ],
   "note": "False: 1.14 at 2 digits. Proved for at most 15 digits: nearest below one, faithful (hence exact on f64) everywhere; with more than 15 digits every type has a number that is an f64 but is converted to another."
  },
  {
   "property": "C106",
   "status": "partial",
   "theorems": [
    "Fixnum.C106_there_and_back_partial",
    "Fixnum.C106_there_and_back_false"
   ],
   "note": "False: 1.14 at 2 digits. Proved for at most 15 digits: the same f64 or the neighbour on the other side of the number, and the same below one."
  },
  {
   "property": "C107",
   "status": "partial",
   "theorems": [
    "Fixnum.C107_document_partial",
    "Fixnum.C107_float_module_partial",
    "Fixnum.C107_neighbours",
    "Fixnum.C107_document_false"
   ],
   "note": "False for numbers with more digits than the type (0.445 at 1 digit) and for 4096.029 at 12 digits. Proved for all numbers of the type up to 4e15 raw units; neighbours up to 2^51 raw units."
  },
  {
   "property": "C108",
   "status": "proved",
   "theorems": [
    "Fixnum.C108_formula",
    "Fixnum.C108_build"
   ],
   "note": ""
  },
  {
   "property": "C109",
   "status": "proved",
   "theorems": [
    "Fixnum.C109_sqrt_six_steps",
    "Fixnum.C109_sqrt_u128_depth",
    "Fixnum.C109_sqrt_u256_depth",
    "Fixnum.C109_word_digit",
    "Fixnum.C109_knuth_digit",
    "Fixnum.C109_to_decimal"
   ],
   "note": ""
  },
  {
   "property": "C110",
   "status": "proved",
   "theorems": [
    "Fixnum.C110_serialize",
    "Fixnum.C110_deserialize",
    "Fixnum.C110_repr_round_trip",
    "Fixnum.C110_str_round_trip",
    "Fixnum.C110_float_round_trip",
    "Fixnum.C110_literal",
    "Fixnum.C110_saturating"
   ],
   "note": ""
  },
  {
   "property": "C111",
   "status": "proved",
   "theorems": [
    "Fixnum.C111_serialize",
    "Fixnum.C111_fmt",
    "Fixnum.C111_map",
    "Fixnum.C111_own",
    "Fixnum.C111_content",
    "Fixnum.C111_encode",
    "Fixnum.C111_decode"
   ],
   "note": ""
  },
  {
   "property": "C112",
   "status": "proved",
   "theorems": [
    "Fixnum.C112_bytes",
    "Fixnum.C112_bytes_returns",
    "Fixnum.C112_vec",
    "Fixnum.C112_text",
    "Fixnum.C112_line"
   ],
   "note": ""
  },
  {
   "property": "C113",
   "status": "proved",
   "theorems": [
    "Fixnum.C113_floor",
    "Fixnum.C113_ceil",
    "Fixnum.C113_returns",
    "Fixnum.C113_zero"
   ],
   "note": ""
  },
  {
   "property": "C114",
   "status": "proved",
   "theorems": [
    "Fixnum.C114_half_sum",
    "Fixnum.C114_floor_ceil",
    "Fixnum.C114_round",
    "Fixnum.C114_round_outside_domain",
    "Fixnum.C114_round_towards_zero",
    "Fixnum.C114_next_power",
    "Fixnum.C114_rdiv_divisor",
    "Fixnum.C114_recip",
    "Fixnum.C114_rmul_nonpos",
    "Fixnum.C114_saturating",
    "Fixnum.C114_saturating_rmul",
    "Fixnum.C114_conversions"
   ],
   "note": ""
  },
  {
   "property": "C115",
   "status": "proved",
   "theorems": [
    "Fixnum.C115_cmul_rmul",
    "Fixnum.C115_int_rdiv",
    "Fixnum.C115_rdiv_int",
    "Fixnum.C115_rdiv_int_outside_domain",
    "Fixnum.C115_from_decimal",
    "Fixnum.C115_from_str",
    "Fixnum.C115_csub_cadd",
    "Fixnum.C115_repeated_cadd",
    "Fixnum.C115_half_sum",
    "Fixnum.C115_half_sum_outside_domain",
    "Fixnum.C115_saturating",
    "Fixnum.C115_round_towards_zero",
    "Fixnum.C115_integral"
   ],
   "note": ""
  },
  {
   "property": "C116",
   "status": "partial",
   "theorems": [
    "Fixnum.C116_below_one_unit",
    "Fixnum.C116_rsqrt",
    "Fixnum.C116_half_unit_partial",
    "Fixnum.C116_half_unit",
    "Fixnum.C116_one_unit_sharp",
    "Fixnum.C116_half_unit_false"
   ],
   "note": "False: Floor and Ceil are off by almost a unit, Nearest without overflow checks and TryFrom<f64> by more than half; half a unit proved for Nearest with overflow checks, one unit (sharp) in every mode and build."
  },
  {
   "property": "C117",
   "status": "proved",
   "theorems": [
    "Fixnum.C117_exact",
    "Fixnum.C117_cmp",
    "Fixnum.C117_round_towards_zero_by",
    "Fixnum.C117_integral",
    "Fixnum.C117_rmul",
    "Fixnum.C117_rdiv",
    "Fixnum.C117_rdivInt",
    "Fixnum.C117_intRdiv",
    "Fixnum.C117_recip",
    "Fixnum.C117_half_sum",
    "Fixnum.C117_rsqrt",
    "Fixnum.C117_next_power_of_ten",
    "Fixnum.C117_distance",
    "Fixnum.C117_nearest",
    "Fixnum.C117_nearest_outside_domain",
    "Fixnum.C117_interval"
   ],
   "note": ""
  },
  {
   "property": "C118",
   "status": "proved",
   "theorems": [
    "Fixnum.C118_directed",
    "Fixnum.C118_error",
    "Fixnum.C118_returns",
    "Fixnum.C118_mono"
   ],
   "note": ""
  },
  {
   "property": "C119",
   "status": "proved",
   "theorems": [
    "Fixnum.C119_conserved",
    "Fixnum.C119_transfer",
    "Fixnum.C119_returns",
    "Fixnum.C119_net",
    "Fixnum.C119_order"
   ],
   "note": ""
  },
  {
   "property": "C120",
   "status": "proved",
   "theorems": [
    "Fixnum.C120_rmul",
    "Fixnum.C120_rdiv",
    "Fixnum.C120_rdivInt",
    "Fixnum.C120_intRdiv",
    "Fixnum.C120_recip",
    "Fixnum.C120_halfSum",
    "Fixnum.C120_rsqrt",
    "Fixnum.C120_integral",
    "Fixnum.C120_fromStr"
   ],
   "note": ""
  },
  {
   "property": "C121",
   "status": "proved",
   "theorems": [
    "Fixnum.C121_product",
    "Fixnum.C121_instead_of_division",
    "Fixnum.C121_directed",
    "Fixnum.C121_twice",
    "Fixnum.C121_pairs"
   ],
   "note": ""
  },
  {
   "property": "C122",
   "status": "proved",
   "theorems": [
    "Fixnum.C122_directed",
    "Fixnum.C122_error",
    "Fixnum.C122_enclosure",
    "Fixnum.C122_returns"
   ],
   "note": ""
  },
  {
   "property": "C123",
   "status": "proved",
   "theorems": [
    "Fixnum.C123_rest",
    "Fixnum.C123_shares",
    "Fixnum.C123_returns",
    "Fixnum.C123_no_weight"
   ],
   "note": ""
  },
  {
   "property": "C124",
   "status": "proved",
   "theorems": [
    "Fixnum.C124_conserved",
    "Fixnum.C124_ends",
    "Fixnum.C124_grows"
   ],
   "note": ""
  },
  {
   "property": "C125",
   "status": "proved",
   "theorems": [
    "Fixnum.C125_newton",
    "Fixnum.C125_low_start",
    "Fixnum.C125_zero"
   ],
   "note": ""
  },
  {
   "property": "C126",
   "status": "proved",
   "theorems": [
    "Fixnum.C126_directed",
    "Fixnum.C126_error",
    "Fixnum.C126_returns"
   ],
   "note": ""
  },
  {
   "property": "C127",
   "status": "proved",
   "theorems": [
    "Fixnum.C127_floor",
    "Fixnum.C127_ceil",
    "Fixnum.C127_nearest",
    "Fixnum.C127_returns"
   ],
   "note": ""
  },
  {
   "property": "C128",
   "status": "proved",
   "theorems": [
    "Fixnum.C128_nonneg",
    "Fixnum.C128_error",
    "Fixnum.C128_ceil",
    "Fixnum.C128_constant",
    "Fixnum.C128_one_pass",
    "Fixnum.C128_returns"
   ],
   "note": ""
  },
  {
   "property": "C129",
   "status": "proved",
   "theorems": [
    "Fixnum.C129_error",
    "Fixnum.C129_bounds",
    "Fixnum.C129_directed",
    "Fixnum.C129_stuck",
    "Fixnum.C129_arrives",
    "Fixnum.C129_returns"
   ],
   "note": ""
  },
  {
   "property": "C130",
   "status": "proved",
   "theorems": [
    "Fixnum.C130_ignored",
    "Fixnum.C130_errors",
    "Fixnum.C130_format",
    "Fixnum.C130_nothing_to_do",
    "Fixnum.C130_not_padded"
   ],
   "note": ""
  },
  {
   "property": "C131",
   "status": "proved",
   "theorems": [
    "Fixnum.C131_order",
    "Fixnum.C131_error",
    "Fixnum.C131_nearest",
    "Fixnum.C131_returns"
   ],
   "note": ""
  },
  {
   "property": "C132",
   "status": "proved",
   "theorems": [
    "Fixnum.C132_balanced_sum"
   ],
   "note": ""
  },
  {
   "property": "C133",
   "status": "proved",
   "theorems": [
    "Fixnum.C133_quotient",
    "Fixnum.C133_nearest",
    "Fixnum.C133_mixed",
    "Fixnum.C133_remainder",
    "Fixnum.C133_euclid"
   ],
   "note": ""
  },
  {
   "property": "C134",
   "status": "proved",
   "theorems": [
    "Fixnum.C134_floor",
    "Fixnum.C134_ceil",
    "Fixnum.C134_nearest",
    "Fixnum.C134_additive",
    "Fixnum.C134_returns",
    "Fixnum.C134_zero"
   ],
   "note": ""
  },
  {
   "property": "C135",
   "status": "proved",
   "theorems": [
    "Fixnum.C135_bounds",
    "Fixnum.C135_mono",
    "Fixnum.C135_claims",
    "Fixnum.C135_returns"
   ],
   "note": ""
  },
  {
   "property": "C136",
   "status": "proved",
   "theorems": [
    "Fixnum.C136_no_gain",
    "Fixnum.C136_loss",
    "Fixnum.C136_executed",
    "Fixnum.C136_left_out",
    "Fixnum.C136_returns"
   ],
   "note": ""
  },
  {
   "property": "C137",
   "status": "proved",
   "theorems": [
    "Fixnum.C137_returns",
    "Fixnum.C137_middle",
    "Fixnum.C137_half",
    "Fixnum.C137_majority",
    "Fixnum.C137_order",
    "Fixnum.C137_mono"
   ],
   "note": ""
  },
  {
   "property": "C138",
   "status": "proved",
   "theorems": [
    "Fixnum.C138_request",
    "Fixnum.C138_limit",
    "Fixnum.C138_window",
    "Fixnum.C138_starved",
    "Fixnum.C138_ceil_outside_domain",
    "Fixnum.C138_returns"
   ],
   "note": ""
  },
  {
   "property": "C139",
   "status": "proved",
   "theorems": [
    "Fixnum.C139_reward",
    "Fixnum.C139_settle",
    "Fixnum.C139_solvent",
    "Fixnum.C139_returns"
   ],
   "note": ""
  },
  {
   "property": "C140",
   "status": "proved",
   "theorems": [
    "Fixnum.C140_round_trip",
    "Fixnum.C140_gross_changes",
    "Fixnum.C140_discount_outside_domain",
    "Fixnum.C140_rate_outside_domain",
    "Fixnum.C140_split",
    "Fixnum.C140_add"
   ],
   "note": ""
  },
  {
   "property": "C141",
   "status": "proved",
   "theorems": [
    "Fixnum.C141_payments",
    "Fixnum.C141_total",
    "Fixnum.C141_stretch",
    "Fixnum.C141_returns",
    "Fixnum.C141_no_carry_outside_domain"
   ],
   "note": ""
  }
 ]
}