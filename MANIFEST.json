{
 "claims": [
  {
   "property": "C01",
   "status": "proved",
   "theorems": [
    "Vdt.C01_exp_accurate"
   ],
   "note": "Relative error at most 2^-51 for every double with |x| <= 708; definedness included."
  },
  {
   "property": "C02",
   "status": "partial",
   "theorems": [
    "Vdt.C02_exp_machine_independent",
    "Vdt.C02_exp_overflow",
    "Vdt.C02_exp_underflow",
    "Vdt.C02_exp_nan",
    "Vdt.C02_exp_defined_iff",
    "Vdt.C02_exp_saturates_partial",
    "Vdt.C02_violated"
   ],
   "note": "Saturation, NaN and machine independence hold on every machine; the strict statement is refuted (C02_violated): arguments beyond about 1.488e9 and infinities convert an out-of-range value to int before the limit test. C02_exp_defined_iff gives the exact domain."
  },
  {
   "property": "C03",
   "status": "proved",
   "theorems": [
    "Vdt.C03_expf_accurate"
   ],
   "note": "Relative error at most 2^-22 for every float in [-87.25, 88.35]; definedness included."
  },
  {
   "property": "C04",
   "status": "partial",
   "theorems": [
    "Vdt.C04_expf_limits_partial",
    "Vdt.C04_expf_overflow",
    "Vdt.C04_expf_underflow",
    "Vdt.C04_expf_nan",
    "Vdt.C04_violated",
    "Vdt.C04_witnesses"
   ],
   "note": "Exact limits proved (C04_expf_limits_partial): finite and positive between -87.683 and 88.376, +inf up to MAXLOGF, 0 down to MINLOGF; beyond MAXLOGF/MINLOGF saturation on every machine. The statement is refuted (C04_violated): early overflow and underflow, undefined shift below -88.376."
  },
  {
   "property": "C05",
   "status": "proved",
   "theorems": [
    "Vdt.C05_log_accurate",
    "Vdt.C05_log_one"
   ],
   "note": "Relative error at most 2^-51 of ln x for every positive normal double up to 10^307; exactly +0 at 1."
  },
  {
   "property": "C06",
   "status": "partial",
   "theorems": [
    "Vdt.C06_log_negative",
    "Vdt.C06_logf_negative",
    "Vdt.C06_log_posinf",
    "Vdt.C06_log_huge",
    "Vdt.C06_log_subnormal",
    "Vdt.C06_log_nan_is_number",
    "Vdt.C06_log_special_partial",
    "Vdt.C06_violated",
    "Vdt.C06_logf_violations"
   ],
   "note": "Negative numbers, -inf, +inf and finiteness up to 1e307 proved (C06_log_special_partial). The statement is refuted (C06_violated): zeros and subnormals give a number near -709, NaN a number near 710, finite numbers above 1e307 give +inf."
  },
  {
   "property": "C07",
   "status": "proved",
   "theorems": [
    "Vdt.C07_logf_accurate",
    "Vdt.C07_logf_one"
   ],
   "note": "Relative error at most 2^-22 of ln x for every positive normal float; exactly +0 at 1."
  },
  {
   "property": "C08",
   "status": "proved",
   "theorems": [
    "Vdt.C08_sin_cos_accurate"
   ],
   "note": "Every double with |x| <= 2^27, absolute error 2^-51, definedness included."
  },
  {
   "property": "C09",
   "status": "partial",
   "theorems": [
    "Vdt.C09_sincos_symmetry_partial",
    "Vdt.C09_sincosf_symmetry_partial",
    "Vdt.C09_cos_even",
    "Vdt.C09_cosf_even",
    "Vdt.C09_sin_odd_partial",
    "Vdt.C09_sinf_odd_partial",
    "Vdt.C09_violated",
    "Vdt.C09_sin_zero"
   ],
   "note": "Cosine even for every pattern; sine odd for every nonzero non-NaN argument, on every machine. Refuted for zero: fast_sin(-0) is +0 (C09_violated)."
  },
  {
   "property": "C10",
   "status": "proved",
   "theorems": [
    "Vdt.C10_sinf_cosf_accurate"
   ],
   "note": "Every float with |x| <= 8192, absolute error 2^-22, definedness included."
  },
  {
   "property": "C11",
   "status": "partial",
   "theorems": [
    "Vdt.C11_sincos_defined_iff",
    "Vdt.C11_sincosf_defined_iff",
    "Vdt.C11_sin_cos_components",
    "Vdt.C11_sinf_cosf_components",
    "Vdt.C11_sincos_nan",
    "Vdt.C11_sincos_inf",
    "Vdt.C11_sincos_defined_partial",
    "Vdt.C11_violated"
   ],
   "note": "Exact domain of defined behaviour proved; refuted beyond it (C11_violated). Infinite arguments give infinite results instead of NaN (C11_sincos_inf)."
  },
  {
   "property": "C12",
   "status": "proved",
   "theorems": [
    "Vdt.C12_unit_circle",
    "Vdt.C12_unit_circlef",
    "Vdt.C12_components"
   ],
   "note": "|s^2+c^2-1| <= 2^-50 for every double with |x| <= 2^27 and 2^-21 for every float with |x| <= 8192; the components agree on every machine."
  },
  {
   "property": "C13",
   "status": "proved",
   "theorems": [
    "Vdt.C13_tan_accurate",
    "Vdt.C13_tan_accurate_to_2_20",
    "Vdt.C13_tan_relative_to_8192",
    "Vdt.C13_tan_relative_to_32"
   ],
   "note": "Every double with 2^-1024 < |x| <= 2^27, poles included: the distance of a double to the multiples of pi/2 is bounded below by a verified table."
  },
  {
   "property": "C14",
   "status": "partial",
   "theorems": [
    "Vdt.C14_tan_zero",
    "Vdt.C14_tan_odd_partial",
    "Vdt.C14_tanf_odd_partial",
    "Vdt.C14_tan_nan",
    "Vdt.C14_tanf_nan",
    "Vdt.C14_violated",
    "Vdt.C14_tan_nan_iff_partial"
   ],
   "note": "Violated: 0 < |x| <= 2^-1024 (2^-128 for floats) gives NaN. Proved: those are exactly the arguments giving NaN for |x| <= 2^27 (8192), zeros keep their sign, odd bit for bit wherever the result is not NaN."
  },
  {
   "property": "C15",
   "status": "proved",
   "theorems": [
    "Vdt.C15_tanf_accurate",
    "Vdt.C15_tanf_relative_to_128"
   ],
   "note": "Every float with 2^-128 < |x| <= 8192."
  },
  {
   "property": "C16",
   "status": "proved",
   "theorems": [
    "Vdt.C16_tanh_range",
    "Vdt.C16_tanh_odd",
    "Vdt.C16_tanh_saturates",
    "Vdt.C16_tanh_nan",
    "Vdt.C16_tanhf_range",
    "Vdt.C16_tanhf_odd",
    "Vdt.C16_tanhf_saturates",
    "Vdt.C16_tanhf_nan"
   ],
   "note": "Every double and every float that is not NaN, infinities included."
  },
  {
   "property": "C17",
   "status": "proved",
   "theorems": [
    "Vdt.C17_tanh_accurate",
    "Vdt.C17_tanh_accurate_relative"
   ],
   "note": "Every finite double. The absolute term is needed: 4*2^-1074 is mapped to zero."
  },
  {
   "property": "C18",
   "status": "proved",
   "theorems": [
    "Vdt.C18_tanhf_accurate"
   ],
   "note": "Every finite float."
  },
  {
   "property": "C19",
   "status": "proved",
   "theorems": [
    "Vdt.C19_atan_accurate",
    "Vdt.C19_atan_accurate_relative"
   ],
   "note": "Every finite double; purely relative from 2^-1020 on."
  },
  {
   "property": "C20",
   "status": "proved",
   "theorems": [
    "Vdt.C20_atan_inf",
    "Vdt.C20_atan_odd",
    "Vdt.C20_atanf_odd",
    "Vdt.C20_atan_nan",
    "Vdt.C20_atanf_nan"
   ],
   "note": "Every double and every float that is not NaN, infinities included; NaN separately."
  },
  {
   "property": "C21",
   "status": "proved",
   "theorems": [
    "Vdt.C21_atanf_accurate"
   ],
   "note": "Every finite float, relative 2^-21 plus two subnormal steps."
  },
  {
   "property": "C22",
   "status": "proved",
   "theorems": [
    "Vdt.C22_atan2_accurate"
   ],
   "note": "Every pair of finite doubles except (0,0); the reference angle is Complex.arg."
  },
  {
   "property": "C23",
   "status": "partial",
   "theorems": [
    "Vdt.C23_atan2_y_zero_partial",
    "Vdt.C23_atan2_x_zero",
    "Vdt.C23_atan2_y_inf",
    "Vdt.C23_atan2_x_inf",
    "Vdt.C23_atan2_nan_partial",
    "Vdt.C23_atan2_odd_partial",
    "Vdt.C23_atan2_witnesses",
    "Vdt.C23_atan2_violated",
    "Vdt.C23_atan2f_y_zero_partial",
    "Vdt.C23_atan2f_x_zero",
    "Vdt.C23_atan2f_y_inf",
    "Vdt.C23_atan2f_x_inf",
    "Vdt.C23_atan2f_nan_partial",
    "Vdt.C23_atan2f_odd_partial",
    "Vdt.C23_atan2f_witnesses",
    "Vdt.C23_atan2f_violated"
   ],
   "note": "Violated: the sign of a zero y is lost, two infinities give NaN, (0, NaN) gives 0. Proved: the axes, one infinite argument, NaN with y not a zero, oddness in y for y not a zero, the exact result for every x when y is a zero; both precisions."
  },
  {
   "property": "C24",
   "status": "proved",
   "theorems": [
    "Vdt.C24_atan2f_accurate"
   ],
   "note": "Every pair of finite floats except (0,0)."
  },
  {
   "property": "C25",
   "status": "proved",
   "theorems": [
    "Vdt.C25_asin_nan_iff",
    "Vdt.C25_asinf_nan_iff",
    "Vdt.C25_acos_nan_iff",
    "Vdt.C25_acosf_nan_iff",
    "Vdt.C25_asin_odd",
    "Vdt.C25_asinf_odd",
    "Vdt.C25_asin_zero"
   ],
   "note": "all four functions, every bit pattern; oddness also for NaN results"
  },
  {
   "property": "C26",
   "status": "proved",
   "theorems": [
    "Vdt.C26_asin_accurate"
   ],
   "note": "relative error 2^-51 on all of [-1,1], range within the double nearest to pi/2"
  },
  {
   "property": "C27",
   "status": "proved",
   "theorems": [
    "Vdt.C27_acos_accurate"
   ],
   "note": "absolute error 2^-50 and result in [0,pi]"
  },
  {
   "property": "C28",
   "status": "proved",
   "theorems": [
    "Vdt.C28_asinf_accurate",
    "Vdt.C28_acosf_accurate"
   ],
   "note": "relative and absolute bounds for fast_asinf, absolute bound and range for fast_acosf"
  },
  {
   "property": "C29",
   "status": "proved",
   "theorems": [
    "Vdt.C29_isqrt_accurate"
   ],
   "note": "Every positive normal double."
  },
  {
   "property": "C30",
   "status": "proved",
   "theorems": [
    "Vdt.C30_isqrtf_accurate"
   ],
   "note": "Every positive normal float."
  },
  {
   "property": "C31",
   "status": "proved",
   "theorems": [
    "Vdt.C31_inv_all",
    "Vdt.C31_invf_all",
    "Vdt.C31_inv_accurate",
    "Vdt.C31_invf_accurate"
   ],
   "note": "Every normal number whose reciprocal is normal, both precisions; float versions with 2^-16 and 2^-8."
  },
  {
   "property": "C32",
   "status": "partial",
   "theorems": [
    "Vdt.C32_isqrt_inv_violated",
    "Vdt.C32_inv_zero",
    "Vdt.C32_isqrt_inv_nan",
    "Vdt.C32_inv_odd_partial",
    "Vdt.C32_inv_odd_inf",
    "Vdt.C32_isqrt_positive"
   ],
   "note": "Violated: the reciprocal square root of zero is finite, infinities give infinities, negative numbers give numbers, and the approximate reciprocals are not odd at the infinities. Proved: the reciprocals of zeros, NaN, oddness of the reciprocals on all finite numbers, positive finite reciprocal square root on all non-negative finite numbers."
  },
  {
   "property": "C33",
   "status": "partial",
   "theorems": [
    "Vdt.C33_getMantExponent_partial",
    "Vdt.C33_getMantExponentf_partial",
    "Vdt.C33_getMantExponent_negative",
    "Vdt.C33_getMantExponentf_negative",
    "Vdt.C33_violated"
   ],
   "note": "Proved for positive normal numbers; refuted for negative ones, where the exponent is off by 2048 (256)."
  },
  {
   "property": "C34",
   "status": "partial",
   "theorems": [
    "Vdt.C34_fpfloor_partial",
    "Vdt.C34_fpfloorf_partial",
    "Vdt.C34_fpfloor_negative_integers",
    "Vdt.C34_violated",
    "Vdt.C34_fpfloor_undefined"
   ],
   "note": "Proved except for negative integers and -0, where the result is one too small (refuted)."
  },
  {
   "property": "C35",
   "status": "proved",
   "theorems": [
    "Vdt.C35_bits_roundtrip",
    "Vdt.C35_sign_masks",
    "Vdt.C35_sign_masks_f"
   ],
   "note": "All patterns."
  },
  {
   "property": "C36",
   "status": "proved",
   "theorems": [
    "Vdt.C36_log_exp"
   ],
   "note": "For every double with |x| <= 700."
  },
  {
   "property": "C37",
   "status": "proved",
   "theorems": [
    "Vdt.Arr.C37_array_elementwise",
    "Vdt.Arr.C37_array_defined_iff",
    "Vdt.Arr.C37_array_in_place",
    "Vdt.Arr.C37_array2_elementwise",
    "Vdt.Arr.C37_fast_expv_accurate",
    "Vdt.Arr.C37_fast_logv_accurate"
   ],
   "note": "For the one- and two-argument loops, arbitrary (possibly partial) scalar function, every size, every mapped memory; exact definedness condition; instantiated with the accuracy of the exponential and the logarithm."
  },
  {
   "property": "C38",
   "status": "proved",
   "theorems": [
    "Vdt.Arr.C38_any_order",
    "Vdt.Arr.C38_sequential_legal",
    "Vdt.Arr.C38_shifted_depends_on_order"
   ],
   "note": "Every legal schedule of the individual loads and stores gives the sequential memory for disjoint and identical buffers; buffers shifted by one element refuted."
  },
  {
   "property": "C39",
   "status": "proved",
   "theorems": [
    "Vdt.Arr.C39_vc_elementwise"
   ],
   "note": "For every positive vector width, every size and every lane-wise function of the Vc library."
  },
  {
   "property": "C40",
   "status": "partial",
   "theorems": [
    "Vdt.Arr.C40_violated",
    "Vdt.Arr.C40_broadcast_reads_outside",
    "Vdt.Arr.C40_numpy_contiguous_partial"
   ],
   "note": "Proved for contiguous strides (C40_numpy_contiguous_partial); refuted in general (C40_violated): the wrapper ignores the strides."
  },
  {
   "property": "C41",
   "status": "proved",
   "theorems": [
    "Vdt.Gen.C41_array_functions"
   ],
   "note": "Complete finite table: 56 declarations read from the headers, with and without the preload part."
  },
  {
   "property": "C42",
   "status": "proved",
   "theorems": [
    "Vdt.Txt.C42_hex_roundtrip",
    "Vdt.Txt.C42_hex_roundtripf",
    "Vdt.Txt.C42_hex_injective",
    "Vdt.Txt.C42_negated"
   ],
   "note": "Every double and float pattern, every following text that starts with a blank or line end; the text determines the pattern."
  },
  {
   "property": "C43",
   "status": "proved",
   "theorems": [
    "Vdt.Txt.C43_pool1D_roundtrip",
    "Vdt.Txt.C43_pool1D_made",
    "Vdt.Txt.C43_pool1D_madef",
    "Vdt.Txt.C43_pool2D_roundtrip",
    "Vdt.Txt.C43_pool2D_made",
    "Vdt.Txt.C43_pool2D_madef"
   ],
   "note": "Every non-empty pool of fewer than 2^32 entries, both precisions, 1D and 2D."
  },
  {
   "property": "C44",
   "status": "proved",
   "theorems": [
    "Vdt.Txt.C44_response1D_roundtrip",
    "Vdt.Txt.C44_response2D_roundtrip",
    "Vdt.Txt.C44_response1D_made",
    "Vdt.Txt.C44_response1D_madef"
   ],
   "note": "Every list of inputs and outputs of equal length, every name without line break."
  },
  {
   "property": "C45",
   "status": "partial",
   "theorems": [
    "Vdt.Txt.C45_comparison_partial",
    "Vdt.Txt.C45_nonfinite_truncates",
    "Vdt.Txt.C45_violated",
    "Vdt.Txt.C45_old_reads_nothing",
    "Vdt.Txt.C45_comparison2D_partial",
    "Vdt.Txt.C45_decimals",
    "Vdt.Txt.C45_decimalsf"
   ],
   "note": "Proved for finite inputs with any number of printed decimals (C45_comparison_partial, C45_comparison2D_partial); refuted in general (C45_violated): a row with an infinite or NaN input ends the reading; the reader of fcnComparison_old skips too few header lines and reads nothing."
  },
  {
   "property": "C46",
   "status": "partial",
   "theorems": [
    "Vdt.Txt.C46_pool1D_copy_partial",
    "Vdt.Txt.C46_pool2D_copy_partial",
    "Vdt.Txt.C46_response1D_copy_partial",
    "Vdt.Txt.C46_pool1D_self",
    "Vdt.Txt.C46_violated"
   ],
   "note": "Proved for B different from A (C46_*_copy_partial); refuted in general (C46_violated): writing onto the source file truncates it before copying."
  },
  {
   "property": "C47",
   "status": "partial",
   "theorems": [
    "Vdt.Diag.C47_symmetric",
    "Vdt.Diag.C47_equal_undefined",
    "Vdt.Diag.C47_diffbitf_partial",
    "Vdt.Diag.C47_diffbit_partial",
    "Vdt.Diag.C47_one_too_large",
    "Vdt.Diag.C47_violated"
   ],
   "note": "For every log2 meeting the stated assumptions (Log2Ok, shown satisfiable): symmetric; exactly the bit length for different floats and for doubles at distance below 2^45, else the bit length or one more (C47_diffbit_partial). Refuted in general (C47_violated): equal arguments are undefined behaviour, and the result can be one too large (C47_one_too_large)."
  },
  {
   "property": "C48",
   "status": "partial",
   "theorems": [
    "Vdt.Diag.C48_stats_partial",
    "Vdt.Diag.C48_order_irrelevant",
    "Vdt.Diag.C48_diffs_bounded",
    "Vdt.Diag.C48_violated"
   ],
   "note": "Minimum, maximum, correctly rounded mean, hasDifference and order independence proved; the reported RMS is the variance, not its root, and -1 for one entry (refuted, C48_violated)."
  },
  {
   "property": "C49",
   "status": "proved",
   "theorems": [
    "Vdt.Cmd.C49_parse_accepts_iff",
    "Vdt.Cmd.C49_parse_values",
    "Vdt.Cmd.C49_order_irrelevant"
   ],
   "note": "For every table in which no flag belongs to two options, for a new CmdOptions object."
  },
  {
   "property": "C50",
   "status": "proved",
   "theorems": [
    "Vdt.Cmd.C50_list_fields",
    "Vdt.Cmd.C50_list_roundtrip"
   ],
   "note": "Every string; a list whose last element is empty loses that element (the one trailing comma)."
  },
  {
   "property": "C51",
   "status": "partial",
   "theorems": [
    "Vdt.Diag.C51_records",
    "Vdt.Diag.C51_mean_partial",
    "Vdt.Diag.C51_spread_partial",
    "Vdt.Diag.C51_error_partial",
    "Vdt.Diag.C51_no_rounds",
    "Vdt.Diag.C51_calls_wrap",
    "Vdt.Diag.C51_squares_wrap",
    "Vdt.Diag.C51_single_call",
    "Vdt.Diag.C51_constant_times",
    "Vdt.Diag.C51_violated"
   ],
   "note": "Without wrap-around exactly the timings after the warm-up are summed, the mean is correctly rounded, the error of the mean is sqrt(rms2/n) up to 2^-51 and the spread is not the root of a negative number. Refuted in general (C51_violated): a single call divides by zero; 2^31 repetitions record nothing; size*repetitions and the squares wrap."
  },
  {
   "property": "C52",
   "status": "partial",
   "theorems": [
    "Vdt.Diag.C52_elapsed_partial",
    "Vdt.Diag.C52_elapsed_wraps",
    "Vdt.Diag.C52_violated",
    "Vdt.Diag.C52_long_times_rounded",
    "Vdt.Diag.C52_apple_partial",
    "Vdt.Diag.C52_apple_too_small",
    "Vdt.Diag.C52_apple_violated"
   ],
   "note": "Proved when the nanosecond field did not decrease and the time is below 2^53 ns; refuted otherwise (C52_violated): every measurement in which the nanosecond field wraps is undefined behaviour (C52_elapsed_wraps). Apple's branch: right exactly while ticks*numerator is below 2^64 (C52_apple_partial, C52_apple_too_small, C52_apple_violated)."
  },
  {
   "property": "C53",
   "status": "proved",
   "theorems": [
    "Vdt.Gen.C53_preload"
   ],
   "note": "Complete finite table: ten functions, three overloads."
  },
  {
   "property": "C54",
   "status": "proved",
   "theorems": [
    "Vdt.Gen.C54_fat_wrappers"
   ],
   "note": "Complete finite table: fifteen functions, two precisions, numbers and arrays."
  },
  {
   "property": "C55",
   "status": "partial",
   "theorems": [
    "Vdt.Gen.C55_python_partial",
    "Vdt.Gen.C55_unary",
    "Vdt.Gen.C55_violated"
   ],
   "note": "Proved for all functions but div, fma and fmac (C55_python_partial); refuted for these (C55_violated): their Python functions take one argument."
  },
  {
   "property": "C56",
   "status": "partial",
   "theorems": [
    "Vdt.Gen.C56_python2_partial",
    "Vdt.Gen.C56_missing",
    "Vdt.Gen.C56_violated",
    "Vdt.Gen.C56_wrong_names"
   ],
   "note": "Proved for Python 2 (C56_python2_partial); refuted for Python 3 (C56_violated, C56_missing, C56_wrong_names): the address fname+i is used as a name, and div, fma and fmac are not registered."
  },
  {
   "property": "C57",
   "status": "proved",
   "theorems": [
    "Vdt.Gen.C57_vc_wrappers"
   ],
   "note": "Complete finite table: eight functions, two precisions, numbers and arrays."
  },
  {
   "property": "C58",
   "status": "partial",
   "theorems": [
    "Vdt.C58_sincos_range",
    "Vdt.C58_sincosf_range_partial",
    "Vdt.C58_float_witness",
    "Vdt.C58_violated"
   ],
   "note": "double: proved for every defined argument; float: proved up to 2^22, refuted beyond by a witness (result above 10^12)"
  },
  {
   "property": "C59",
   "status": "proved",
   "theorems": [
    "Vdt.C59_sincos_wide_accuracy",
    "Vdt.C59_sin_cos_wide_accuracy"
   ],
   "note": "every double for which the call is defined"
  },
  {
   "property": "C60",
   "status": "proved",
   "theorems": [
    "Vdt.Rand.C60_pool_range",
    "Vdt.Rand.C60_pool2D_range",
    "Vdt.Rand.C60_pool_linear"
   ],
   "note": "range for all finite limits; linear map for limits up to the largest power of two of the format"
  },
  {
   "property": "C61",
   "status": "proved",
   "theorems": [
    "Vdt.Bench.C61_array_response",
    "Vdt.Bench.C61_array_response2D",
    "Vdt.Bench.C61_array_sizes"
   ],
   "note": "array responses equal scalar responses for 1..2^32-1 numbers, one and two inputs; undefined otherwise"
  },
  {
   "property": "C62",
   "status": "proved",
   "theorems": [
    "Vdt.Bench.C62_files",
    "Vdt.Bench.C62_nicknames"
   ],
   "note": "with and without Vc, all nicknames"
  },
  {
   "property": "C63",
   "status": "proved",
   "theorems": [
    "Vdt.Bench.C63_run",
    "Vdt.Bench.C63_size_zero"
   ],
   "note": "without Vc (the configuration of the repository); size 0 is shown to be undefined"
  },
  {
   "property": "C64",
   "status": "partial",
   "theorems": [
    "Vdt.Bench.C64_basic_names_partial",
    "Vdt.Bench.C64_vc",
    "Vdt.Bench.C64_violated"
   ],
   "note": "proved without Vc for all names but Inverse; refuted for Inverse (its fast version is called Fast_Inv) and with Vc (VC_ names are included)"
  },
  {
   "property": "C65",
   "status": "partial",
   "theorems": [
    "Vdt.Compare.C65_command_partial",
    "Vdt.Compare.C65_functions",
    "Vdt.Compare.C65_violated"
   ],
   "note": "nicknames without a comma; refuted for a nickname with a comma (C65_violated)"
  },
  {
   "property": "C66",
   "status": "partial",
   "theorems": [
    "Vdt.Compare.C66_compare_partial",
    "Vdt.Compare.C66_compare2D_partial",
    "Vdt.Compare.C66_equal_undefined",
    "Vdt.Compare.C66_violated",
    "Vdt.Compare.C66_nickname"
   ],
   "note": "proved for a conversion to uint16_t that gives a small number for -inf, file names of one-argument functions without Atan2, finite inputs; with the conversion of the standard equal outputs make the run undefined (C66_equal_undefined, C66_violated); a nickname with Atan2 gives an empty comparison (C66_nickname)"
  },
  {
   "property": "C67",
   "status": "partial",
   "theorems": [
    "Vdt.Compare.C67_workflow_partial",
    "Vdt.Compare.C67_pairs",
    "Vdt.Compare.C67_strict_undefined",
    "Vdt.Compare.C67_violated"
   ],
   "note": "Without Vc. Proved for a conversion to uint16_t that gives a small number for -inf (C67_workflow_partial). With the conversion of the standard a library whose arccosine agrees with vdt at one number of the pool makes the check undefined (C67_strict_undefined), so that the property as stated is violated (C67_violated)."
  },
  {
   "property": "C68",
   "status": "partial",
   "theorems": [
    "Vdt.Compare.C68_exp",
    "Vdt.Compare.C68_log",
    "Vdt.Compare.C68_tanh",
    "Vdt.Compare.C68_asin",
    "Vdt.Compare.C68_atan",
    "Vdt.Compare.C68_sin",
    "Vdt.Compare.C68_cos",
    "Vdt.Compare.C68_tan",
    "Vdt.Compare.C68_acos",
    "Vdt.Compare.C68_atan2",
    "Vdt.Compare.C68_isqrt",
    "Vdt.Compare.C68_expf",
    "Vdt.Compare.C68_logf",
    "Vdt.Compare.C68_tanhf",
    "Vdt.Compare.C68_asinf",
    "Vdt.Compare.C68_atanf",
    "Vdt.Compare.C68_sinf",
    "Vdt.Compare.C68_cosf",
    "Vdt.Compare.C68_tanf",
    "Vdt.Compare.C68_acosf",
    "Vdt.Compare.C68_atan2f",
    "Vdt.Compare.C68_isqrtf",
    "Vdt.Compare.C68_bits_partial",
    "Vdt.Compare.C68_strict_undefined",
    "Vdt.Compare.C68_violated"
   ],
   "note": "Proved for a conversion of -inf to uint16_t that gives a small number (CastOk) and nicknames as in C67; the library is a parameter with the assumption Faithful, shown to be satisfiable. With the conversion of the standard the comparison is undefined for every faithful library when the engine gives its largest number (C68_strict_undefined), so that the property as stated is violated (C68_violated)."
  },
  {
   "property": "C69",
   "status": "proved",
   "theorems": [
    "Vdt.C69_relative",
    "Vdt.C69_relative_to_2_20",
    "Vdt.C69_relative_to_8192",
    "Vdt.C69_relative_to_32",
    "Vdt.C69_mixed",
    "Vdt.C69_sign",
    "Vdt.C69_sharp",
    "Vdt.C69_relativef",
    "Vdt.C69_relativef_to_4096",
    "Vdt.C69_relativef_to_128",
    "Vdt.C69_signf",
    "Vdt.C69_sharpf"
   ],
   "note": "the bounds on the relative error are nearly sharp: C69_sharp, C69_sharpf"
  },
  {
   "property": "C70",
   "status": "proved",
   "theorems": [
    "Vdt.Perf.C70_performance_file",
    "Vdt.Perf.C70_large_pool_undefined"
   ],
   "note": "the limits are needed: C70_large_pool_undefined. The regular expression is an arbitrary predicate on names, the clock an arbitrary function"
  },
  {
   "property": "C71",
   "status": "proved",
   "theorems": [
    "Vdt.Perf.C71_normalisation",
    "Vdt.Perf.C71_needs_identity",
    "Vdt.Perf.C71_own_kind_violated"
   ],
   "note": "patterns that leave out identity functions: C71_needs_identity, C71_own_kind_violated"
  },
  {
   "property": "C72",
   "status": "proved",
   "theorems": [
    "Vdt.Perf.C72_libm_table",
    "Vdt.Perf.C72_unnormalised_violated"
   ],
   "note": "without normalisation the script always fails: C72_unnormalised_violated"
  },
  {
   "property": "C73",
   "status": "partial",
   "theorems": [
    "Vdt.Perf.C73_vector_table_partial",
    "Vdt.Perf.C73_missing_rows_violated",
    "Vdt.Perf.C73_array_errors_violated"
   ],
   "note": "what is shown: C73_vector_table_partial; missing rows and errors of the wrong function: C73_missing_rows_violated, C73_array_errors_violated"
  },
  {
   "property": "C74",
   "status": "proved",
   "theorems": [
    "Vdt.Perf.C74_summary_table",
    "Vdt.Perf.C74_different_functions_violated"
   ],
   "note": "for files with the same functions; for others rows are paired by position: C74_different_functions_violated"
  },
  {
   "property": "C75",
   "status": "proved",
   "theorems": [
    "Vdt.C75_exp",
    "Vdt.C75_expf",
    "Vdt.C75_log",
    "Vdt.C75_logf",
    "Vdt.C75_plain"
   ],
   "note": "for all policies of fused operations"
  },
  {
   "property": "C76",
   "status": "proved",
   "theorems": [
    "Vdt.C76_sincos",
    "Vdt.C76_sincos_to_32",
    "Vdt.C76_sincosf",
    "Vdt.C76_tan",
    "Vdt.C76_tan_to_2_20",
    "Vdt.C76_tan_relative",
    "Vdt.C76_tanf",
    "Vdt.C76_plain"
   ],
   "note": "for all policies of fused operations"
  },
  {
   "property": "C77",
   "status": "proved",
   "theorems": [
    "Vdt.C77_asin",
    "Vdt.C77_asinf",
    "Vdt.C77_acos",
    "Vdt.C77_acosf",
    "Vdt.C77_atan",
    "Vdt.C77_atanf",
    "Vdt.C77_atan2",
    "Vdt.C77_atan2f",
    "Vdt.C77_plain"
   ],
   "note": "for all policies of fused operations"
  },
  {
   "property": "C78",
   "status": "proved",
   "theorems": [
    "Vdt.C78_tanh",
    "Vdt.C78_tanhf",
    "Vdt.C78_plain"
   ],
   "note": "for all policies of fused operations"
  },
  {
   "property": "C79",
   "status": "proved",
   "theorems": [
    "Vdt.C79_isqrt",
    "Vdt.C79_isqrtf",
    "Vdt.C79_inv",
    "Vdt.C79_invf",
    "Vdt.C79_isqrt_positive",
    "Vdt.C79_plain"
   ],
   "note": "for all policies of fused operations"
  },
  {
   "property": "C80",
   "status": "proved",
   "theorems": [
    "Vdt.C80_determined",
    "Vdt.C80_determinedf",
    "Vdt.C80_div",
    "Vdt.C80_divf",
    "Vdt.C80_div_zero",
    "Vdt.C80_inv",
    "Vdt.C80_invf",
    "Vdt.C80_isqrt",
    "Vdt.C80_isqrtf",
    "Vdt.C80_fmac",
    "Vdt.C80_fmacf",
    "Vdt.C80_fma",
    "Vdt.C80_fmaf",
    "Vdt.C80_sqrt",
    "Vdt.C80_sqrtf"
   ],
   "note": "Nearest is stated against all finite numbers of the format and shown to determine the result. Square root through the integer root with sticky bit of the model. The same lemmas (add_round, sub_round, mul_round) show that the arithmetic under all other models is IEEE 754 rounding."
  },
  {
   "property": "C81",
   "status": "proved",
   "theorems": [
    "Vdt.Gen.C81_sorted",
    "Vdt.Gen.C81_array_functions"
   ],
   "note": "Insertion sort of the model for all lists; the concrete order of the library source read off the generated text."
  },
  {
   "property": "C82",
   "status": "partial",
   "theorems": [
    "Vdt.Histo.C82_histogram_partial",
    "Vdt.Histo.C82_bins",
    "Vdt.Histo.C82_axis",
    "Vdt.Histo.C82_two_inputs",
    "Vdt.Histo.C82_violated",
    "Vdt.Histo.C82_nan",
    "Vdt.Histo.C82_stops",
    "Vdt.Histo.C82_directory"
   ],
   "note": "Proved for functions of one variable, end to end from the responses through the comparison program to the fills; needs the conversion of -inf defined (C47) and, in double precision, no NaN outputs (C82_nan: 65 bits do not fit on the axis). Violated for functions of two variables (C82_two_inputs, for every such file) and for -d (C82_directory). ROOT itself is not modelled."
  },
  {
   "property": "C83",
   "status": "proved",
   "theorems": [
    "Vdt.Histo.C83_axis64",
    "Vdt.Histo.C83_axisv64",
    "Vdt.Histo.C83_axis32",
    "Vdt.Histo.C83_axisv32"
   ],
   "note": "all functions of one variable, scalar and array, with and without Vc"
  },
  {
   "property": "C84",
   "status": "partial",
   "theorems": [
    "Vdt.Py.C84_unary_partial",
    "Vdt.Py.C84_atan2_partial",
    "Vdt.Py.C84_sincos",
    "Vdt.Py.C84_shorter",
    "Vdt.Py.C84_div_undefined",
    "Vdt.Py.C84_violated",
    "Vdt.Py.C84_violated_number",
    "Vdt.Py.C84_converted"
   ],
   "note": "Proved for all functions of one argument, for sincos, and for atan2 with arrays of equal size, after every history of calls. Violated for div, fma and fmac (the generated functions take one array and call a C function with three or four parameters) and for atan2 with a second array of fewer elements. numpy and ctypes are assumptions written out in Model/PyCall.lean."
  },
  {
   "property": "C85",
   "status": "partial",
   "theorems": [
    "Vdt.C85_fast_log",
    "Vdt.C85_fast_logf",
    "Vdt.C85_violated",
    "Vdt.C85_exp_partial",
    "Vdt.C85_expf_partial",
    "Vdt.C85_isqrt_partial",
    "Vdt.C85_isqrtf_partial",
    "Vdt.C85_inv_partial",
    "Vdt.C85_invf_partial",
    "Vdt.C85_tanh_partial",
    "Vdt.C85_tanhf_partial",
    "Vdt.C85_fast_atanf",
    "Vdt.C85_fast_asinf",
    "Vdt.C85_fast_acosf",
    "Vdt.C85_fast_atan",
    "Vdt.C85_fast_asin",
    "Vdt.C85_fast_acos"
   ],
   "note": "Proved for fast_log(f) on every non-negative argument (subnormals and infinity included), fast_atan(f) on every number including the infinities, and fast_asin(f), fast_acos(f) on [-1,1]. Violated for fast_exp(f), fast_tanh(f), fast_isqrt(f) and fast_inv(f) (neighbouring arguments with exchanged results); for these the order is proved for arguments a few units in the last place apart, and for tanh up to the error bound."
  },
  {
   "property": "C86",
   "status": "partial",
   "theorems": [
    "Vdt.Py.C86_npufunc",
    "Vdt.Py.C86_contiguous_partial",
    "Vdt.Py.C86_scalar_undefined",
    "Vdt.Py.C86_violated"
   ],
   "note": "Proved for all fifteen functions, all input types and element counts with operands without gaps (C86_contiguous_partial), including the choice of the row of types and the pairing of loop, library function and types. Violated (C86_violated): the distances are ignored; an input that is one repeated number makes the call undefined for every function and position (C86_scalar_undefined). Python 2 module; the names of the Python 3 module are C56."
  },
  {
   "property": "C87",
   "status": "proved",
   "theorems": [
    "Vdt.C87_direction",
    "Vdt.C87_arctangent",
    "Vdt.C87_arctangentf",
    "Vdt.C87_mirror",
    "Vdt.C87_mirrorf"
   ],
   "note": "For all finite vectors and every choice of contracted operations, both precisions. The quotient form excludes y = -0, where fast_atan2 gives +0 and fast_atan gives -0."
  },
  {
   "property": "C88",
   "status": "proved",
   "theorems": [
    "Vdt.C88_isqrt",
    "Vdt.C88_isqrt_contracted",
    "Vdt.C88_inv_contracted",
    "Vdt.C88_inv",
    "Vdt.C88_powers_isqrt",
    "Vdt.C88_powers_inv",
    "Vdt.C88_powers_limits"
   ],
   "note": "Exact equality of values for all normal arguments from twice the smallest normal number (below that the halved argument is subnormal), both precisions, exact and approximate versions, and every choice of contracted operations."
  },
  {
   "property": "C89",
   "status": "proved",
   "theorems": [
    "Vdt.C89_exp",
    "Vdt.C89_expf",
    "Vdt.C89_log",
    "Vdt.C89_logf",
    "Vdt.C89_sincos",
    "Vdt.C89_sincosf",
    "Vdt.C89_tan",
    "Vdt.C89_tanf",
    "Vdt.C89_asin",
    "Vdt.C89_asinf",
    "Vdt.C89_acos",
    "Vdt.C89_acosf",
    "Vdt.C89_atan",
    "Vdt.C89_atanf",
    "Vdt.C89_atan2",
    "Vdt.C89_atan2f",
    "Vdt.C89_tanh",
    "Vdt.C89_tanhf",
    "Vdt.C89_isqrt",
    "Vdt.C89_isqrtf",
    "Vdt.C89_inv",
    "Vdt.C89_invf"
   ],
   "note": "for every pair of contraction policies; zero arguments of asin, sin and tan are excluded from the counts of steps"
  },
  {
   "property": "C90",
   "status": "partial",
   "theorems": [
    "Vdt.Report.C90_bits",
    "Vdt.Report.C90_bitsf",
    "Vdt.Report.C90_report",
    "Vdt.Report.C90_report_array",
    "Vdt.Report.C90_defined_partial",
    "Vdt.Report.C90_violated",
    "Vdt.Report.C90_violated_libm",
    "Vdt.Report.C90_precision"
   ],
   "note": "The printing functions: the bits shown are the fields, reports determine the results, a report is defined exactly if all pairs of results differ. Violated: the three programs compare equal numbers, for which diffbit is undefined."
  },
  {
   "property": "C91",
   "status": "partial",
   "theorems": [
    "Vdt.UnitTests.C91_randomPool",
    "Vdt.UnitTests.C91_response",
    "Vdt.UnitTests.C91_comparison_partial",
    "Vdt.UnitTests.C91_comparison2",
    "Vdt.UnitTests.C91_violated"
   ],
   "note": "Pools, responses and comparisons with one input come back. Violated for two inputs: the test reads the file with the class for one input and gets no rows."
  },
  {
   "property": "C92",
   "status": "partial",
   "theorems": [
    "Vdt.Fatlib.C92_fmaF",
    "Vdt.Fatlib.C92_fmaF_exact",
    "Vdt.Fatlib.C92_without",
    "Vdt.Fatlib.C92_targets",
    "Vdt.Fatlib.C92_arch",
    "Vdt.Fatlib.C92_fmaD_partial",
    "Vdt.Fatlib.C92_violated"
   ],
   "note": "myfmaF has the stated accuracy on every target. Violated for myfmaD, which returns float: only single precision accuracy holds."
  },
  {
   "property": "C93",
   "status": "proved",
   "theorems": [
    "Vdt.C93_exp_log",
    "Vdt.C93_sin_asin",
    "Vdt.C93_cos_acos",
    "Vdt.C93_asin_sin",
    "Vdt.C93_atan2_sincos",
    "Vdt.C93_inv_inv",
    "Vdt.C93_inv_isqrt",
    "Vdt.C93_tan_atan",
    "Vdt.C93_atan_tan",
    "Vdt.C93_expf_logf",
    "Vdt.C93_logf_expf",
    "Vdt.C93_sinf_asinf",
    "Vdt.C93_cosf_acosf",
    "Vdt.C93_atan2f_sincosf",
    "Vdt.C93_invf_invf"
   ],
   "note": "for every pair of contraction policies"
  },
  {
   "property": "C94",
   "status": "proved",
   "theorems": [
    "Vdt.C94_exp",
    "Vdt.C94_log",
    "Vdt.C94_sincos",
    "Vdt.C94_tan",
    "Vdt.C94_tanh",
    "Vdt.C94_asin_acos",
    "Vdt.C94_atan",
    "Vdt.C94_atan2",
    "Vdt.C94_isqrt",
    "Vdt.C94_inv"
   ],
   "note": "for every pair of contraction policies"
  },
  {
   "property": "C95",
   "status": "proved",
   "theorems": [
    "Vdt.C95_sincosf",
    "Vdt.C95_sincosf_far",
    "Vdt.C95_sharp"
   ],
   "note": "for every contraction policy; C95_sharp gives arguments with errors near the bounds"
  },
  {
   "property": "C96",
   "status": "proved",
   "theorems": [
    "Vdt.C96_exp",
    "Vdt.C96_expf",
    "Vdt.C96_log",
    "Vdt.C96_logf",
    "Vdt.C96_sincos",
    "Vdt.C96_sincosf",
    "Vdt.C96_tan",
    "Vdt.C96_tanf",
    "Vdt.C96_tanh",
    "Vdt.C96_tanhf",
    "Vdt.C96_asin_acos",
    "Vdt.C96_asinf_acosf",
    "Vdt.C96_atan2",
    "Vdt.C96_atan2f",
    "Vdt.C96_atan",
    "Vdt.C96_isqrt",
    "Vdt.C96_isqrtf",
    "Vdt.C96_inv",
    "Vdt.C96_invf"
   ],
   "note": "for every contraction policy of every evaluation; tan*cos = sin in single precision only up to 2^-7 of the sine, because the float tangent and cosine have no better relative accuracy to 8192"
  },
  {
   "property": "C97",
   "status": "proved",
   "theorems": [
    "Vdt.C97_sincos",
    "Vdt.C97_sincos_30",
    "Vdt.C97_sincos_wide",
    "Vdt.C97_tan",
    "Vdt.C97_tan_wide",
    "Vdt.C97_sharp"
   ],
   "note": "for every contraction policy; the tangent for arguments of at least 1 whose tangent is neither below 2^-20 nor above 2^20 (2^-12 and 2^12 on the whole domain)"
  },
  {
   "property": "C98",
   "status": "proved",
   "theorems": [
    "Vdt.C98_log",
    "Vdt.C98_logf",
    "Vdt.C98_diagonal",
    "Vdt.C98_fractions",
    "Vdt.C98_fractionsf",
    "Vdt.C98_sharp"
   ],
   "note": "Log of powers of two and atan2 on the diagonals for every policy; values of the inverse functions at simple fractions of pi for the plain arithmetic, with the one exception (double acos of 1/2) shown to be one."
  },
  {
   "property": "C99",
   "status": "proved",
   "theorems": [
    "Vdt.Build.C99_flags",
    "Vdt.Build.C99_meaning",
    "Vdt.Build.C99_vc",
    "Vdt.Build.C99_versions"
   ],
   "note": "for every environment in which the variables that the files use internally are not defined beforehand; the programs' flags for systems other than Apple's"
  },
  {
   "property": "C100",
   "status": "partial",
   "theorems": [
    "Vdt.Build.C100_clang_partial",
    "Vdt.Build.C100_never",
    "Vdt.Build.C100_violated"
   ],
   "note": "The settings for Clang are in effect (C100_clang_partial). Those for GCC and the Intel compiler never are (C100_never), so that the property is violated (C100_violated)."
  },
  {
   "property": "C101",
   "status": "partial",
   "theorems": [
    "Vdt.Build.C101_generator_partial",
    "Vdt.Build.C101_violated"
   ],
   "note": "For paths without characters that are special to the shell (C101_generator_partial). A blank in the path breaks the command line (C101_violated)."
  },
  {
   "property": "C102",
   "status": "partial",
   "theorems": [
    "Vdt.Build.C102_headers_partial",
    "Vdt.Build.C102_all",
    "Vdt.Build.C102_violated"
   ],
   "note": "Installed headers in full, programs without Vc (C102_headers_partial, C102_all). With Vc the generated header is not in the search path (C102_violated)."
  },
  {
   "property": "C103",
   "status": "partial",
   "theorems": [
    "Vdt.Build.C103_listed_partial",
    "Vdt.Build.C103_missing",
    "Vdt.Build.C103_violated"
   ],
   "note": "Every line of the table is true (C103_listed_partial); exactly the functions atan2, inv, approx_inv and approx_isqrt are missing from it (C103_missing, C103_violated)."
  },
  {
   "property": "C104",
   "status": "proved",
   "theorems": [
    "Vdt.C104_isqrtf",
    "Vdt.C104_isqrt",
    "Vdt.C104_invf",
    "Vdt.C104_inv"
   ],
   "note": "Upper bounds for every argument of the domain, and for each bound an argument at which almost all of it is used (for the two functions with full double accuracy, about half of it)."
  },
  {
   "property": "C105",
   "status": "partial",
   "theorems": [
    "Vdt.C105_acos_partial",
    "Vdt.C105_acosf_partial",
    "Vdt.C105_zero",
    "Vdt.C105_violated"
   ],
   "note": "Violated: the arc cosine is the difference of pi/2 and the arc sine, and next to one half of the digits are wrong (C105_violated: relative error above 2^-28 at 1 - 2^-52, above 2^-14 for the float next to one). Proved instead: the relative error is at most 2^-50/sqrt(2(1-x)) (float: 2^-20/sqrt(2(1-x))), so at most 2^-24 (2^-8) everywhere and at most 2^-50 (2^-20) up to 1/2; the result is zero only at one."
  },
  {
   "property": "C106",
   "status": "proved",
   "theorems": [
    "Vdt.C106_exp",
    "Vdt.C106_expf",
    "Vdt.C106_log",
    "Vdt.C106_logf",
    "Vdt.C106_sin",
    "Vdt.C106_sinf",
    "Vdt.C106_cos",
    "Vdt.C106_cosf",
    "Vdt.C106_tan",
    "Vdt.C106_tanf",
    "Vdt.C106_tanh",
    "Vdt.C106_tanhf",
    "Vdt.C106_atan",
    "Vdt.C106_atanf",
    "Vdt.C106_asin",
    "Vdt.C106_asinf"
   ],
   "note": "Upper bound on the whole range and an explicit argument with an error above a quarter of it, for sixteen functions; the exact value is enclosed by Taylor sums with rational coefficients."
  },
  {
   "property": "C107",
   "status": "partial",
   "theorems": [
    "Vdt.Props.PyScripts.C107_tests",
    "Vdt.Props.PyScripts.C107_numpytest",
    "Vdt.Props.PyScripts.C107_numpytime",
    "Vdt.Props.PyScripts.C107_timing",
    "Vdt.Props.PyScripts.C107_violated",
    "Vdt.Props.PyScripts.C107_partial",
    "Vdt.Props.PyScripts.C107_repaired",
    "Vdt.Props.PyScripts.C107_order",
    "Vdt.Props.PyScripts.C107_untimed"
   ],
   "note": "Violated: nexf of vdtCtypesTest.py, timed as the float exponential of numpy, computes sines (C107_violated). Proved: all six scripts run to their end, and every other timed function computes the function of its heading with the library and in the precision of its name; with the obvious repair vdtCtypesTest.py meets the property too (C107_repaired). C107_order and C107_untimed show two latent errors of the scripts."
  },
  {
   "property": "C108",
   "status": "partial",
   "theorems": [
    "Vdt.Props.Reassoc.C108_cmake_partial",
    "Vdt.Props.Reassoc.C108_loss",
    "Vdt.Props.Reassoc.C108_violated"
   ],
   "note": "Violated: progs/numpyBootstrap.csh compiles with -Ofast, which permits the common factor of the argument reductions to be taken out; the sine then has errors above 2^-27 instead of 2^-51, the float cosine above 2^-13, the exponentials lose six and three digits (C108_loss, C108_violated). Proved: with the options of every CMake configuration without USERFLAGS, whatever is fused, the four functions keep their accuracy (C108_cmake_partial). Replacements of other expressions than the reductions are not modelled."
  },
  {
   "property": "C109",
   "status": "partial",
   "theorems": [
    "Vdt.C109_exp_partial",
    "Vdt.C109_expf_partial",
    "Vdt.C109_log_partial",
    "Vdt.C109_logf_partial",
    "Vdt.C109_sincos_partial",
    "Vdt.C109_sincosf_partial",
    "Vdt.C109_tan_partial",
    "Vdt.C109_tanf_partial",
    "Vdt.C109_tanh_partial",
    "Vdt.C109_tanhf_partial",
    "Vdt.C109_asin_partial",
    "Vdt.C109_asinf_partial",
    "Vdt.C109_atan_partial",
    "Vdt.C109_atanf_partial",
    "Vdt.C109_atan2_partial",
    "Vdt.C109_atan2f_partial",
    "Vdt.C109_isqrt_partial",
    "Vdt.C109_isqrtf_partial",
    "Vdt.C109_inv_partial",
    "Vdt.C109_invf_partial",
    "Vdt.C109_violated"
   ],
   "note": "Violated: fast_atan2f(0,0) divides zero by zero (the protection is commented out in include/atan2.h:109), the arc tangents of the infinities compute inf/inf, the tangents of arguments up to 2^-1024 (float: 2^-128) overflow (C109_violated). Proved: nothing is raised by any of the other functions on the ranges on which their accuracy is proved (C109_*_partial), in particular by fast_atan2 for all pairs of finite numbers and by fast_atan2f for all but (0,0). Underflow and inexact are not modelled."
  },
  {
   "property": "C110",
   "status": "partial",
   "theorems": [
    "Vdt.C110_asin_partial",
    "Vdt.C110_asinf_partial",
    "Vdt.C110_atan_partial",
    "Vdt.C110_atanf_partial",
    "Vdt.C110_tan_partial",
    "Vdt.C110_tanf_partial",
    "Vdt.C110_inv_partial",
    "Vdt.C110_invf_partial",
    "Vdt.C110_violated"
   ],
   "note": "Violated: the logarithms of negative numbers, fast_log above 10^307, the exponentials beyond their limits and the reciprocal square root of some negative numbers are NaN or infinite and nothing is raised (C110_violated). Proved for all arguments of the arc sines, arc cosines and reciprocals; for the arc tangents and tangents NaN is always announced (C110_*_partial)."
  },
  {
   "property": "C111",
   "status": "proved",
   "theorems": [
    "Vdt.Mt.C111_seeds",
    "Vdt.Mt.C111_seeds_old",
    "Vdt.Mt.C111_engine",
    "Vdt.Mt.C111_unit_interval"
   ],
   "note": "For the numbers before their conversion to the type of the pool; equality of all rounded numbers of two pools is not excluded."
  },
  {
   "property": "C112",
   "status": "partial",
   "theorems": [
    "Vdt.Txt.C112_pool_partial",
    "Vdt.Txt.C112_pool_file",
    "Vdt.Txt.C112_pool_exchange",
    "Vdt.Txt.C112_violated",
    "Vdt.Txt.C112_negative_seed",
    "Vdt.Txt.C112_response_scalar",
    "Vdt.Txt.C112_response_array_partial",
    "Vdt.Txt.C112_response_large",
    "Vdt.Txt.C112_response_file",
    "Vdt.Txt.C112_response_exchange",
    "Vdt.Txt.C112_comparison",
    "Vdt.Txt.C112_comparison_file"
   ],
   "note": "Violated: the seed of randomPool_old is unsigned, that of its replacement is signed and sign-extended, so that every negative seed gives other numbers (C112_violated, C112_negative_seed); from 2^32 inputs on the responses differ (C112_response_large), and fcnComparison_old reads none of the comparison files (C112_comparison_file). Proved: agreement for seeds below 2^31, scalar functions, fewer than 2^32 inputs for array functions, comparisons of equal lengths, and the exchange of pool and response files in both directions."
  },
  {
   "property": "C113",
   "status": "proved",
   "theorems": [
    "Vdt.C113_tanf",
    "Vdt.C113_sharp"
   ],
   "note": "For every contraction policy; for arguments whose tangent is neither below 2^-12 nor above 2^12."
  },
  {
   "property": "C114",
   "status": "partial",
   "theorems": [
    "Vdt.C114_plain",
    "Vdt.C114_exp",
    "Vdt.C114_expf_partial",
    "Vdt.C114_expf_violated",
    "Vdt.C114_log",
    "Vdt.C114_logf",
    "Vdt.C114_log_violated",
    "Vdt.C114_sincos_partial",
    "Vdt.C114_sincosf_partial",
    "Vdt.C114_sincos_violated",
    "Vdt.C114_tan_partial",
    "Vdt.C114_tanf_partial",
    "Vdt.C114_tan_violated",
    "Vdt.C114_tanh_partial",
    "Vdt.C114_tanhf_partial",
    "Vdt.C114_tanh_violated",
    "Vdt.C114_asin_partial",
    "Vdt.C114_asinf_partial",
    "Vdt.C114_atan_partial",
    "Vdt.C114_atanf_partial",
    "Vdt.C114_atan_violated",
    "Vdt.C114_atan2_partial",
    "Vdt.C114_atan2f_partial",
    "Vdt.C114_atan2_violated",
    "Vdt.C114_isqrt_partial",
    "Vdt.C114_isqrtf_partial",
    "Vdt.C114_inv_partial",
    "Vdt.C114_invf_partial",
    "Vdt.C114_isqrt_violated",
    "Vdt.C114_isqrtf_violated",
    "Vdt.C114_violated"
   ],
   "note": "Violated by isqrt and inv for normal arguments whose half is not normal (C114_isqrt_violated, C114_violated), by tanh for normal arguments near the smallest one (C114_tanh_violated), by expf where its value is subnormal and by log for negative subnormal numbers. Proved: bit-identical results for exp, log and logf, for expf where its value is normal, for sine, cosine and tangent up to 2^27 and 8192, for tanh from 2^-1018 (2^-122), for asin, acos and atan at all normal arguments, for atan2 unless the quotient is tiny and the result near 0, for isqrt and inv where the half of the argument and the result are normal."
  },
  {
   "property": "C115",
   "status": "proved",
   "theorems": [
    "Vdt.C115_exp",
    "Vdt.C115_expf",
    "Vdt.C115_atan",
    "Vdt.C115_atanf",
    "Vdt.C115_log",
    "Vdt.C115_logf",
    "Vdt.C115_sincos",
    "Vdt.C115_sincosf",
    "Vdt.C115_asin",
    "Vdt.C115_asinf",
    "Vdt.C115_tanh",
    "Vdt.C115_tanhf",
    "Vdt.C115_isqrt",
    "Vdt.C115_isqrtf",
    "Vdt.C115_inv",
    "Vdt.C115_invf",
    "Vdt.C115_tan",
    "Vdt.C115_tanf",
    "Vdt.C115_atan2",
    "Vdt.C115_atan2f",
    "Vdt.C115_log_one",
    "Vdt.C115_directions",
    "Vdt.C115_upward",
    "Vdt.C115_downward",
    "Vdt.C115_towardZero",
    "Vdt.C115_nearest",
    "Vdt.C115_convert",
    "Vdt.C115_differs"
   ],
   "note": "For exp, log, sincos, asin, acos, atan, atan2, tan, tanh, isqrt and inv (all the functions of the library) in both precisions."
  },
  {
   "property": "C116",
   "status": "partial",
   "theorems": [
    "Vdt.C116_witness",
    "Vdt.C116_violated",
    "Vdt.C116_range_partial",
    "Vdt.C116_sincos_partial",
    "Vdt.C116_asin_partial",
    "Vdt.C116_tanh_partial",
    "Vdt.C116_atan2_partial"
   ],
   "note": "Violated rounding upward by the cosine (above 1 at 1e-9), acos(1) (negative), asin(1) and atan(1e300) (above half of pi): C116_violated, C116_witness. Proved: exponentials are positive, arc tangents have the sign of the argument and exceed half of pi by at most 10.2*2^-53 (float: 16*2^-24), sine and cosine exceed 1 by at most 5.7*2^-53 (float: 4.1*2^-24), arc sine and arc cosine leave their ranges by at most 5.2*2^-53 and 9.8*2^-53 (float: 8.4*2^-24 and 13.2*2^-24), the angle of two arguments by at most 13.8*2^-53 (float: 15.8*2^-24); the hyperbolic tangent stays in [-1,1] without exception."
  },
  {
   "property": "C117",
   "status": "partial",
   "theorems": [
    "Vdt.C117_witness",
    "Vdt.C117_violated",
    "Vdt.C117_float",
    "Vdt.C117_acos_half",
    "Vdt.C117_exp_partial",
    "Vdt.C117_log_partial",
    "Vdt.C117_atan_partial",
    "Vdt.C117_asin_partial",
    "Vdt.C117_tanh_partial",
    "Vdt.C117_sincos_partial",
    "Vdt.C117_atan2_partial",
    "Vdt.C117_tan_partial",
    "Vdt.C117_newton_partial"
   ],
   "note": "Violated: rounding upward gives less than rounding downward for sin(2.375), cos(0.8125), tanh(0.0625), asin(0.68), acos(1) and atan2(1.0625,1) (C117_violated, C117_witness), tanhf(0.25) and asinf(0.75) (C117_float), and both runs agree on acos(0.5), which is irrational (C117_acos_half). Proved: for all functions in both precisions, two runs in any directions enclose the real value after both results are widened by the error bounds of C115, taken relative to the computed results."
  }
 ]
}
