{
 "claims": [
  {
   "property": "C01",
   "status": "proved",
   "theorems": [
    "BI.C01_add",
    "BI.C01_add_num_left",
    "BI.C01_add_num_right"
   ],
   "note": "All configurations: platform, rounding kind, checking policy, NDEBUG; arbitrary base type with directed operations. Instances for every IEEE format and for rationals."
  },
  {
   "property": "C02",
   "status": "proved",
   "theorems": [
    "BI.C02_sub",
    "BI.C02_sub_num_left",
    "BI.C02_sub_num_right",
    "BI.C02_neg"
   ],
   "note": "Subtraction (with number operands) and negation."
  },
  {
   "property": "C03",
   "status": "proved",
   "theorems": [
    "BI.C03_mul",
    "BI.C03_mul_num_left",
    "BI.C03_mul_num_right"
   ],
   "note": "Number operands must be finite."
  },
  {
   "property": "C04",
   "status": "partial",
   "theorems": [
    "BI.C04_div_partial",
    "BI.C04_div_num_left_partial",
    "BI.C04_div_num_right",
    "BI.C04_div_zero",
    "BI.C04_div_zero_num_left",
    "BI.C04_div_zero_num_right",
    "BI.C04_violated"
   ],
   "note": "Includes divisors that contain zero (base type with infinities) and the divisor [0,0]. Missing: a divisor that contains zero, in a base type without infinities: an assertion stops the program in a debug build (C57_div); with NDEBUG the enclosure fails (C04_violated)."
  },
  {
   "property": "C05",
   "status": "partial",
   "theorems": [
    "BI.C05_add",
    "BI.C05_sub",
    "BI.C05_mul",
    "BI.C05_div",
    "BI.C05_sub_num",
    "BI.C05_mul_num",
    "BI.C05_div_num",
    "BI.C05_add_num_partial",
    "BI.C05_add_num_order"
   ],
   "note": "All operators with interval operands (including x op= x) and with numbers, every state and failure outcome. The number form of += is partial: with checking_catch_nan, x empty and t NaN, x + t throws where x += t gives the empty interval (C05_add_num_order); equality is proved otherwise."
  },
  {
   "property": "C06",
   "status": "partial",
   "theorems": [
    "BI.C06_call_partial",
    "BI.C06_program_partial",
    "BI.C06_nth_root_leaks"
   ],
   "note": "Proved for every call except nth_root, and for all client programs with regions; nth_root violates the claim: witness C06_nth_root_leaks."
  },
  {
   "property": "C07",
   "status": "partial",
   "theorems": [
    "BI.C07_unprotected_partial",
    "BI.C07_any_mode_partial",
    "BI.C07_int"
   ],
   "note": "For programs whose integer and foreign-type conversions do not depend on the rounding direction; C07_int is the counterexample otherwise. nth_root is excluded outside regions (it has no rounding object)."
  },
  {
   "property": "C08",
   "status": "partial",
   "theorems": [
    "BI.C08_call_partial",
    "BI.C08_program_partial",
    "BI.C08_orders",
    "BI.C08_int_in_region",
    "BI.C08_root_order"
   ],
   "note": "For every call except nth_root, and for programs with regions made of direction-independent calls; C08_int_in_region shows why the condition is needed with the switching policy. The oracle realises all orders of two arguments and of the four products of a mixed-sign product: C08_orders. nth_root called in the direction it expects, with an index that the type represents, returns the same value in every order of its operands; only the exception may differ (C08_root_order)."
  },
  {
   "property": "C09",
   "status": "partial",
   "theorems": [
    "BI.C09_binary",
    "BI.C09_binary_num_left",
    "BI.C09_binary_num_right",
    "BI.C09_two_numbers",
    "BI.C09_unary",
    "BI.C09_transcendental",
    "BI.C09_pure",
    "BI.C09_pure_unary",
    "BI.C09_pure_num",
    "BI.C09_hull",
    "BI.C09_hull_num",
    "BI.C09_numbers",
    "BI.C09_parts",
    "BI.C09_integer",
    "BI.C09_construct",
    "BI.C09_widen_nan",
    "BI.C09_strict_throws"
   ],
   "note": "Every function of the library that takes an interval or a number: arithmetic, mixed integer arithmetic, transcendental functions, two-part division, min, max, intersect, constructors, widen by NaN; bounds, norm, median of an empty interval are NaN, the width is 0. NaN numbers: policies that test numbers and do not throw (C11 otherwise). The only exception to the claim is hull, which ignores an empty operand by design (C09_hull, C09_hull_num, C24)."
  },
  {
   "property": "C10",
   "status": "partial",
   "theorems": [
    "BI.C10_binary",
    "BI.C10_number_left",
    "BI.C10_number_right",
    "BI.C10_unary",
    "BI.C10_pow",
    "BI.C10_intersect",
    "BI.C10_expression_partial",
    "BI.C10_debug_partial",
    "BI.C10_debug_order",
    "BI.C10_infinite_point",
    "BI.C10_widen_negative",
    "BI.C10_fmod_zero",
    "BI.C10_atanh"
   ],
   "note": "Proved for every operation of the expression language (each delivers a proper interval or throws, according to whether the exact image is empty) and for whole expressions, including the elementary functions other than atanh; in debug builds for types without infinities an assertion is the third possibility (C10_debug_partial, C10_debug_order). The claim fails for operands like [inf,inf], for widen with a negative number, fmod by zero and atanh([-2,-1]) (witnesses), and in release builds without infinities (C57_release); constructors are under C36."
  },
  {
   "property": "C11",
   "status": "partial",
   "theorems": [
    "BI.C11_catch_left",
    "BI.C11_catch_right",
    "BI.C11_catch_two",
    "BI.C11_empty_first",
    "BI.C11_widen",
    "BI.C11_not_nan"
   ],
   "note": "Proved for all operators and functions with a number operand. VIOLATIONS: when the number is the right operand of -, /, fmod the interval is tested first, and an empty one gives the empty interval instead of the exception (C11_empty_first); widen does not look at its second argument (C11_widen)."
  },
  {
   "property": "C12",
   "status": "proved",
   "theorems": [
    "BI.C12_square",
    "BI.C12_sqrt",
    "BI.C12_inverse",
    "BI.C12_inverse_nz",
    "BI.C12_abs",
    "BI.C12_add",
    "BI.C12_sub",
    "BI.C12_mul",
    "BI.C12_div",
    "BI.C12_add_num",
    "BI.C12_add_num'",
    "BI.C12_sub_num",
    "BI.C12_sub_num'",
    "BI.C12_mul_num",
    "BI.C12_mul_num'",
    "BI.C12_div_num",
    "BI.C12_div_num'"
   ],
   "note": "Four operations with number overloads, square, sqrt, abs, inverse. Division by intervals that contain zero is C52."
  },
  {
   "property": "C13",
   "status": "partial",
   "theorems": [
    "BI.C13_square",
    "BI.C13_sqrt",
    "BI.C13_inverse",
    "BI.C13_inverse_nz",
    "BI.C13_abs",
    "BI.C13_pow",
    "BI.C13_elementary",
    "BI.C13_add",
    "BI.C13_sub",
    "BI.C13_mul",
    "BI.C13_div_nz",
    "BI.C13_div",
    "BI.C13_cos_not_isotone",
    "BI.C13_tan_not_isotone"
   ],
   "note": "Four operations, square, sqrt, abs, inverse, pow, exp, log, asin, acos, atan, sinh, cosh, tanh, asinh, acosh, atanh; negation is exact (C02_neg). VIOLATION: cos and tan (hence sin, which calls cos) are not isotone, because the rounding of the multiple of the period depends on the lower bound (C13_cos_not_isotone, C13_tan_not_isotone, in double with a correctly rounded library)."
  },
  {
   "property": "C14",
   "status": "partial",
   "theorems": [
    "BI.C14_expression_partial",
    "BI.C14_region_partial",
    "BI.C14_debug_partial",
    "BI.C14_narrow_partial",
    "BI.C14_violated"
   ],
   "note": "All expressions over + - * / unary + neg abs square sqrt multiplicative_inverse pow min max hull intersect and the elementary functions (exp, log, trigonometric, hyperbolic and their inverses), with interval and number operands, all points where the real expression is defined; protected and unprotected. Nested calls of sin/cos: the result is the same for every limit above some N. Debug builds for types without infinities: an enclosure or an assertion (C14_debug_partial). Missing: pow by INT_MIN, which overflows (C47_min); types without infinities with NDEBUG, where the claim is false (C14_violated)."
  },
  {
   "property": "C15",
   "status": "partial",
   "theorems": [
    "BI.C15_square",
    "BI.C15_sqrt",
    "BI.C15_sqrt_neg",
    "BI.C15_inverse_partial",
    "BI.C15_inverse_zero",
    "BI.C15_abs",
    "BI.C15_violated"
   ],
   "note": "Also: inverse of [0,0] is empty or throws. Missing: the inverse of an interval that contains zero in a base type without infinities (C57_inverse; C15_violated with NDEBUG)."
  },
  {
   "property": "C16",
   "status": "proved",
   "theorems": [
    "BI.C16_square"
   ],
   "note": ""
  },
  {
   "property": "C17",
   "status": "partial",
   "theorems": [
    "BI.C17_cover_partial",
    "BI.C17_sharp",
    "BI.C17_part2_false",
    "BI.C17_violated"
   ],
   "note": "Also sharpness of both parts. Missing: a divisor that contains zero, in a base type without infinities (C17_violated with NDEBUG)."
  },
  {
   "property": "C18",
   "status": "partial",
   "theorems": [
    "BI.C18_fmod_partial",
    "BI.C18_fmod_num_right_partial",
    "BI.C18_fmod_num_left_partial",
    "BI.C18_traditional_partial",
    "BI.C18_not_traditional",
    "BI.C18_overflow",
    "BI.C18_large"
   ],
   "note": "C18_fmod_partial, C18_fmod_num_right_partial, C18_fmod_num_left_partial: n is the floor of the quotient rounded downwards, the result is the tightest enclosure that one rounding of n*y and one of the difference allow, and its lower bound is in [0, y.upper()) if the floor of the quotient is a number of the base type; C18_traditional_partial: positive singletons. Missing: quotients below the smallest finite number, where the code violates the claim (C18_overflow). C18_large and C18_not_traditional: the documented range and the agreement with the traditional fmod fail for large quotients."
  },
  {
   "property": "C19",
   "status": "partial",
   "theorems": [
    "BI.C19_enclose_partial",
    "BI.C19_smallest_partial",
    "BI.C19_range_partial",
    "BI.C19_outside",
    "BI.C19_atanh_pole",
    "BI.C19_opp",
    "BI.C19_opp_asin",
    "BI.C19_opp_acosh",
    "BI.C19_opp_atan_one"
   ],
   "note": "For exp, log, asin, acos, atan, sinh, cosh, tanh, asinh, acosh, atanh (all but sin, cos, tan, which are C20): enclosure, smallest enclosure, range and the empty case for rounded_transc_std, and for rounded_transc_opp except where the claim fails. It fails for the functions written with a double negation in rounded_transc_opp (C19_opp, C19_opp_asin, C19_opp_acosh; concretely atan([1,1]) in double, C19_opp_atan_one), and atanh of an interval that meets the domain only in -1 or 1 (no point of the open domain) with a library returning an infinity (C19_atanh_pole)."
  },
  {
   "property": "C20",
   "status": "partial",
   "theorems": [
    "BI.C20_cos",
    "BI.C20_cos_range",
    "BI.C20_sin",
    "BI.C20_sin_range",
    "BI.C20_tan_partial",
    "BI.C20_tan_opp",
    "BI.C20_cos_depth",
    "BI.C20_sin_depth"
   ],
   "note": "cos and sin: termination, independence of the recursion limit and enclosure for every bracketing library and every non-empty interval, range [-1,1] for correctly rounded libraries, with both transcendental roundings. tan: enclosure and the whole line at poles when the library rounds the tangent in the right direction; with rounded_transc_opp this is not so and the claim fails for the smallest positive double (C20_tan_opp)."
  },
  {
   "property": "C21",
   "status": "proved",
   "theorems": [
    "BI.C21_generic",
    "BI.C21_mode",
    "BI.C21_float",
    "BI.C21_double",
    "BI.C21_long_double",
    "BI.C21_long_double_not_neighbours"
   ],
   "note": "Bounds evaluated in any rounding direction; for float and double they are the representable neighbours of pi, pi/2 and 2 pi (smallest enclosure); long double and the generic version bracket. C21_long_double_not_neighbours: the long double constants are not sharp."
  },
  {
   "property": "C22",
   "status": "proved",
   "theorems": [
    "BI.C22_empty",
    "BI.C22_zero_in",
    "BI.C22_in",
    "BI.C22_in_nan",
    "BI.C22_subset",
    "BI.C22_proper_subset",
    "BI.C22_overlap",
    "BI.C22_singleton",
    "BI.C22_equal"
   ],
   "note": "For non-empty intervals and, with policies that represent empty intervals, empty ones. A NaN argument of `in`: false (C22_in_nan), or an exception if the policy throws on NaN (C11_catch_left)."
  },
  {
   "property": "C23",
   "status": "proved",
   "theorems": [
    "BI.C23_intersect",
    "BI.C23_disjoint"
   ],
   "note": ""
  },
  {
   "property": "C24",
   "status": "partial",
   "theorems": [
    "BI.C24_hull",
    "BI.C24_hull_num",
    "BI.C24_hull_two",
    "BI.C24_hull_nan_partial",
    "BI.C24_violated"
   ],
   "note": "Intervals, an interval and a number, two numbers; empty arguments are ignored, NaN arguments by policies that test for NaN. The default policy does not, and hull(NaN, [1,2]) is [NaN,NaN]: C24_violated. If both arguments are empty the result is empty (C09_hull)."
  },
  {
   "property": "C25",
   "status": "partial",
   "theorems": [
    "BI.C25_of_median",
    "BI.C25_bisect_fl_partial",
    "BI.C25_bisect_rat",
    "BI.C25_overflow"
   ],
   "note": "Fails when the sum of the bounds overflows: C25_overflow is a counterexample for double. Proved for all floating-point intervals whose bounds have a sum within range, and for rationals."
  },
  {
   "property": "C26",
   "status": "proved",
   "theorems": [
    "BI.C26_median_fl",
    "BI.C26_median_rat",
    "BI.C26_width",
    "BI.C26_width_tight",
    "BI.C26_empty"
   ],
   "note": "Median: floating point without overflow of the sum, rationals. Width: all types; with correct rounding the smallest upper bound."
  },
  {
   "property": "C27",
   "status": "proved",
   "theorems": [
    "BI.C27_widen",
    "BI.C27_negative"
   ],
   "note": "C27_negative: a negative radius may silently invert the bounds."
  },
  {
   "property": "C28",
   "status": "proved",
   "theorems": [
    "BI.C28_abs",
    "BI.C28_norm"
   ],
   "note": ""
  },
  {
   "property": "C29",
   "status": "proved",
   "theorems": [
    "BI.C29_max",
    "BI.C29_min",
    "BI.C29_max_num",
    "BI.C29_min_num"
   ],
   "note": ""
  },
  {
   "property": "C30",
   "status": "proved",
   "theorems": [
    "BI.C30_cmp",
    "BI.C30_cmp_num",
    "BI.C30_empty_left",
    "BI.C30_empty_right",
    "BI.C30_empty_num",
    "BI.C30_nan"
   ],
   "note": "Both overloads; operands with different policies; number operands finite; empty operands and NaN throw."
  },
  {
   "property": "C31",
   "status": "proved",
   "theorems": [
    "BI.C31_tri",
    "BI.C31_tri_num",
    "BI.C31_empty",
    "BI.C31_empty_num",
    "BI.C31_nan"
   ],
   "note": "Both overloads, number operands finite; empty operands throw comparison_error, NaN throws when the policy sees it."
  },
  {
   "property": "C32",
   "status": "proved",
   "theorems": [
    "BI.C32_certain",
    "BI.C32_possible",
    "BI.C32_certain_num",
    "BI.C32_possible_num",
    "BI.C32_empty",
    "BI.C32_empty_num",
    "BI.C32_nan"
   ],
   "note": "Both overloads, number operands finite; empty operands throw comparison_error, NaN throws when the policy sees it."
  },
  {
   "property": "C33",
   "status": "proved",
   "theorems": [
    "BI.C33_cer",
    "BI.C33_dual",
    "BI.C33_pos",
    "BI.C33_cer_num",
    "BI.C33_cer_num'",
    "BI.C33_pos_num",
    "BI.C33_pos_num'"
   ],
   "note": "All three overloads of the twelve functions and the duality."
  },
  {
   "property": "C34",
   "status": "proved",
   "theorems": [
    "BI.C34_lt_iff",
    "BI.C34_order",
    "BI.C34_num",
    "BI.C34_empty",
    "BI.C34_empty_num",
    "BI.C34_nan"
   ],
   "note": "Irreflexive, transitive, total up to set equality; other five comparisons derived; characterisation by bounds."
  },
  {
   "property": "C35",
   "status": "proved",
   "theorems": [
    "BI.C35_set",
    "BI.C35_subset",
    "BI.C35_num"
   ],
   "note": "<= and >= only exist for operands with the same policies."
  },
  {
   "property": "C36",
   "status": "partial",
   "theorems": [
    "BI.C36_default",
    "BI.C36_num",
    "BI.C36_nan",
    "BI.C36_nan_caught",
    "BI.C36_nan_kept",
    "BI.C36_bounds",
    "BI.C36_bounds_empty",
    "BI.C36_bounds_nan",
    "BI.C36_bounds_nan_caught",
    "BI.C36_strict",
    "BI.C36_copy",
    "BI.C36_policy",
    "BI.C36_src",
    "BI.C36_src_smallest",
    "BI.C36_src_nan",
    "BI.C36_src2",
    "BI.C36_src2_smallest",
    "BI.C36_itv",
    "BI.C36_itv_smallest",
    "BI.C36_itv_empty",
    "BI.C36_itv_fl",
    "BI.C36_src_fl",
    "BI.C36_src_int_partial",
    "BI.C36_src_unsigned",
    "BI.C36_unsigned",
    "BI.C36_least_int",
    "BI.C36_mixed_compare"
   ],
   "note": "All constructors: numbers, bounds, NaN, copies, policy conversions, floating-point numbers and intervals of other formats, unsigned integers. Missing because violated: the least signed integer with the default rounding (C36_least_int, undefined behaviour), mixed signed/unsigned bounds (C36_mixed_compare), NaN with the default checking (C36_nan_kept)."
  },
  {
   "property": "C37",
   "status": "partial",
   "theorems": [
    "BI.C37_assign_num",
    "BI.C37_assign_itv",
    "BI.C37_assign_pol",
    "BI.C37_set_empty",
    "BI.C37_set_whole",
    "BI.C37_assign_bounds_partial",
    "BI.C37_assign_src_partial",
    "BI.C37_assign_conv_partial",
    "BI.C37_assign_alias",
    "BI.C37_conv_throws"
   ],
   "note": "Strong exception safety for assignment of numbers, intervals, set_empty, set_whole; conversion and two-number assignment partial. Violations proved: assign(l,u) with aliased bound (C37_assign_alias), assignment with a throwing second conversion (C37_conv_throws)."
  },
  {
   "property": "C38",
   "status": "proved",
   "theorems": [
    "BI.C38_same",
    "BI.C38_operations",
    "BI.C38_int_zero"
   ],
   "note": ""
  },
  {
   "property": "C39",
   "status": "proved",
   "theorems": [
    "BI.C39_round",
    "BI.C39_add",
    "BI.C39_sub",
    "BI.C39_mul",
    "BI.C39_div",
    "BI.C39_sqrt",
    "BI.C39_rint",
    "BI.C39_formats",
    "BI.C39_near_differs",
    "BI.C39_tight",
    "BI.C39_env"
   ],
   "note": "The x87 and m68k style of computing in a register of a wider format: for directed rounding with the right direction set, computing in the wide format and storing in the narrow one equals computing in the narrow one, for all operations; false for round-to-nearest (C39_near_differs)."
  },
  {
   "property": "C40",
   "status": "partial",
   "theorems": [
    "BI.C40_x86gcc",
    "BI.C40_x86fast",
    "BI.C40_bcc",
    "BI.C40_ppc",
    "BI.C40_sparc",
    "BI.C40_alpha",
    "BI.C40_c99",
    "BI.C40_msvc_partial",
    "BI.C40_msvc_reserved",
    "BI.C40_msvc_conv_partial",
    "BI.C40_msvc_conv_back_partial",
    "BI.C40_x86_constants",
    "BI.C40_no_traps",
    "BI.C40_alpha_traps",
    "BI.C40_x64_mask"
   ],
   "note": "x86 (gcc, Borland, Microsoft, common), PowerPC, SPARC, Alpha, C99. C40_no_traps: no exception is trapped after a switch (x87, Borland, Microsoft, PowerPC, SPARC); C40_x64_mask: test/msvc_x64_flags.cpp. C40_msvc_reserved: restoring is not faithful if the reserved precision value is set."
  },
  {
   "property": "C41",
   "status": "proved",
   "theorems": [
    "BI.C41_add",
    "BI.C41_sub",
    "BI.C41_mul",
    "BI.C41_div"
   ],
   "note": "+, -, *, and / by intervals without zero."
  },
  {
   "property": "C42",
   "status": "partial",
   "theorems": [
    "BI.C42_same",
    "BI.C42_add",
    "BI.C42_add_left",
    "BI.C42_sub",
    "BI.C42_sub_left",
    "BI.C42_mul",
    "BI.C42_mul_left",
    "BI.C42_div",
    "BI.C42_div_zero",
    "BI.C42_div_left_partial",
    "BI.C42_represented",
    "BI.C42_not_represented",
    "BI.C42_violated"
   ],
   "note": "All eight overloads, for every integer the base type represents; interval<float> + 16777217 shows the condition is needed. Missing: a divisor that contains zero, in a base type without infinities (C42_violated with NDEBUG)."
  },
  {
   "property": "C43",
   "status": "partial",
   "theorems": [
    "BI.C43_empty",
    "BI.C43_index",
    "BI.C43_encloses",
    "BI.C43_encloses_partial",
    "BI.C43_encloses_index",
    "BI.C43_encloses_index_partial",
    "BI.C43_near",
    "BI.C43_infinite",
    "BI.C43_tiny",
    "BI.C43_exact_diverges",
    "BI.C43_encloses_any_order",
    "BI.C43_encloses_any_order_partial"
   ],
   "note": "Any floating-point format with p + 2 <= emax and both switching policies, called in the direction the policy expects (C43_encloses, C43_encloses_partial) or inside a region: termination with a result independent of the fuel and enclosure. With the default checking policy for every interval and every index below 2^p (for double: every int); with policies that see NaN only for bounds that are finite and zero or with representable inverse, since otherwise the result is NaN or an exception (C43_infinite, C43_tiny). For an index with more digits than the base type (int above 2^24 for float) the conversion rounds it in the direction in force; the result may then depend on the state but still encloses the roots and the loop ends, for every format with p >= 4 and every index up to its largest number (C43_encloses_index, C43_encloses_index_partial). The same with the order of the operands left to the implementation (C43_encloses_any_order, C43_encloses_any_order_partial). Even roots of negative intervals are empty, non-positive indices trip the assertion. In to-nearest direction the enclosure is lost (C43_near; the changed mode is C06_nth_root_leaks), and on exact rationals the loop never ends (C43_exact_diverges)."
  },
  {
   "property": "C44",
   "status": "proved",
   "theorems": [
    "BI.C44_output",
    "BI.C44_empty",
    "BI.C44_text",
    "BI.C44_nan_written"
   ],
   "note": "For every stream and every interval the policy admits. Stream formatting state is part of the abstract stream. C44_nan_written: intervals with NaN bounds kept by the default policy are written as [nan,nan]."
  },
  {
   "property": "C45",
   "status": "partial",
   "theorems": [
    "BI.C45_points",
    "BI.C45_infinity",
    "BI.C45_quiet_nan",
    "BI.C45_quiet_nan_double",
    "BI.C45_infinity_none"
   ],
   "note": "min, max, epsilon, denorm_min and infinity for all base types. quiet_NaN terminates the program under policies that forbid empty intervals, which include the default (C45_quiet_nan, C45_quiet_nan_double); infinity terminates for types without one (C45_infinity_none). signaling_NaN does not compile when instantiated (misspelt bl::signaling_Nan) and is not modelled."
  },
  {
   "property": "C46",
   "status": "partial",
   "theorems": [
    "BI.C46_add_partial",
    "BI.C46_sub_partial",
    "BI.C46_mul_partial",
    "BI.C46_div_partial",
    "BI.C46_div_truncates",
    "BI.C46_div_zero_inside",
    "BI.C46_short_wraps",
    "BI.C46_unsigned_wraps"
   ],
   "note": "Signed types of at least the width of int, without overflow in add, sub, mul. Division truncates (C46_div_truncates), narrow and unsigned types wrap (C46_short_wraps, C46_unsigned_wraps), so containment fails there. C46_div_partial: / by an interval without zero returns the smallest interval of integers around the truncated quotients, or overflows."
  },
  {
   "property": "C47",
   "status": "partial",
   "theorems": [
    "BI.C47_pow_partial",
    "BI.C47_zero",
    "BI.C47_zero_zero",
    "BI.C47_min"
   ],
   "note": "The property fails for pow([0,0],0), which is empty (C47_zero_zero); everything else is proved, including undefined behaviour on INT_MIN."
  },
  {
   "property": "C48",
   "status": "partial",
   "theorems": [
    "BI.C48_demo1_notices",
    "BI.C48_demo1'_notices",
    "BI.C48_demo2_notices",
    "BI.C48_demo1_program",
    "BI.C48_demo1'_program",
    "BI.C48_demo2_program",
    "BI.C48_find_zeros1_ends",
    "BI.C48_find_zeros2_ends",
    "BI.C48_newton1_ends",
    "BI.C48_newton2_ends",
    "BI.C48_newton1_program",
    "BI.C48_newton2_program",
    "BI.C48_find_zeros1_diverges",
    "BI.C48_newton1_diverges",
    "BI.C48_newton1",
    "BI.C48_newton2",
    "BI.C48_newton1_quintic",
    "BI.C48_newton2_quintic",
    "BI.C48_find_zeros1",
    "BI.C48_find_zeros2",
    "BI.C48_find_zeros1_rat",
    "BI.C48_find_zeros2_rat",
    "BI.C48_horner",
    "BI.C48_horner_empty",
    "BI.C48_filter1",
    "BI.C48_filter1_exact",
    "BI.C48_filter2_exact",
    "BI.C48_filter2_partial",
    "BI.C48_filter2_nan"
   ],
   "note": "Horner evaluation encloses (C48_horner); det_sign_algo1 is right, and complete with exact arithmetic; det_sign_algo2 is right when the approximate inverses are finite, and decides the sign with rational numbers (C48_filter2_exact); both Newton programs and both find_zeros programs keep every root, return only narrow parts of the start, restore the mode, and throw nothing; find_zeros and the second Newton program end when the width asked for exceeds four steps of the numbers in the range (C48_find_zeros1_ends, C48_find_zeros2_ends, C48_newton2_ends), the first Newton program if moreover the enclosures separate zeros of the function from zeros of its derivative (C48_newton1_ends); newton-raphson.cpp returns with its own data (C48_newton1_program, C48_newton2_program), and so does findroot_demo.cpp, for its three functions, if the library functions give directed approximations (C48_demo1_program, C48_demo1'_program, C48_demo2_program). VIOLATIONS: det_sign_algo2 certifies a wrong sign when the factorisation overflows (C48_filter2_nan); outside these conditions find_zeros and the first Newton program run forever (C48_find_zeros1_diverges, C48_newton1_diverges)."
  },
  {
   "property": "C49",
   "status": "proved",
   "theorems": [
    "BI.C49_add_comm",
    "BI.C49_mul_comm",
    "BI.C49_plus",
    "BI.C49_neg_neg",
    "BI.C49_sub_neg"
   ],
   "note": "As sets."
  },
  {
   "property": "C50",
   "status": "proved",
   "theorems": [
    "BI.C50_add",
    "BI.C50_sub",
    "BI.C50_mul",
    "BI.C50_div",
    "BI.C50_div_zero"
   ],
   "note": ""
  },
  {
   "property": "C51",
   "status": "partial",
   "theorems": [
    "BI.C51_compare",
    "BI.C51_lexicographic",
    "BI.C51_explicit",
    "BI.C51_set",
    "BI.C51_add",
    "BI.C51_add'",
    "BI.C51_sub",
    "BI.C51_sub'",
    "BI.C51_mul",
    "BI.C51_mul'",
    "BI.C51_div",
    "BI.C51_div'",
    "BI.C51_utility"
   ],
   "note": "The four operations, hull, min, max and the default, certain, possible, tribool, explicit and lexicographic comparisons. VIOLATION: the set comparisons throw for every number operand (C51_set; documented behaviour). The library has no number overload of intersect."
  },
  {
   "property": "C52",
   "status": "partial",
   "theorems": [
    "BI.C52_div_partial",
    "BI.C52_div_num",
    "BI.C52_gap",
    "BI.C52_not_smallest"
   ],
   "note": "The documentation's claim fails for dividends [a, 0]; C52_gap says what is returned there."
  },
  {
   "property": "C53",
   "status": "partial",
   "theorems": [
    "BI.C53_grammar",
    "BI.C53_failed",
    "BI.C53_reject",
    "BI.C53_std",
    "BI.C53_sngl",
    "BI.C53_empty",
    "BI.C53_read_ub"
   ],
   "note": "Grammar of the reader, both directions (C53_grammar), rejected texts (C53_reject), round trips (C53_std, C53_sngl). Violations proved: empty intervals are written as [] which the reader rejects (C53_empty), truncated texts and failed streams lead to a copy of an indeterminate variable (C53_read_ub, C53_failed). Partial because the code violates the claim in these cases."
  },
  {
   "property": "C54",
   "status": "partial",
   "theorems": [
    "BI.C54_prec_restored",
    "BI.C54_prec_special",
    "BI.C54_wdth_exact",
    "BI.C54_wdth_misses",
    "BI.C54_wide",
    "BI.C54_wide_special",
    "BI.C54_prec",
    "BI.C54_prec_ub"
   ],
   "note": "io_wide encloses (C54_wide, C54_wide_special), io_prec on bounded intervals (C54_prec, C54_prec_special, C54_prec_restored), io_wdth exact for rationals (C54_wdth_exact). Violations proved: the ball of io_wdth misses a point in double precision (C54_wdth_misses), io_prec converts NaN to int for unbounded intervals (C54_prec_ub). The decimal rounding done by the stream itself is not modelled."
  },
  {
   "property": "C55",
   "status": "partial",
   "theorems": [
    "BI.C55_down",
    "BI.C55_up",
    "BI.C55_exact_partial",
    "BI.C55_opp",
    "BI.C55_not_floor",
    "BI.C55_fmod"
   ],
   "note": "Floor and ceiling up to the precision of the narrow format (C55_exact_partial); in general the nearest integers of that format on the right side (C55_down, C55_up, C55_opp). Violations proved: int_down(2^53 + 1) is 2^53 (C55_not_floor), and fmod by 1 returns 1 (C55_fmod)."
  },
  {
   "property": "C56",
   "status": "partial",
   "theorems": [
    "BI.C56_same_partial",
    "BI.C56_invoke",
    "BI.C56_smallest",
    "BI.C56_periodic",
    "BI.C56_atan_one"
   ],
   "note": "C56_same_partial: program-level equality with rounded_transc_std also with conversions from other types of values that have an opposite (all floating-point numbers, signed integers other than 0 and the least one; see C38_int_zero). C56_smallest, C56_periodic: tight monotone functions and enclosures by the periodic ones. C56_invoke: double rounding in one direction is correct rounding. C56_atan_one contrasts with the failure C19_opp_atan_one. MPFR's correct rounding is a hypothesis (MpfrOk), met by ideal_mpfr."
  },
  {
   "property": "C57",
   "status": "partial",
   "theorems": [
    "BI.C57_whole",
    "BI.C57_div",
    "BI.C57_div_zero",
    "BI.C57_div_num",
    "BI.C57_inverse",
    "BI.C57_pow",
    "BI.C57_release"
   ],
   "note": "Debug builds: proved for whole, / (by intervals and numbers, of numbers), multiplicative_inverse and pow: C57_whole, C57_div, C57_div_zero, C57_div_num, C57_inverse, C57_pow. Partial because the code violates the claim with NDEBUG: C57_release."
  },
  {
   "property": "C58",
   "status": "partial",
   "theorems": [
    "BI.C58_call",
    "BI.C58_program",
    "BI.C58_functions",
    "BI.C58_comparisons",
    "BI.C58_mute",
    "BI.C58_ieee",
    "BI.C58_pow_own",
    "BI.C58_nth_root_own",
    "BI.C58_violated"
   ],
   "note": "C58_call, C58_program: every outcome of every call and program is in MayRaise (policies and base type) or is one of the function's own; C58_functions, C58_comparisons: the functions that do not round; C58_mute, C58_ieee: with policies that raise nothing every other call returns. Partial because the code raises by itself: C58_violated (comparison of overlapping intervals, pow with INT_MIN, nth_root with index <= 0), C58_pow_own, C58_nth_root_own."
  },
  {
   "property": "C59",
   "status": "partial",
   "theorems": [
    "BI.C59_root_of_pow_partial",
    "BI.C59_pow_of_root_partial",
    "BI.C59_infinite"
   ],
   "note": "C59_root_of_pow_partial, C59_pow_of_root_partial: binary floating point, switching rounding, policies without empty intervals and NaN tests, nth_root inside a region (see C43 for the need of it), every k that does not exceed the largest finite number. Partial because the code violates the claim with other policies: C59_infinite."
  },
  {
   "property": "C60",
   "status": "partial",
   "theorems": [
    "BI.C60_zero",
    "BI.C60_neg",
    "BI.C60_mono",
    "BI.C60_triangle_partial",
    "BI.C60_mul",
    "BI.C60_violated"
   ],
   "note": "C60_zero, C60_neg, C60_mono, C60_mul proved; C60_triangle_partial: norm(x+y) is not above any representable number that is not below norm(x)+norm(y). Partial because the exact inequality is violated: C60_violated."
  },
  {
   "property": "C61",
   "status": "partial",
   "theorems": [
    "BI.C61_exact_partial",
    "BI.C61_violated"
   ],
   "note": "C61_exact_partial: exact base types. Partial because the claim is violated under rounding: C61_violated."
  },
  {
   "property": "C62",
   "status": "partial",
   "theorems": [
    "BI.C62_hull_comm",
    "BI.C62_hull_assoc",
    "BI.C62_hull_idem",
    "BI.C62_intersect_comm",
    "BI.C62_intersect_assoc",
    "BI.C62_intersect_idem",
    "BI.C62_absorb",
    "BI.C62_absorb'",
    "BI.C62_max_comm",
    "BI.C62_max_assoc",
    "BI.C62_max_idem",
    "BI.C62_max_absorb_partial",
    "BI.C62_distrib",
    "BI.C62_absorb_empty"
   ],
   "note": "Empty operands included. Missing: absorption of min and max with an empty other operand, which fails (C62_absorb_empty): the result is empty."
  },
  {
   "property": "C63",
   "status": "proved",
   "theorems": [
    "BI.C63_same",
    "BI.C63_exchange"
   ],
   "note": "The exchange of rows in det.cpp exchanges entries of one row, so that the program does not compute a determinant (`C63_exchange`); the claim does not depend on this."
  },
  {
   "property": "C64",
   "status": "proved",
   "theorems": [
    "BI.C64_round",
    "BI.C64_store",
    "BI.C64_add",
    "BI.C64_sub",
    "BI.C64_mul",
    "BI.C64_div",
    "BI.C64_formats",
    "BI.C64_directed",
    "BI.C64_overflow",
    "BI.C64_underflow",
    "BI.C64_precision"
   ],
   "note": "The condition on the limits is met by every sum and difference that does not overflow. `C64_store` applies to every operation with a theorem in C12. The failures without the conditions are `C64_overflow` (the example of the documentation, for all formats and configurations), `C64_underflow` and `C64_precision`. Stores in the direction of the bound are always safe (`C64_directed`)."
  },
  {
   "property": "C65",
   "status": "proved",
   "theorems": [
    "BI.C65_sets",
    "BI.C65_operators",
    "BI.C65_directed",
    "BI.C65_gradual",
    "BI.C65_gradual_rat"
   ],
   "note": "`C65_operators` for correctly rounded configurations over a base type with gradual underflow (`C65_gradual`: all formats, `C65_gradual_rat`); one direction for all configurations rounded to the right side (`C65_directed`)."
  },
  {
   "property": "C66",
   "status": "proved",
   "theorems": [
    "BI.C66_add_sub",
    "BI.C66_sub_add",
    "BI.C66_mul_div",
    "BI.C66_div_mul",
    "BI.C66_sub_self",
    "BI.C66_div_self",
    "BI.C66_inverse",
    "BI.C66_square_sqrt",
    "BI.C66_sqrt_square",
    "BI.C66_elementary",
    "BI.C66_pairs",
    "BI.C66_cos_acos",
    "BI.C66_sin_asin",
    "BI.C66_tan_atan"
   ],
   "note": "The intermediate result is the one that the first call returned. `C66_pairs` lists the pairs of elementary functions; the periodic functions have theorems of their own."
  },
  {
   "property": "C67",
   "status": "proved",
   "theorems": [
    "BI.C67_rounded_partial",
    "BI.C67_region_partial",
    "BI.C67_machine",
    "BI.C67_machine_region"
   ],
   "note": "`C67_machine`, `C67_machine_region`. `C67_rounded_partial` and `C67_region_partial` add powers and elementary functions with faithfully rounded plain results, under the restrictions of C14 (no exponent INT_MIN, infinities in the base type where results can be unbounded)."
  },
  {
   "property": "C68",
   "status": "proved",
   "theorems": [
    "BI.C68_test",
    "BI.C68_overflow",
    "BI.C68_underflow",
    "BI.C68_suite",
    "BI.C68_violated"
   ],
   "note": "`C68_test` is the general criterion (no number of the type between x f^n and x / g^n), `C68_overflow` and `C68_underflow` its two cases, `C68_suite` the instances of the test for the three formats. `C68_violated` shows that the condition is needed."
  },
  {
   "property": "C69",
   "status": "partial",
   "theorems": [
    "BI.C69_isotone_partial",
    "BI.C69_region_partial",
    "BI.C69_debug_partial",
    "BI.C69_pieces_partial",
    "BI.C69_bisect_partial",
    "BI.C69_violated",
    "BI.C69_outcome_partial"
   ],
   "note": "Formulas without sin, cos, tan. C69_outcome_partial: also formulas without value on the smaller operands, where an empty interval is created (atanh and operands without real numbers excluded, hull only with policies that forbid empty intervals). For base types without infinities in debug builds an evaluation on larger operands may be stopped by an assertion instead (C69_debug_partial); with NDEBUG such results are wrong (C57_release). C69_violated: cos(x) is not isotone."
  },
  {
   "property": "C70",
   "status": "proved",
   "theorems": [
    "BI.C70_formula",
    "BI.C70_region",
    "BI.C70_machine",
    "BI.C70_no_inclusion"
   ],
   "note": "`C70_formula`, `C70_region` (containment of rounded values, equality at points), `C70_machine` (with the plain operations of the program), `C70_no_inclusion` (1/3 is missed in every mode). Plain evaluations that overflow or meet NaNs are outside of the claim, as are powers and library functions."
  },
  {
   "property": "C71",
   "status": "proved",
   "theorems": [
    "BI.C71_single_use",
    "BI.C71_single_use_region",
    "BI.C71_occurrences",
    "BI.C71_apart",
    "BI.C71_sub_self",
    "BI.C71_div_self",
    "BI.C71_mul_self",
    "BI.C71_rewrite"
   ],
   "note": "`C71_single_use`, `C71_single_use_region`; `C71_occurrences` with `C71_apart` (every formula is a renaming of one without repeated variables); `C71_sub_self`, `C71_div_self`, `C71_mul_self`, `C71_rewrite` are the examples of the documentation. Square roots and library functions are outside of the claim (no exact type has them), and so is the exponent INT_MIN."
  },
  {
   "property": "C72",
   "status": "partial",
   "theorems": [
    "BI.C72_mode",
    "BI.C72_same",
    "BI.C72_program",
    "BI.C72_rounded",
    "BI.C72_machine",
    "BI.C72_unsure_partial",
    "BI.C72_unsure_violated"
   ],
   "note": "First half: `C72_program` (real numbers), `C72_rounded` (rounded results), `C72_machine` (floating-point numbers, any mode in each operation), with `C72_mode` and `C72_same`; for formulas covered by C14. Second half, that a test only throws if it was unsure: false, `C72_unsure_violated` (`x - x == 0`); `C72_unsure_partial` proves it for exact types and tests without repeated variables."
  },
  {
   "property": "C73",
   "status": "proved",
   "theorems": [
    "BI.C73_not",
    "BI.C73_not_tri",
    "BI.C73_not_certain",
    "BI.C73_swap",
    "BI.C73_self",
    "BI.C73_self_other",
    "BI.C73_self_violated",
    "BI.C73_not_total",
    "BI.C73_trans",
    "BI.C73_possible_chain",
    "BI.C73_parts",
    "BI.C73_overlap"
   ],
   "note": "`C73_not`, `C73_not_tri`, `C73_not_certain`, `C73_not_total`, `C73_swap`, `C73_self`, `C73_self_other`, `C73_trans`, `C73_possible_chain`, `C73_parts`, `C73_overlap`. `C73_self_violated`: the documentation says that with the certain comparison `x != x` is always true unless `x` is a singleton; it is always false."
  },
  {
   "property": "C74",
   "status": "proved",
   "theorems": [
    "BI.C74_formula",
    "BI.C74_listed",
    "BI.C74_int",
    "BI.C74_listed_violated",
    "BI.C74_pow_violated"
   ],
   "note": "`C74_formula`: the claim, with the monotonicity that the code uses as hypothesis (`IdealOps.Monotone`). `C74_listed`: the same from the five properties of doc/numbers.htm and the identities it does not mention. `C74_int`: built-in integers of any size with truncating division. The page says that its five properties are enough, for `pow` too: `C74_listed_violated` (a product that is not commutative has them all, and `[1,2] * [-1,-1]` is `[14,7]`) and `C74_pow_violated` (rounding products outwards by 5 is allowed, and `pow([0,1],4)` is `[15,46]`). The transcendental functions are not covered here (C15 to C22)."
  },
  {
   "property": "C75",
   "status": "proved",
   "theorems": [
    "BI.C75_bounds",
    "BI.C75_rebuild",
    "BI.C75_width",
    "BI.C75_mono",
    "BI.C75_zero",
    "BI.C75_neg",
    "BI.C75_add",
    "BI.C75_exact"
   ],
   "note": "`C75_bounds`, `C75_rebuild`: lower and upper. `C75_width`, `C75_zero`, `C75_mono`, `C75_neg`, `C75_add`: rounding that returns the nearest bound (`V.Tight`). `C75_exact`: exact base types, bounded operands."
  },
  {
   "property": "C76",
   "status": "partial",
   "theorems": [
    "BI.C76_program_partial",
    "BI.C76_program_tight_partial",
    "BI.C76_nested",
    "BI.C76_upward",
    "BI.C76_median_partial",
    "BI.C76_median_overflow",
    "BI.C76_median_rat",
    "BI.C76_unprotected_alone"
   ],
   "note": "Fails for the median when the sum overflows (C76_median_overflow), and for the functions that rounded_transc_opp calls without switching (C19_opp_atan_one; excluded by FnOk). nth_root, which creates no rounding object, is excluded (C06_nth_root_leaks). C76_unprotected_alone: without a rounding object alive an unprotected one gives no bounds, as the documentation allows."
  },
  {
   "property": "C77",
   "status": "proved",
   "theorems": [
    "BI.C77_smallest",
    "BI.C77_add",
    "BI.C77_sub",
    "BI.C77_mul",
    "BI.C77_div",
    "BI.C77_inverse",
    "BI.C77_square",
    "BI.C77_sqrt",
    "BI.C77_fn",
    "BI.C77_convert",
    "BI.C77_pow",
    "BI.C77_size",
    "BI.C77_pow_more",
    "BI.C77_pow_neg",
    "BI.C77_limits",
    "BI.C77_limits_float",
    "BI.C77_limits_double",
    "BI.C77_limits_long_double",
    "BI.C77_limits_registers"
   ],
   "note": "C77_pow_more: the cube of a double is off by almost two units, so the bound of n-1 roundings for pow is close to sharp."
  },
  {
   "property": "C78",
   "status": "proved",
   "theorems": [
    "BI.C78_lipschitz",
    "BI.C78_refine",
    "BI.C78_cover",
    "BI.C78_hull"
   ],
   "note": "C78_hull: the width of hull(x, 1) does not tend to zero."
  },
  {
   "property": "C79",
   "status": "partial",
   "theorems": [
    "BI.C79_same_value",
    "BI.C79_finer_partial",
    "BI.C79_region_partial",
    "BI.C79_best_partial",
    "BI.C79_debug_partial",
    "BI.C79_outcome_partial",
    "BI.C79_lossless",
    "BI.C79_load",
    "BI.C79_detour_partial",
    "BI.C79_violated"
   ],
   "note": "Formulas without sin, cos, tan; C79_outcome_partial: also formulas without value in the finer type, where an empty interval is created (atanh and operands without real numbers excluded, hull only with policies that forbid empty intervals); operations with unbounded results need base types with infinities; in a debug build for a coarser type without them an assertion may stop the coarser evaluation instead (C79_debug_partial). C79_violated: cos(x), with both types double."
  },
  {
   "property": "C80",
   "status": "partial",
   "theorems": [
    "BI.C80_other_policy_partial",
    "BI.C80_both_forbid_partial",
    "BI.C80_hull_free_partial",
    "BI.C80_debug_partial",
    "BI.C80_hull_hides",
    "BI.C80_infinite_point"
   ],
   "note": "Operands without real numbers (an infinite point) and atanh are excluded; operations with unbounded results need a base type with infinities; without them, in debug builds, a formula with a value has the same outcome under any two policies (C80_debug_partial). C80_infinite_point: hull(x - x, [0,1]) has NaN bounds under the default policy and is [0,1] under checking_base. C80_hull_hides shows why hull is an exception."
  },
  {
   "property": "C81",
   "status": "proved",
   "theorems": [
    "BI.C81_hull_union",
    "BI.C81_std_max",
    "BI.C81_std_min",
    "BI.C81_cond_max",
    "BI.C81_cond_min",
    "BI.C81_cond_abs",
    "BI.C81_example_product",
    "BI.C81_example_square",
    "BI.C81_example_division",
    "BI.C81_example_fmod"
   ],
   "note": ""
  },
  {
   "property": "C82",
   "status": "partial",
   "theorems": [
    "BI.C82_same_partial",
    "BI.C82_outcome_partial",
    "BI.C82_debug_partial",
    "BI.C82_number"
   ],
   "note": "C82_same_partial: formulas that have a value on the operands. C82_outcome_partial: also formulas without value, where an empty interval is created in both configurations or in none; there operands without real numbers and atanh are excluded (C80_infinite_point), and formulas with hull need policies that forbid empty intervals (C80_hull_hides). Operations with unbounded results need a base type with infinities; without them, in debug builds, formulas without sin, cos, tan have the same bounds or are stopped by an assertion in both configurations (C82_debug_partial). rounded_transc_opp is correctly rounded only for the functions for which it switches the direction (C19)."
  },
  {
   "property": "C83",
   "status": "partial",
   "theorems": [
    "BI.C83_classify",
    "BI.C83_default",
    "BI.C83_bounds_partial",
    "BI.C83_silent",
    "BI.C83_div_whole",
    "BI.C83_select",
    "BI.C83_guide"
   ],
   "note": "The answer of every policy to NaN is proved (C83_classify); the constructor from two bounds rejects NaN with every policy (C83_bounds_partial). VIOLATION: the default policy contains checking_no_nan, so NaN operands pass without an exception (C83_guide): + - * / return intervals with NaN bounds (C83_silent), NaN divided by an interval around zero is the whole line (C83_div_whole), min, max and hull with NaN on the right return the other operand unchanged (C83_select). Policies that catch NaN are under C11. Only the IEEE formats are covered by the statements about results."
  },
  {
   "property": "C84",
   "status": "partial",
   "theorems": [
    "BI.C84_default",
    "BI.C84_program",
    "BI.C84_formula",
    "BI.C84_normal",
    "BI.C84_throwing",
    "BI.C84_ndebug",
    "BI.C84_called",
    "BI.C84_value_partial",
    "BI.C84_violated"
   ],
   "note": "Proved for all programs and formulas (C84_program, C84_formula, C84_normal, C84_throwing), all operands and states, without any law of the base type; NDEBUG: C84_ndebug; the compositions with default arguments are those of the other properties (C84_default); when the function objects are called: C84_called. VIOLATION: doc/checking.htm says the value returned by the function object of checking_no_empty is propagated; the code drops it and returns the bounds of the policy below (C84_value_partial, C84_violated: intersect([0,1],[2,3]) is [NaN,NaN], reported as not empty). Function objects that return are assumed to have no side effects and always to behave in the same way."
  },
  {
   "property": "C85",
   "status": "partial",
   "theorems": [
    "BI.C85_hilbert",
    "BI.C85_eliminate",
    "BI.C85_pivot",
    "BI.C85_columns",
    "BI.C85_rows",
    "BI.C85_determinant",
    "BI.C85_round_partial"
   ],
   "note": "Proved: the Hilbert matrix (C85_hilbert), the search (C85_pivot), the exchange of columns (C85_columns), the elimination step (C85_eliminate) and that the exact step keeps the determinant (C85_determinant); together, a whole round with the pivot in its row keeps the determinant up to the sign (C85_round_partial). VIOLATION: the exchange of rows (det.cpp 37-42) rotates the entries of row m and leaves row i alone (C85_rows, for all sizes and matrices; C63_exchange is a whole run), so the program as a whole is not an elimination with pivoting."
  },
  {
   "property": "C86",
   "status": "partial",
   "theorems": [
    "BI.C86_extends",
    "BI.C86_restored_partial",
    "BI.C86_outcome_partial",
    "BI.C86_unprotected_partial",
    "BI.C86_stuck"
   ],
   "note": "Proved for all programs with handlers: the control word is restored, whatever throws (C86_restored_partial); the outcome is independent of the direction at the start and of the evaluation order (C86_outcome_partial), and is the same in a region with the unprotected type (C86_unprotected_partial). For the latter two the policies that switch for each operation and the exact types need no condition on handlers; neither do the one-mode policies over floating-point numbers with a library that does not throw (Env.steady_fl), nor handlers outside regions. VIOLATION: rounded_transc_opp and rounded_arith_opp switch the direction around some operations without a guard; if such an operation throws and the exception is caught inside the region, the rest of the region is computed in downward mode, giving inverted intervals (C86_stuck). As in C06-C08, nth_root outside regions and calls depending on the direction in force are excluded (C06_nth_root_leaks, C07_int)."
  },
  {
   "property": "C87",
   "status": "partial",
   "theorems": [
    "BI.C87_mixed_partial"
   ],
   "note": "C87_mixed_partial: all programs of C86 (nested regions of either type, either type in each call, handlers). Missing because violated: calls that depend on the direction in force (C07_int, C08_int_in_region) and nth_root with the protected type (C06_nth_root_leaks); handlers inside regions of a one-mode policy whose switching operations throw (C86_stuck)."
  },
  {
   "property": "C88",
   "status": "partial",
   "theorems": [
    "BI.C88_compiled_program_partial",
    "BI.C88_portable_partial",
    "BI.C88_compiled_expression_partial",
    "BI.C88_compiled_add_partial",
    "BI.C88_x87_add",
    "BI.C88_one",
    "BI.C88_rejected",
    "BI.C88_gnu",
    "BI.C88_fits",
    "BI.C88_chosen",
    "BI.C88_fallback",
    "BI.C88_sparc_rejected",
    "BI.C88_backends_partial",
    "BI.C88_unit_partial",
    "BI.C88_restores_iff",
    "BI.C88_program_partial",
    "BI.C88_any_registers_partial",
    "BI.C88_registers_partial",
    "BI.C88_returns",
    "BI.C88_add",
    "BI.C88_restore_violated",
    "BI.C88_sse_violated",
    "BI.C88_sse_encloses_violated"
   ],
   "note": "The code violates the claim: 32-bit code that computes with SSE, and 64-bit targets without fenv.h, get a back end that switches the x87 only (C88_sse_violated, C88_sse_encloses_violated; doc/interval.htm excludes the former); with glibc the SSE direction is not restored if it differs from that of the x87 (C88_restore_violated, C88_restores_iff), while results are right for all contents of the registers (C88_returns, C88_any_registers_partial). Microsoft control words with the reserved precision are excluded as in C40. The behaviour of fesetround and fegetround of glibc is trusted. Whatever macros compile, sums on the chosen back end enclose (C88_compiled_add_partial) and expressions too (C88_compiled_expression_partial), programs restore the word (C88_compiled_program_partial) and have the same outcome on all back ends (C88_portable_partial), on the assumption that it governs the unit that computes."
  },
  {
   "property": "C89",
   "status": "partial",
   "theorems": [
    "BI.C89_protected",
    "BI.C89_nothing",
    "BI.C89_idempotent",
    "BI.C89_nothing_self",
    "BI.C89_unprotect",
    "BI.C89_change",
    "BI.C89_unprotected_partial",
    "BI.C89_outermost",
    "BI.C89_start",
    "BI.C89_restores",
    "BI.C89_default",
    "BI.C89_default_other",
    "BI.C89_mix_partial",
    "BI.C89_opp_over_std_violated",
    "BI.C89_std_over_opp_violated",
    "BI.C89_twice_violated"
   ],
   "note": "The code violates the claim: rounded_transc_opp over rounded_arith_std or rounded_arith_exact calls the library in the direction in force (C89_opp_over_std_violated), rounded_transc_std over rounded_arith_opp leaves the downward direction in a region (C89_std_over_opp_violated), and with save_state twice in the stack the unprotected type still switches (C89_twice_violated). rounded_transc_dummy is only declared in the library. rounded_transc_std over exact arithmetic is not treated."
  },
  {
   "property": "C90",
   "status": "proved",
   "theorems": [
    "BI.C90_counting",
    "BI.C90_call_opp",
    "BI.C90_call_std",
    "BI.C90_call_exact",
    "BI.C90_still",
    "BI.C90_region",
    "BI.C90_horner",
    "BI.C90_sum"
   ],
   "note": "Upper bounds for every call and exact numbers for regions, Horner's scheme and sums. The counter is an instrumented rounding control; C90_counting shows for every program that it changes neither outcomes nor control words. Writes are counted, not changes of direction: setting the mode that is already in force counts."
  },
  {
   "property": "C91",
   "status": "proved",
   "theorems": [
    "BI.C91_sign",
    "BI.C91_same",
    "BI.C91_exact",
    "BI.C91_representable",
    "BI.C91_nan",
    "BI.C91_nan_point",
    "BI.C91_empty",
    "BI.C91_writes",
    "BI.C91_unknown",
    "BI.C91_nan_default"
   ],
   "note": "Both versions of the program. C91_unknown shows that 0 does not mean zero in double precision; C91_nan_default shows what the default policy, which does not look for NaN, does with a NaN coefficient: the answer is 0, except at the point 0, where the coefficient is ignored."
  },
  {
   "property": "C92",
   "status": "partial",
   "theorems": [
    "BI.C92_mode",
    "BI.C92_switches",
    "BI.C92_partial",
    "BI.C92_std_partial",
    "BI.C92_int_violated",
    "BI.C92_fmod_violated",
    "BI.C92_unsigned_violated"
   ],
   "note": "Violated by the code: int_down and int_up of the _std and _opp classes return their argument with the default control (rounding.hpp 30), so fmod gives 0 for 5 and 2 (C92_fmod_violated, C92_int_violated); conv_down of _opp negates unsigned integers modulo 2^w (C92_unsigned_violated). Proved for all other programs: C92_partial for exact base types and all stacks of classes, C92_std_partial for _std against _exact over any base type. That the mode of the machine is never changed is shown without restriction (C92_mode, C92_switches)."
  },
  {
   "property": "C93",
   "status": "partial",
   "theorems": [
    "BI.C93_library",
    "BI.C93_other",
    "BI.C93_enclose_partial",
    "BI.C93_smallest",
    "BI.C93_unbounded_violated",
    "BI.C93_far_violated",
    "BI.C93_pole_violated"
   ],
   "note": "Violated by the code for long double: the argument is converted to double, so asinh(2^2000) and atanh(1 - 2^-60) get an infinite upper bound (C93_far_violated, C93_pole_violated, in general C93_unbounded_violated). Proved: enclosure for any two formats (C93_library, C93_enclose_partial); smallest enclosures if the other format is wider (C93_smallest). Assumption about the platform: the global namespace declares the functions for double only (true unless the C++ wrapper math.h of libstdc++ is included). Not covered: acosh of rounded_transc_opp, which does not enclose anyway (C19_opp_acosh)."
  }
 ]
}
