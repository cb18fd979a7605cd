{
 "C01": [
  "proved",
  "All configurations: platform, rounding kind, checking policy, NDEBUG; arbitrary base type with directed operations. Instances for every IEEE format and for rationals."
 ],
 "C02": [
  "proved",
  "Subtraction (with number operands) and negation."
 ],
 "C03": [
  "proved",
  "Number operands must be finite."
 ],
 "C04": [
  "partial",
  "Includes divisors that contain zero (base type with infinities) and the divisor [0,0]. Missing: a divisor that contains zero, in a base type without infinities: an assertion stops the program in a debug build (C57_div); with NDEBUG the enclosure fails (C04_violated)."
 ],
 "C06": [
  "partial",
  "Proved for every call except nth_root, and for all client programs with regions; nth_root violates the claim: witness C06_nth_root_leaks."
 ],
 "C07": [
  "partial",
  "For programs whose integer and foreign-type conversions do not depend on the rounding direction; C07_int is the counterexample otherwise. nth_root is excluded outside regions (it has no rounding object)."
 ],
 "C08": [
  "partial",
  "For every call except nth_root, and for programs with regions made of direction-independent calls; C08_int_in_region shows why the condition is needed with the switching policy. The oracle realises all orders of two arguments and of the four products of a mixed-sign product: C08_orders. nth_root called in the direction it expects, with an index that the type represents, returns the same value in every order of its operands; only the exception may differ (C08_root_order)."
 ],
 "C09": [
  "partial",
  "Every function of the library that takes an interval or a number: arithmetic, mixed integer arithmetic, transcendental functions, two-part division, min, max, intersect, constructors, widen by NaN; bounds, norm, median of an empty interval are NaN, the width is 0. NaN numbers: policies that test numbers and do not throw (C11 otherwise). The only exception to the claim is hull, which ignores an empty operand by design (C09_hull, C09_hull_num, C24)."
 ],
 "C11": [
  "partial",
  "Proved for all operators and functions with a number operand. VIOLATIONS: when the number is the right operand of -, /, fmod the interval is tested first, and an empty one gives the empty interval instead of the exception (C11_empty_first); widen does not look at its second argument (C11_widen)."
 ],
 "C12": [
  "proved",
  "Four operations with number overloads, square, sqrt, abs, inverse. Division by intervals that contain zero is C52."
 ],
 "C13": [
  "partial",
  "Four operations, square, sqrt, abs, inverse, pow, exp, log, asin, acos, atan, sinh, cosh, tanh, asinh, acosh, atanh; negation is exact (C02_neg). VIOLATION: cos and tan (hence sin, which calls cos) are not isotone, because the rounding of the multiple of the period depends on the lower bound (C13_cos_not_isotone, C13_tan_not_isotone, in double with a correctly rounded library)."
 ],
 "C15": [
  "partial",
  "Also: inverse of [0,0] is empty or throws. Missing: the inverse of an interval that contains zero in a base type without infinities (C57_inverse; C15_violated with NDEBUG)."
 ],
 "C16": [
  "proved",
  ""
 ],
 "C17": [
  "partial",
  "Also sharpness of both parts. Missing: a divisor that contains zero, in a base type without infinities (C17_violated with NDEBUG)."
 ],
 "C18": [
  "partial",
  "C18_fmod_partial, C18_fmod_num_right_partial, C18_fmod_num_left_partial: n is the floor of the quotient rounded downwards, the result is the tightest enclosure that one rounding of n*y and one of the difference allow, and its lower bound is in [0, y.upper()) if the floor of the quotient is a number of the base type; C18_traditional_partial: positive singletons. Missing: quotients below the smallest finite number, where the code violates the claim (C18_overflow). C18_large and C18_not_traditional: the documented range and the agreement with the traditional fmod fail for large quotients."
 ],
 "C22": [
  "proved",
  "For non-empty intervals and, with policies that represent empty intervals, empty ones. A NaN argument of `in`: false (C22_in_nan), or an exception if the policy throws on NaN (C11_catch_left)."
 ],
 "C23": [
  "proved",
  ""
 ],
 "C24": [
  "partial",
  "Intervals, an interval and a number, two numbers; empty arguments are ignored, NaN arguments by policies that test for NaN. The default policy does not, and hull(NaN, [1,2]) is [NaN,NaN]: C24_violated. If both arguments are empty the result is empty (C09_hull)."
 ],
 "C25": [
  "partial",
  "Fails when the sum of the bounds overflows: C25_overflow is a counterexample for double. Proved for all floating-point intervals whose bounds have a sum within range, and for rationals."
 ],
 "C26": [
  "proved",
  "Median: floating point without overflow of the sum, rationals. Width: all types; with correct rounding the smallest upper bound."
 ],
 "C27": [
  "proved",
  "C27_negative: a negative radius may silently invert the bounds."
 ],
 "C28": [
  "proved",
  ""
 ],
 "C29": [
  "proved",
  ""
 ],
 "C30": [
  "proved",
  "Both overloads; operands with different policies; number operands finite; empty operands and NaN throw."
 ],
 "C31": [
  "proved",
  "Both overloads, number operands finite; empty operands throw comparison_error, NaN throws when the policy sees it."
 ],
 "C32": [
  "proved",
  "Both overloads, number operands finite; empty operands throw comparison_error, NaN throws when the policy sees it."
 ],
 "C33": [
  "proved",
  "All three overloads of the twelve functions and the duality."
 ],
 "C34": [
  "proved",
  "Irreflexive, transitive, total up to set equality; other five comparisons derived; characterisation by bounds."
 ],
 "C35": [
  "proved",
  "<= and >= only exist for operands with the same policies."
 ],
 "C38": [
  "proved",
  ""
 ],
 "C40": [
  "partial",
  "x86 (gcc, Borland, Microsoft, common), PowerPC, SPARC, Alpha, C99. C40_no_traps: no exception is trapped after a switch (x87, Borland, Microsoft, PowerPC, SPARC); C40_x64_mask: test/msvc_x64_flags.cpp. C40_msvc_reserved: restoring is not faithful if the reserved precision value is set."
 ],
 "C41": [
  "proved",
  "+, -, *, and / by intervals without zero."
 ],
 "C47": [
  "partial",
  "The property fails for pow([0,0],0), which is empty (C47_zero_zero); everything else is proved, including undefined behaviour on INT_MIN."
 ],
 "C49": [
  "proved",
  "As sets."
 ],
 "C50": [
  "proved",
  ""
 ],
 "C51": [
  "partial",
  "The four operations, hull, min, max and the default, certain, possible, tribool, explicit and lexicographic comparisons. VIOLATION: the set comparisons throw for every number operand (C51_set; documented behaviour). The library has no number overload of intersect."
 ],
 "C52": [
  "partial",
  "The documentation's claim fails for dividends [a, 0]; C52_gap says what is returned there."
 ],
 "C05": [
  "partial",
  "All operators with interval operands (including x op= x) and with numbers, every state and failure outcome. The number form of += is partial: with checking_catch_nan, x empty and t NaN, x + t throws where x += t gives the empty interval (C05_add_num_order); equality is proved otherwise."
 ],
 "C37": [
  "partial",
  "Strong exception safety for assignment of numbers, intervals, set_empty, set_whole; conversion and two-number assignment partial. Violations proved: assign(l,u) with aliased bound (C37_assign_alias), assignment with a throwing second conversion (C37_conv_throws)."
 ],
 "C36": [
  "partial",
  "All constructors: numbers, bounds, NaN, copies, policy conversions, floating-point numbers and intervals of other formats, unsigned integers. Missing because violated: the least signed integer with the default rounding (C36_least_int, undefined behaviour), mixed signed/unsigned bounds (C36_mixed_compare), NaN with the default checking (C36_nan_kept)."
 ],
 "C42": [
  "partial",
  "All eight overloads, for every integer the base type represents; interval<float> + 16777217 shows the condition is needed. Missing: a divisor that contains zero, in a base type without infinities (C42_violated with NDEBUG)."
 ],
 "C39": [
  "proved",
  "The x87 and m68k style of computing in a register of a wider format: for directed rounding with the right direction set, computing in the wide format and storing in the narrow one equals computing in the narrow one, for all operations; false for round-to-nearest (C39_near_differs)."
 ],
 "C21": [
  "proved",
  "Bounds evaluated in any rounding direction; for float and double they are the representable neighbours of pi, pi/2 and 2 pi (smallest enclosure); long double and the generic version bracket. C21_long_double_not_neighbours: the long double constants are not sharp."
 ],
 "C14": [
  "partial",
  "All expressions over + - * / unary + neg abs square sqrt multiplicative_inverse pow min max hull intersect and the elementary functions (exp, log, trigonometric, hyperbolic and their inverses), with interval and number operands, all points where the real expression is defined; protected and unprotected. Nested calls of sin/cos: the result is the same for every limit above some N. Debug builds for types without infinities: an enclosure or an assertion (C14_debug_partial). Missing: pow by INT_MIN, which overflows (C47_min); types without infinities with NDEBUG, where the claim is false (C14_violated)."
 ],
 "C10": [
  "partial",
  "Proved for every operation of the expression language (each delivers a proper interval or throws, according to whether the exact image is empty) and for whole expressions, including the elementary functions other than atanh; in debug builds for types without infinities an assertion is the third possibility (C10_debug_partial, C10_debug_order). The claim fails for operands like [inf,inf], for widen with a negative number, fmod by zero and atanh([-2,-1]) (witnesses), and in release builds without infinities (C57_release); constructors are under C36."
 ],
 "C44": [
  "proved",
  "For every stream and every interval the policy admits. Stream formatting state is part of the abstract stream. C44_nan_written: intervals with NaN bounds kept by the default policy are written as [nan,nan]."
 ],
 "C45": [
  "partial",
  "min, max, epsilon, denorm_min and infinity for all base types. quiet_NaN terminates the program under policies that forbid empty intervals, which include the default (C45_quiet_nan, C45_quiet_nan_double); infinity terminates for types without one (C45_infinity_none). signaling_NaN does not compile when instantiated (misspelt bl::signaling_Nan) and is not modelled."
 ],
 "C46": [
  "partial",
  "Signed types of at least the width of int, without overflow in add, sub, mul. Division truncates (C46_div_truncates), narrow and unsigned types wrap (C46_short_wraps, C46_unsigned_wraps), so containment fails there. C46_div_partial: / by an interval without zero returns the smallest interval of integers around the truncated quotients, or overflows."
 ],
 "C19": [
  "partial",
  "For exp, log, asin, acos, atan, sinh, cosh, tanh, asinh, acosh, atanh (all but sin, cos, tan, which are C20): enclosure, smallest enclosure, range and the empty case for rounded_transc_std, and for rounded_transc_opp except where the claim fails. It fails for the functions written with a double negation in rounded_transc_opp (C19_opp, C19_opp_asin, C19_opp_acosh; concretely atan([1,1]) in double, C19_opp_atan_one), and atanh of an interval that meets the domain only in -1 or 1 (no point of the open domain) with a library returning an infinity (C19_atanh_pole)."
 ],
 "C20": [
  "partial",
  "cos and sin: termination, independence of the recursion limit and enclosure for every bracketing library and every non-empty interval, range [-1,1] for correctly rounded libraries, with both transcendental roundings. tan: enclosure and the whole line at poles when the library rounds the tangent in the right direction; with rounded_transc_opp this is not so and the claim fails for the smallest positive double (C20_tan_opp)."
 ],
 "C43": [
  "partial",
  "Any floating-point format with p + 2 <= emax and both switching policies, called in the direction the policy expects (C43_encloses, C43_encloses_partial) or inside a region: termination with a result independent of the fuel and enclosure. With the default checking policy for every interval and every index below 2^p (for double: every int); with policies that see NaN only for bounds that are finite and zero or with representable inverse, since otherwise the result is NaN or an exception (C43_infinite, C43_tiny). For an index with more digits than the base type (int above 2^24 for float) the conversion rounds it in the direction in force; the result may then depend on the state but still encloses the roots and the loop ends, for every format with p >= 4 and every index up to its largest number (C43_encloses_index, C43_encloses_index_partial). The same with the order of the operands left to the implementation (C43_encloses_any_order, C43_encloses_any_order_partial). Even roots of negative intervals are empty, non-positive indices trip the assertion. In to-nearest direction the enclosure is lost (C43_near; the changed mode is C06_nth_root_leaks), and on exact rationals the loop never ends (C43_exact_diverges)."
 ],
 "C48": [
  "partial",
  "Horner evaluation encloses (C48_horner); det_sign_algo1 is right, and complete with exact arithmetic; det_sign_algo2 is right when the approximate inverses are finite, and decides the sign with rational numbers (C48_filter2_exact); both Newton programs and both find_zeros programs keep every root, return only narrow parts of the start, restore the mode, and throw nothing; find_zeros and the second Newton program end when the width asked for exceeds four steps of the numbers in the range (C48_find_zeros1_ends, C48_find_zeros2_ends, C48_newton2_ends), the first Newton program if moreover the enclosures separate zeros of the function from zeros of its derivative (C48_newton1_ends); newton-raphson.cpp returns with its own data (C48_newton1_program, C48_newton2_program), and so does findroot_demo.cpp, for its three functions, if the library functions give directed approximations (C48_demo1_program, C48_demo1'_program, C48_demo2_program). VIOLATIONS: det_sign_algo2 certifies a wrong sign when the factorisation overflows (C48_filter2_nan); outside these conditions find_zeros and the first Newton program run forever (C48_find_zeros1_diverges, C48_newton1_diverges)."
 ],
 "C53": [
  "partial",
  "Grammar of the reader, both directions (C53_grammar), rejected texts (C53_reject), round trips (C53_std, C53_sngl). Violations proved: empty intervals are written as [] which the reader rejects (C53_empty), truncated texts and failed streams lead to a copy of an indeterminate variable (C53_read_ub, C53_failed). Partial because the code violates the claim in these cases."
 ],
 "C54": [
  "partial",
  "io_wide encloses (C54_wide, C54_wide_special), io_prec on bounded intervals (C54_prec, C54_prec_special, C54_prec_restored), io_wdth exact for rationals (C54_wdth_exact). Violations proved: the ball of io_wdth misses a point in double precision (C54_wdth_misses), io_prec converts NaN to int for unbounded intervals (C54_prec_ub). The decimal rounding done by the stream itself is not modelled."
 ],
 "C55": [
  "partial",
  "Floor and ceiling up to the precision of the narrow format (C55_exact_partial); in general the nearest integers of that format on the right side (C55_down, C55_up, C55_opp). Violations proved: int_down(2^53 + 1) is 2^53 (C55_not_floor), and fmod by 1 returns 1 (C55_fmod)."
 ],
 "C56": [
  "partial",
  "C56_same_partial: program-level equality with rounded_transc_std also with conversions from other types of values that have an opposite (all floating-point numbers, signed integers other than 0 and the least one; see C38_int_zero). C56_smallest, C56_periodic: tight monotone functions and enclosures by the periodic ones. C56_invoke: double rounding in one direction is correct rounding. C56_atan_one contrasts with the failure C19_opp_atan_one. MPFR's correct rounding is a hypothesis (MpfrOk), met by ideal_mpfr."
 ],
 "C57": [
  "partial",
  "Debug builds: proved for whole, / (by intervals and numbers, of numbers), multiplicative_inverse and pow: C57_whole, C57_div, C57_div_zero, C57_div_num, C57_inverse, C57_pow. Partial because the code violates the claim with NDEBUG: C57_release."
 ],
 "C58": [
  "partial",
  "C58_call, C58_program: every outcome of every call and program is in MayRaise (policies and base type) or is one of the function's own; C58_functions, C58_comparisons: the functions that do not round; C58_mute, C58_ieee: with policies that raise nothing every other call returns. Partial because the code raises by itself: C58_violated (comparison of overlapping intervals, pow with INT_MIN, nth_root with index <= 0), C58_pow_own, C58_nth_root_own."
 ],
 "C59": [
  "partial",
  "C59_root_of_pow_partial, C59_pow_of_root_partial: binary floating point, switching rounding, policies without empty intervals and NaN tests, nth_root inside a region (see C43 for the need of it), every k that does not exceed the largest finite number. Partial because the code violates the claim with other policies: C59_infinite."
 ],
 "C60": [
  "partial",
  "C60_zero, C60_neg, C60_mono, C60_mul proved; C60_triangle_partial: norm(x+y) is not above any representable number that is not below norm(x)+norm(y). Partial because the exact inequality is violated: C60_violated."
 ],
 "C61": [
  "partial",
  "C61_exact_partial: exact base types. Partial because the claim is violated under rounding: C61_violated."
 ],
 "C62": [
  "partial",
  "Empty operands included. Missing: absorption of min and max with an empty other operand, which fails (C62_absorb_empty): the result is empty."
 ],
 "C63": [
  "proved",
  "The exchange of rows in det.cpp exchanges entries of one row, so that the program does not compute a determinant (`C63_exchange`); the claim does not depend on this."
 ],
 "C64": [
  "proved",
  "The condition on the limits is met by every sum and difference that does not overflow. `C64_store` applies to every operation with a theorem in C12. The failures without the conditions are `C64_overflow` (the example of the documentation, for all formats and configurations), `C64_underflow` and `C64_precision`. Stores in the direction of the bound are always safe (`C64_directed`)."
 ],
 "C65": [
  "proved",
  "`C65_operators` for correctly rounded configurations over a base type with gradual underflow (`C65_gradual`: all formats, `C65_gradual_rat`); one direction for all configurations rounded to the right side (`C65_directed`)."
 ],
 "C66": [
  "proved",
  "The intermediate result is the one that the first call returned. `C66_pairs` lists the pairs of elementary functions; the periodic functions have theorems of their own."
 ],
 "C67": [
  "proved",
  "`C67_machine`, `C67_machine_region`. `C67_rounded_partial` and `C67_region_partial` add powers and elementary functions with faithfully rounded plain results, under the restrictions of C14 (no exponent INT_MIN, infinities in the base type where results can be unbounded)."
 ],
 "C68": [
  "proved",
  "`C68_test` is the general criterion (no number of the type between x f^n and x / g^n), `C68_overflow` and `C68_underflow` its two cases, `C68_suite` the instances of the test for the three formats. `C68_violated` shows that the condition is needed."
 ],
 "C69": [
  "partial",
  "Formulas without sin, cos, tan. C69_outcome_partial: also formulas without value on the smaller operands, where an empty interval is created (atanh and operands without real numbers excluded, hull only with policies that forbid empty intervals). For base types without infinities in debug builds an evaluation on larger operands may be stopped by an assertion instead (C69_debug_partial); with NDEBUG such results are wrong (C57_release). C69_violated: cos(x) is not isotone."
 ],
 "C70": [
  "proved",
  "`C70_formula`, `C70_region` (containment of rounded values, equality at points), `C70_machine` (with the plain operations of the program), `C70_no_inclusion` (1/3 is missed in every mode). Plain evaluations that overflow or meet NaNs are outside of the claim, as are powers and library functions."
 ],
 "C71": [
  "proved",
  "`C71_single_use`, `C71_single_use_region`; `C71_occurrences` with `C71_apart` (every formula is a renaming of one without repeated variables); `C71_sub_self`, `C71_div_self`, `C71_mul_self`, `C71_rewrite` are the examples of the documentation. Square roots and library functions are outside of the claim (no exact type has them), and so is the exponent INT_MIN."
 ],
 "C72": [
  "partial",
  "First half: `C72_program` (real numbers), `C72_rounded` (rounded results), `C72_machine` (floating-point numbers, any mode in each operation), with `C72_mode` and `C72_same`; for formulas covered by C14. Second half, that a test only throws if it was unsure: false, `C72_unsure_violated` (`x - x == 0`); `C72_unsure_partial` proves it for exact types and tests without repeated variables."
 ],
 "C73": [
  "proved",
  "`C73_not`, `C73_not_tri`, `C73_not_certain`, `C73_not_total`, `C73_swap`, `C73_self`, `C73_self_other`, `C73_trans`, `C73_possible_chain`, `C73_parts`, `C73_overlap`. `C73_self_violated`: the documentation says that with the certain comparison `x != x` is always true unless `x` is a singleton; it is always false."
 ],
 "C74": [
  "proved",
  "`C74_formula`: the claim, with the monotonicity that the code uses as hypothesis (`IdealOps.Monotone`). `C74_listed`: the same from the five properties of doc/numbers.htm and the identities it does not mention. `C74_int`: built-in integers of any size with truncating division. The page says that its five properties are enough, for `pow` too: `C74_listed_violated` (a product that is not commutative has them all, and `[1,2] * [-1,-1]` is `[14,7]`) and `C74_pow_violated` (rounding products outwards by 5 is allowed, and `pow([0,1],4)` is `[15,46]`). The transcendental functions are not covered here (C15 to C22)."
 ],
 "C75": [
  "proved",
  "`C75_bounds`, `C75_rebuild`: lower and upper. `C75_width`, `C75_zero`, `C75_mono`, `C75_neg`, `C75_add`: rounding that returns the nearest bound (`V.Tight`). `C75_exact`: exact base types, bounded operands."
 ],
 "C76": [
  "partial",
  "Fails for the median when the sum overflows (C76_median_overflow), and for the functions that rounded_transc_opp calls without switching (C19_opp_atan_one; excluded by FnOk). nth_root, which creates no rounding object, is excluded (C06_nth_root_leaks). C76_unprotected_alone: without a rounding object alive an unprotected one gives no bounds, as the documentation allows."
 ],
 "C77": [
  "proved",
  "C77_pow_more: the cube of a double is off by almost two units, so the bound of n-1 roundings for pow is close to sharp."
 ],
 "C78": [
  "proved",
  "C78_hull: the width of hull(x, 1) does not tend to zero."
 ],
 "C79": [
  "partial",
  "Formulas without sin, cos, tan; C79_outcome_partial: also formulas without value in the finer type, where an empty interval is created (atanh and operands without real numbers excluded, hull only with policies that forbid empty intervals); operations with unbounded results need base types with infinities; in a debug build for a coarser type without them an assertion may stop the coarser evaluation instead (C79_debug_partial). C79_violated: cos(x), with both types double."
 ],
 "C80": [
  "partial",
  "Operands without real numbers (an infinite point) and atanh are excluded; operations with unbounded results need a base type with infinities; without them, in debug builds, a formula with a value has the same outcome under any two policies (C80_debug_partial). C80_infinite_point: hull(x - x, [0,1]) has NaN bounds under the default policy and is [0,1] under checking_base. C80_hull_hides shows why hull is an exception."
 ],
 "C81": [
  "proved",
  ""
 ],
 "C82": [
  "partial",
  "C82_same_partial: formulas that have a value on the operands. C82_outcome_partial: also formulas without value, where an empty interval is created in both configurations or in none; there operands without real numbers and atanh are excluded (C80_infinite_point), and formulas with hull need policies that forbid empty intervals (C80_hull_hides). Operations with unbounded results need a base type with infinities; without them, in debug builds, formulas without sin, cos, tan have the same bounds or are stopped by an assertion in both configurations (C82_debug_partial). rounded_transc_opp is correctly rounded only for the functions for which it switches the direction (C19)."
 ],
 "C83": [
  "partial",
  "The answer of every policy to NaN is proved (C83_classify); the constructor from two bounds rejects NaN with every policy (C83_bounds_partial). VIOLATION: the default policy contains checking_no_nan, so NaN operands pass without an exception (C83_guide): + - * / return intervals with NaN bounds (C83_silent), NaN divided by an interval around zero is the whole line (C83_div_whole), min, max and hull with NaN on the right return the other operand unchanged (C83_select). Policies that catch NaN are under C11. Only the IEEE formats are covered by the statements about results."
 ],
 "C84": [
  "partial",
  "Proved for all programs and formulas (C84_program, C84_formula, C84_normal, C84_throwing), all operands and states, without any law of the base type; NDEBUG: C84_ndebug; the compositions with default arguments are those of the other properties (C84_default); when the function objects are called: C84_called. VIOLATION: doc/checking.htm says the value returned by the function object of checking_no_empty is propagated; the code drops it and returns the bounds of the policy below (C84_value_partial, C84_violated: intersect([0,1],[2,3]) is [NaN,NaN], reported as not empty). Function objects that return are assumed to have no side effects and always to behave in the same way."
 ],
 "C85": [
  "partial",
  "Proved: the Hilbert matrix (C85_hilbert), the search (C85_pivot), the exchange of columns (C85_columns), the elimination step (C85_eliminate) and that the exact step keeps the determinant (C85_determinant); together, a whole round with the pivot in its row keeps the determinant up to the sign (C85_round_partial). VIOLATION: the exchange of rows (det.cpp 37-42) rotates the entries of row m and leaves row i alone (C85_rows, for all sizes and matrices; C63_exchange is a whole run), so the program as a whole is not an elimination with pivoting."
 ],
 "C86": [
  "partial",
  "Proved for all programs with handlers: the control word is restored, whatever throws (C86_restored_partial); the outcome is independent of the direction at the start and of the evaluation order (C86_outcome_partial), and is the same in a region with the unprotected type (C86_unprotected_partial). For the latter two the policies that switch for each operation and the exact types need no condition on handlers; neither do the one-mode policies over floating-point numbers with a library that does not throw (Env.steady_fl), nor handlers outside regions. VIOLATION: rounded_transc_opp and rounded_arith_opp switch the direction around some operations without a guard; if such an operation throws and the exception is caught inside the region, the rest of the region is computed in downward mode, giving inverted intervals (C86_stuck). As in C06-C08, nth_root outside regions and calls depending on the direction in force are excluded (C06_nth_root_leaks, C07_int)."
 ],
 "C87": [
  "partial",
  "C87_mixed_partial: all programs of C86 (nested regions of either type, either type in each call, handlers). Missing because violated: calls that depend on the direction in force (C07_int, C08_int_in_region) and nth_root with the protected type (C06_nth_root_leaks); handlers inside regions of a one-mode policy whose switching operations throw (C86_stuck)."
 ],
 "C88": [
  "partial",
  "The code violates the claim: 32-bit code that computes with SSE, and 64-bit targets without fenv.h, get a back end that switches the x87 only (C88_sse_violated, C88_sse_encloses_violated; doc/interval.htm excludes the former); with glibc the SSE direction is not restored if it differs from that of the x87 (C88_restore_violated, C88_restores_iff), while results are right for all contents of the registers (C88_returns, C88_any_registers_partial). Microsoft control words with the reserved precision are excluded as in C40. The behaviour of fesetround and fegetround of glibc is trusted. Whatever macros compile, sums on the chosen back end enclose (C88_compiled_add_partial) and expressions too (C88_compiled_expression_partial), programs restore the word (C88_compiled_program_partial) and have the same outcome on all back ends (C88_portable_partial), on the assumption that it governs the unit that computes."
 ],
 "C89": [
  "partial",
  "The code violates the claim: rounded_transc_opp over rounded_arith_std or rounded_arith_exact calls the library in the direction in force (C89_opp_over_std_violated), rounded_transc_std over rounded_arith_opp leaves the downward direction in a region (C89_std_over_opp_violated), and with save_state twice in the stack the unprotected type still switches (C89_twice_violated). rounded_transc_dummy is only declared in the library. rounded_transc_std over exact arithmetic is not treated."
 ],
 "C90": [
  "proved",
  "Upper bounds for every call and exact numbers for regions, Horner's scheme and sums. The counter is an instrumented rounding control; C90_counting shows for every program that it changes neither outcomes nor control words. Writes are counted, not changes of direction: setting the mode that is already in force counts."
 ],
 "C91": [
  "proved",
  "Both versions of the program. C91_unknown shows that 0 does not mean zero in double precision; C91_nan_default shows what the default policy, which does not look for NaN, does with a NaN coefficient: the answer is 0, except at the point 0, where the coefficient is ignored."
 ],
 "C92": [
  "partial",
  "Violated by the code: int_down and int_up of the _std and _opp classes return their argument with the default control (rounding.hpp 30), so fmod gives 0 for 5 and 2 (C92_fmod_violated, C92_int_violated); conv_down of _opp negates unsigned integers modulo 2^w (C92_unsigned_violated). Proved for all other programs: C92_partial for exact base types and all stacks of classes, C92_std_partial for _std against _exact over any base type. That the mode of the machine is never changed is shown without restriction (C92_mode, C92_switches)."
 ],
 "C93": [
  "partial",
  "Violated by the code for long double: the argument is converted to double, so asinh(2^2000) and atanh(1 - 2^-60) get an infinite upper bound (C93_far_violated, C93_pole_violated, in general C93_unbounded_violated). Proved: enclosure for any two formats (C93_library, C93_enclose_partial); smallest enclosures if the other format is wider (C93_smallest). Assumption about the platform: the global namespace declares the functions for double only (true unless the C++ wrapper math.h of libstdc++ is included). Not covered: acosh of rounded_transc_opp, which does not enclose anyway (C19_opp_acosh)."
 ]
}