{"id": "C01", "title": "Addition encloses", "statement": "For non-empty operands, the interval returned by x + y contains a + b for every real a in x and b in y; the same holds for the overloads where one operand is a finite number.", "quantifier": "every base type with correctly directed arithmetic (in particular every binary floating-point format), every checking policy, every initial rounding mode, every order of evaluation of function arguments, all intervals including unbounded ones, all real points", "why_tests_cant": "The claim ranges over every pair of real points in every pair of intervals; a test run visits finitely many floating-point inputs and compares with another rounded computation.", "anchors": ["include/boost/numeric/interval/arith.hpp: operator+", "include/boost/numeric/interval/rounded_arith.hpp: add_down, add_up"]}
{"id": "C02", "title": "Subtraction and negation enclose", "statement": "x - y contains a - b for every a in x, b in y (also for number operands); -x is exactly the set of the opposites of the points of x.", "quantifier": "as C01", "why_tests_cant": "The claim ranges over every pair of real points in every pair of intervals; a test run visits finitely many floating-point inputs and compares with another rounded computation.", "anchors": ["include/boost/numeric/interval/arith.hpp: operator-"]}
{"id": "C03", "title": "Multiplication encloses", "statement": "x * y contains a * b for every a in x, b in y, for every combination of signs of the bounds, with unbounded operands, underflow and overflow included; also for finite number operands.", "quantifier": "as C01", "why_tests_cant": "The claim ranges over every pair of real points in every pair of intervals; a test run visits finitely many floating-point inputs and compares with another rounded computation. The nine-way sign analysis also has to be right on zero and infinite bounds at once.", "anchors": ["include/boost/numeric/interval/arith.hpp: operator*"]}
{"id": "C04", "title": "Division encloses", "statement": "x / y contains a / b for every a in x and every non-zero b in y; dividing by an interval reduced to zero gives the empty interval; also for number operands.", "quantifier": "as C01", "why_tests_cant": "The claim ranges over every pair of real points in every pair of intervals; a test run visits finitely many floating-point inputs and compares with another rounded computation. Zero-containing and zero-touching divisors select different code.", "anchors": ["include/boost/numeric/interval/arith.hpp: operator/", "include/boost/numeric/interval/detail/division.hpp: div_non_zero, div_positive, div_negative, div_zero"]}
{"id": "C05", "title": "Compound assignment is the binary operator", "statement": "After x op= y (interval or number right operand, including x op= x) the object holds exactly the value of x op y computed from the old x, and the same exception is thrown when x op y throws.", "quantifier": "all operators + - * /, all operands, all policies whose checks do not themselves depend on the object, all rounding modes", "why_tests_cant": "Equality of two code paths on all operands and all failure outcomes, including self-aliasing.", "anchors": ["include/boost/numeric/interval/arith.hpp: operator+=, operator-=, operator*=, operator/="]}
{"id": "C06", "title": "Rounding mode is restored", "statement": "Every library operation with the default (state-saving) rounding policies leaves the floating-point control word exactly as it found it, whether it returns normally or throws.", "quantifier": "every operation of the model, every initial control word, every platform back end, every evaluation order, every checking policy", "why_tests_cant": "The rounding mode is hidden global state; a test sees it only if it happens to inspect it after that call on that path, in particular on exceptional paths.", "anchors": ["include/boost/numeric/interval/rounding.hpp: save_state_unprotected, save_state", "include/boost/numeric/interval/hw_rounding.hpp"]}
{"id": "C07", "title": "Unprotected rounding is transparent", "statement": "Inside the lifetime of one rounding object, computing with the unprotected interval type gives exactly the same results and exceptions as computing with the protected type, and on leaving the region the control word is the one at entry.", "quantifier": "every sequence of operations, every nesting, every initial control word", "why_tests_cant": "It is an equivalence between two whole execution disciplines, for arbitrary client computations.", "anchors": ["include/boost/numeric/interval/rounding.hpp", "include/boost/numeric/interval/policies.hpp: unprotect", "doc/rounding.htm"]}
{"id": "C08", "title": "Evaluation order of arguments is unobservable", "statement": "C++ leaves open in which order the two bounds of a result are computed although each computation changes the global rounding mode; results, exceptions and final mode never depend on this order.", "quantifier": "every operation, every evaluation-order schedule, every initial mode", "why_tests_cant": "One compiler picks one order; tests never see the other ones.", "anchors": ["include/boost/numeric/interval/rounded_arith.hpp", "include/boost/numeric/interval/arith.hpp"]}
{"id": "C09", "title": "Empty operands give empty results", "statement": "With a checking policy that represents empty intervals, every operation applied to an empty operand (or to a NaN number) yields the empty interval, and none of them throws.", "quantifier": "all operations, all values of the other operands, all representations of emptiness (inverted or NaN bounds)", "why_tests_cant": "Emptiness has many representations (any NaN bound or any inverted pair).", "anchors": ["include/boost/numeric/interval/checking.hpp", "include/boost/numeric/interval/detail/test_input.hpp"]}
{"id": "C10", "title": "No silent empty interval under the default policy", "statement": "With the default checking (no NaN, no empty), an operation whose mathematical result is empty throws std::runtime_error, and an interval delivered for valid operands always has non-NaN bounds with lower <= upper.", "quantifier": "all operations, all valid operands", "why_tests_cant": "A universally quantified invariant on the results of all operations.", "anchors": ["include/boost/numeric/interval/checking.hpp: checking_no_empty, checking_strict"]}
{"id": "C11", "title": "NaN is caught by the catching policy", "statement": "With checking_catch_nan, passing a NaN number as operand throws std::invalid_argument and nothing else happens; numbers that are not NaN never trigger it.", "quantifier": "all operations with number operands, all numbers", "why_tests_cant": "All values of the number and of the other operand.", "anchors": ["include/boost/numeric/interval/checking.hpp: checking_catch_nan", "include/boost/numeric/interval/detail/test_input.hpp"]}
{"id": "C12", "title": "Bounds are optimal", "statement": "With correctly rounded base operations, x + y, x - y, x * y, x / y (0 outside y), square, sqrt, abs return the smallest interval with representable bounds that contains all the exact results.", "quantifier": "all formats, all intervals, including overflow, underflow, unbounded operands", "why_tests_cant": "Minimality is a universally quantified statement over all competing intervals.", "anchors": ["include/boost/numeric/interval/arith.hpp", "include/boost/numeric/interval/rounded_arith.hpp"]}
{"id": "C13", "title": "Inclusion isotonicity", "statement": "If x is contained in x' and y in y', then x op y is contained in x' op y' for + - * / , and likewise for the unary functions.", "quantifier": "all nested pairs of intervals, all formats", "why_tests_cant": "Quantifies over all pairs of nested operands.", "anchors": ["include/boost/numeric/interval/arith.hpp", "include/boost/numeric/interval/arith2.hpp"]}
{"id": "C14", "title": "Fundamental theorem for whole expressions", "statement": "Evaluating any expression built from + - * / , negation, abs, square, pow, sqrt, min, max, hull and constants with intervals gives an interval that contains the exact value of the expression at every choice of real points in the operand intervals where the real expression is defined.", "quantifier": "all finite expressions, all environments, all real points", "why_tests_cant": "Quantifies over all programs of a language.", "anchors": ["include/boost/numeric/interval/arith.hpp", "include/boost/numeric/interval/arith2.hpp", "include/boost/numeric/interval/utility.hpp"]}
{"id": "C15", "title": "sqrt, square, abs, inverse enclose", "statement": "sqrt(x), square(x), abs(x) and multiplicative_inverse(x) contain the image of every point of x in the domain; sqrt of a wholly negative interval is empty.", "quantifier": "as C01", "why_tests_cant": "The claim ranges over every pair of real points in every pair of intervals; a test run visits finitely many floating-point inputs and compares with another rounded computation.", "anchors": ["include/boost/numeric/interval/arith2.hpp: sqrt, square, multiplicative_inverse", "include/boost/numeric/interval/utility.hpp: abs"]}
{"id": "C16", "title": "square is at least as sharp as x*x", "statement": "square(x) is included in x * x, and its lower bound is never negative.", "quantifier": "all non-empty intervals", "why_tests_cant": "All intervals.", "anchors": ["include/boost/numeric/interval/arith2.hpp: square"]}
{"id": "C17", "title": "Two-part division", "statement": "division_part1(x, y, b) together with division_part2(x, y, b) when b is true covers every quotient a / c with a in x, 0 <> c in y; when b is false the second part is not needed.", "quantifier": "all x, y", "why_tests_cant": "Set cover over all quotients for all operand pairs.", "anchors": ["include/boost/numeric/interval/arith2.hpp: division_part1, division_part2", "include/boost/numeric/interval/detail/division.hpp: div_zero_part1, div_zero_part2"]}
{"id": "C18", "title": "fmod is a translate by an integer multiple", "statement": "fmod(x, y) contains, for one integer n common to all points, a - n*b for every a in x, b in y; if moreover the quotient is small enough for the integer to be exact, the lower bound lies in [0, y.upper()).", "quantifier": "all non-empty x, y with 0 not in y, finite lower bound", "why_tests_cant": "All points, all operands; the documented range claim fails for large quotients.", "anchors": ["include/boost/numeric/interval/arith2.hpp: fmod"]}
{"id": "C19", "title": "Monotone elementary functions enclose", "statement": "Given a math library whose directed variants bracket the true function, exp, log, asin, acos, atan, sinh, tanh, asinh, acosh, cosh, atanh return intervals containing the image of each point of x inside the domain, the empty interval if x lies outside the domain, and never go outside the range of the function when documented.", "quantifier": "all intervals, all bracketing math libraries", "why_tests_cant": "The claim ranges over every pair of real points in every pair of intervals; a test run visits finitely many floating-point inputs and compares with another rounded computation.", "anchors": ["include/boost/numeric/interval/transc.hpp", "include/boost/numeric/interval/rounded_transc.hpp"]}
{"id": "C20", "title": "cos, sin, tan enclose and terminate", "statement": "cos(x), sin(x), tan(x) terminate and contain the image of each point of x (tan: where defined), whatever the magnitude and width of x; cos and sin stay inside [-1, 1] up to what the library guarantees.", "quantifier": "all non-empty intervals, all formats, all bracketing math libraries", "why_tests_cant": "Range reduction with an inexact period on unbounded arguments, plus a recursive call.", "anchors": ["include/boost/numeric/interval/transc.hpp: cos, sin, tan"]}
{"id": "C21", "title": "The pi constants bracket pi", "statement": "For float, double and long double the interval constants pi, pi/2, 2*pi contain the real number pi (resp. half, twice); both bounds are representable and for float and double they are consecutive representable numbers; the generic fallback brackets as well.", "quantifier": "the real number pi (irrational)", "why_tests_cant": "pi is not representable; a test can only compare with another approximation.", "anchors": ["include/boost/numeric/interval/constants.hpp"]}
{"id": "C22", "title": "Set predicates decide set relations", "statement": "in, zero_in, subset, proper_subset, overlap, singleton, equal, empty answer true exactly when the corresponding relation between the sets holds.", "quantifier": "all intervals (also empty), all numbers", "why_tests_cant": "Equivalence with quantified set statements.", "anchors": ["include/boost/numeric/interval/utility.hpp"]}
{"id": "C23", "title": "intersect is set intersection", "statement": "intersect(x, y) denotes exactly the intersection of x and y, and is empty when they are disjoint.", "quantifier": "all intervals, all points", "why_tests_cant": "All points of all intervals.", "anchors": ["include/boost/numeric/interval/utility.hpp: intersect"]}
{"id": "C24", "title": "hull is the least common enclosure", "statement": "hull of two intervals / numbers contains both and is included in every interval that does; an empty or NaN argument is ignored.", "quantifier": "all arguments", "why_tests_cant": "Minimality quantifies over all competitors.", "anchors": ["include/boost/numeric/interval/utility.hpp: hull", "include/boost/numeric/interval/interval.hpp: hull"]}
{"id": "C25", "title": "bisect covers and nests", "statement": "The two halves returned by bisect(x) cover x and are contained in x; they share their common bound. (Fails when the midpoint overflows.)", "quantifier": "all intervals", "why_tests_cant": "All intervals, including those on which the midpoint rounds to a bound or overflows.", "anchors": ["include/boost/numeric/interval/utility.hpp: bisect"]}
{"id": "C26", "title": "median is inside, width is an upper bound", "statement": "median(x) is a point of x for every bounded non-empty x whose midpoint sum does not overflow; width(x) is at least b - a for all a, b in x, and zero for empty x.", "quantifier": "all intervals", "why_tests_cant": "All intervals.", "anchors": ["include/boost/numeric/interval/utility.hpp: median, width"]}
{"id": "C27", "title": "widen contains the neighbourhood", "statement": "widen(x, v) contains every point at distance at most v >= 0 from x.", "quantifier": "all intervals and radii", "why_tests_cant": "All points.", "anchors": ["include/boost/numeric/interval/utility.hpp: widen"]}
{"id": "C28", "title": "norm and abs are exact", "statement": "norm(x) is the largest absolute value of the points of x and abs(x) is exactly the set of absolute values.", "quantifier": "all intervals", "why_tests_cant": "Exact extremum over an infinite set.", "anchors": ["include/boost/numeric/interval/utility.hpp: norm, abs"]}
{"id": "C29", "title": "min and max are exact images", "statement": "max(x, y), min(x, y) denote exactly the set of max(a, b), min(a, b).", "quantifier": "all intervals and numbers", "why_tests_cant": "Exact image of an infinite set.", "anchors": ["include/boost/numeric/interval/utility.hpp: max, min"]}
{"id": "C30", "title": "Default comparisons are certain", "statement": "x < y (and <=, >, >=, ==, !=) returns true only if the relation holds for every pair of points, false only if it fails for every pair, and throws comparison_error in every other case, in particular when an operand is empty.", "quantifier": "all intervals and numbers", "why_tests_cant": "Equivalence with a doubly quantified statement.", "anchors": ["include/boost/numeric/interval/interval.hpp: comparison operators"]}
{"id": "C31", "title": "tribool comparisons", "statement": "The tribool comparisons return true / false / indeterminate exactly when the relation holds for all pairs / no pair / some but not all pairs.", "quantifier": "all intervals and numbers", "why_tests_cant": "Equivalence with quantified statements.", "anchors": ["include/boost/numeric/interval/compare/tribool.hpp"]}
{"id": "C32", "title": "certain and possible comparisons", "statement": "The operators of namespace certain (possible) return true exactly when the relation holds for all (some) pairs of points.", "quantifier": "all intervals and numbers", "why_tests_cant": "Equivalence with quantified statements.", "anchors": ["include/boost/numeric/interval/compare/certain.hpp", "include/boost/numeric/interval/compare/possible.hpp"]}
{"id": "C33", "title": "Explicit comparisons and duality", "statement": "cerlt, cerle, cergt, cerge, cereq, cerne and poslt ... posne decide the for-all / exists relation, and cerX is the negation of the dual posX.", "quantifier": "all intervals and numbers", "why_tests_cant": "Equivalence with quantified statements.", "anchors": ["include/boost/numeric/interval/compare/explicit.hpp"]}
{"id": "C34", "title": "Lexicographic comparisons form a total order", "statement": "The lexicographic < is a strict total order on non-empty intervals, compatible with <=, >, >=, ==, !=.", "quantifier": "all triples of intervals", "why_tests_cant": "Transitivity over all triples.", "anchors": ["include/boost/numeric/interval/compare/lexicographic.hpp"]}
{"id": "C35", "title": "Set comparisons are inclusion", "statement": "The set-namespace operators are proper inclusion, inclusion and equality of the sets; comparison with a number always throws.", "quantifier": "all intervals", "why_tests_cant": "Equivalence with inclusion of infinite sets.", "anchors": ["include/boost/numeric/interval/compare/set.hpp"]}
{"id": "C36", "title": "Construction keeps the value", "statement": "interval(v) of a number is the singleton {v}; interval(l, u) is [l, u] if l <= u and empty (or throws) otherwise; construction from a wider or integer type yields an interval containing the source value.", "quantifier": "all numbers of base and source types, all modes", "why_tests_cant": "All source values, rounding on conversion.", "anchors": ["include/boost/numeric/interval/interval.hpp: constructors"]}
{"id": "C37", "title": "assign / set: strong exception safety and aliasing", "statement": "If construction of the new value throws, assignment leaves the object unchanged; assigning bounds that alias the object's own bounds behaves as if they were passed by value. (The second half is violated by assign.)", "quantifier": "all objects, all argument aliasing patterns", "why_tests_cant": "Aliasing patterns and failing paths.", "anchors": ["include/boost/numeric/interval/interval.hpp: assign, set, operator="]}
{"id": "C38", "title": "The opposite trick rounds correctly", "statement": "The one-mode rounding policy, which computes downward results as the opposite of upward results of opposites, delivers the same values as switching to downward mode.", "quantifier": "all operands, all formats, also infinities and NaN", "why_tests_cant": "All operand pairs of all formats.", "anchors": ["include/boost/numeric/interval/rounded_arith.hpp: rounded_arith_opp"]}
{"id": "C39", "title": "Extended-precision evaluation is harmless", "statement": "Computing in a wider register format and then rounding to the destination format in the same directed mode gives exactly the directly rounded result.", "quantifier": "all real results, all pairs of nested formats, both directed modes", "why_tests_cant": "Double rounding over all reals.", "anchors": ["include/boost/numeric/interval/detail/x86_rounding_control.hpp: force_rounding"]}
{"id": "C40", "title": "Control-word encodings", "statement": "Each platform back end sets the mode it names, leaves the other control bits as specified, and save/restore round-trips; the Microsoft conversion functions are mutually inverse on the bits they handle.", "quantifier": "all control words", "why_tests_cant": "All control words of all back ends, most of which do not exist on the test machine.", "anchors": ["include/boost/numeric/interval/detail/msvc_rounding_control.hpp", "include/boost/numeric/interval/detail/x86_rounding_control.hpp", "include/boost/numeric/interval/detail/c99_rounding_control.hpp"]}
{"id": "C41", "title": "Exact base types give the exact image", "statement": "With an exact base field (e.g. rationals) and the default rounding, +, -, *, / by an interval without zero return exactly the set of results.", "quantifier": "all rational intervals", "why_tests_cant": "Equality of infinite sets.", "anchors": ["include/boost/numeric/interval/rounding.hpp: rounded_math", "include/boost/numeric/interval/rounded_arith.hpp: rounded_arith_exact"]}
{"id": "C42", "title": "Mixed integer arithmetic", "statement": "The overloads of + - * / between an interval and a built-in integer give an enclosure of the result with the integer's exact value when the integer is exactly representable.", "quantifier": "all intervals, all ints", "why_tests_cant": "All operands.", "anchors": ["include/boost/numeric/interval/ext/integer.hpp"]}
{"id": "C43", "title": "nth_root encloses and terminates", "statement": "nth_root(x, k) terminates and contains the k-th root of each point of x (odd k: also negative points; even k: non-negative ones) when called in the upward mode expected by the default policies; called in another mode it may lose the enclosure and it leaves the rounding mode changed.", "quantifier": "all intervals, all k >= 1, all formats", "why_tests_cant": "Loop termination and Newton invariants over all inputs; hidden mode state.", "anchors": ["include/boost/numeric/interval/arith2.hpp: nth_root, root_aux"]}
{"id": "C44", "title": "Output operator", "statement": "operator<< writes [] for empty intervals and otherwise [l,u] with the two bounds in order.", "quantifier": "all intervals and number printers", "why_tests_cant": "All intervals.", "anchors": ["include/boost/numeric/interval/io.hpp"]}
{"id": "C45", "title": "numeric_limits", "statement": "numeric_limits<interval<T>>::min() / max() ... denote the documented intervals, ordered and non-empty.", "quantifier": "all base types", "why_tests_cant": "Generic in the base type.", "anchors": ["include/boost/numeric/interval/limits.hpp"]}
{"id": "C46", "title": "interval over machine integers", "statement": "With a built-in integer base type, +, -, * return the exact image or run into signed overflow (never a wrong interval), while / may lose the enclosure.", "quantifier": "all word sizes, all operands", "why_tests_cant": "All word sizes and operands, undefined behaviour included.", "anchors": ["include/boost/numeric/interval/rounding.hpp: rounded_math", "include/boost/numeric/interval/rounded_arith.hpp: rounded_arith_exact"]}
{"id": "C47", "title": "pow encloses", "statement": "pow(x, k) contains a^k for every a in x (a <> 0 when k < 0), for every int k except the most negative one, on which the code negates k and overflows.", "quantifier": "all intervals, all int exponents", "why_tests_cant": "Loop over the bits of all exponents and accumulation of rounding.", "anchors": ["include/boost/numeric/interval/arith2.hpp: pow, pow_dn, pow_up"]}
{"id": "C48", "title": "Example programs do what they promise", "statement": "The sign filter of examples/filter.cpp only certifies a determinant sign that is true; interval Horner evaluation encloses the polynomial; the Newton step of examples keeps every root and proves existence when claimed. With exact arithmetic both algorithms of filter.cpp decide the sign.", "quantifier": "all matrices, all polynomials, all functions satisfying the hypotheses", "why_tests_cant": "All inputs of client algorithms.", "anchors": ["examples/filter.cpp", "examples/horner.cpp", "examples/newton-raphson.cpp"]}
{"id": "C49", "title": "Algebraic symmetries", "statement": "- - x = x, x + y = y + x, x * y = y * x, x - y = x + (-y) as sets, for all operands.", "quantifier": "all intervals", "why_tests_cant": "All operands.", "anchors": ["include/boost/numeric/interval/arith.hpp"]}
{"id": "C50", "title": "Two-number arithmetic", "statement": "interval_lib::add, sub, mul, div of two numbers return an interval that contains the exact result of the operation (division by zero gives the empty interval).", "quantifier": "all pairs of finite numbers, all rounding modes", "why_tests_cant": "All operand pairs.", "anchors": ["include/boost/numeric/interval/arith3.hpp"]}
{"id": "C51", "title": "A number operand acts as its singleton", "statement": "For + - * / , hull, intersect, min, max, comparisons: the overload taking a number behaves as the overload taking the singleton interval of this number.", "quantifier": "all finite numbers and intervals", "why_tests_cant": "Equality of separately coded overloads on all operands.", "anchors": ["include/boost/numeric/interval/arith.hpp", "include/boost/numeric/interval/utility.hpp"]}
{"id": "C52", "title": "Division by a zero-containing divisor is the smallest interval", "statement": "When y contains zero and other points, x / y is the smallest interval containing all quotients, as documented. (Violated when one bound of x is zero and y has a zero bound.)", "quantifier": "all x, y", "why_tests_cant": "Minimality over all competitors.", "anchors": ["include/boost/numeric/interval/detail/division.hpp: div_positive, div_negative, div_zero", "doc/interval.htm"]}
{"id": "C53", "title": "Reading intervals back", "statement": "The input operator of examples/io.cpp accepts exactly [l,u], [l] and bare numbers, consumes exactly that text and stores the interval with these bounds; other texts set the failure state and store the empty interval; what io.hpp, io_std and io_sngl write is read back as the same interval. (Violated: the text [] written for an empty interval is rejected, and an indeterminate variable is copied when the text ends before the first number.)", "quantifier": "all texts, all number readers, all intervals and policies", "why_tests_cant": "All texts, including truncated ones; uninitialised variables are invisible to tests.", "anchors": ["examples/io.cpp: operator>>, io_std, io_sngl", "include/boost/numeric/interval/io.hpp"]}
{"id": "C54", "title": "Output styles of the example", "statement": "io_wide writes bounds of an interval that contains the operand, widened by half a unit of the last digit; io_wdth writes a ball that contains the operand (violated with rounded arithmetic); io_prec writes a point of the operand, restores the precision, and its conversion to int is defined (violated for unbounded operands).", "quantifier": "all intervals, all streams, all rounding modes", "why_tests_cant": "Enclosure over all operands and stream states.", "anchors": ["examples/io.cpp: io_wdth, io_prec, io_wide"]}
{"id": "C55", "title": "Rounding to an integer through a narrower format", "statement": "On back ends that only have rint(double), int_down and int_up of a long double are the floor and the ceiling. (Violated above 2^53; what holds: they are the nearest integers of double format on the right side, and exact up to 53 digits.)", "quantifier": "all finite numbers of the wide format, both arithmetics", "why_tests_cant": "Fails only for arguments with more than 53 integer digits.", "anchors": ["include/boost/numeric/interval/detail/c99sub_rounding_control.hpp: to_int", "include/boost/numeric/interval/detail/ppc_rounding_control.hpp: to_int", "include/boost/numeric/interval/detail/sparc_rounding_control.hpp: to_int", "include/boost/numeric/interval/rounded_arith.hpp: int_down, int_up"]}
{"id": "C56", "title": "Elementary functions through a correctly rounded library", "statement": "With the policy of examples/transc.cpp (every elementary function is computed by MPFR in the format of the base type or a wider one and converted in the requested direction), every program has the same outcome as with rounded_transc_std over a correctly rounded library, and the monotone functions return the smallest enclosure.", "quantifier": "all programs of the public interface, all rounding modes", "why_tests_cant": "All programs and arguments; double rounding only shows on rare arguments.", "anchors": ["examples/transc.cpp"]}
{"id": "C57", "title": "Base types without infinity", "statement": "With a base type whose numeric_limits has no infinity (rationals, integers), the operations that need an infinite bound (whole, division by an interval containing zero, inverse powers) stop with an assertion, exactly in these cases, and never return a wrong interval. (Violated with NDEBUG: infinity() is 0 and the results do not enclose.)", "quantifier": "all operands over a base type without infinity", "why_tests_cant": "Which operands need an infinite bound ranges over all intervals.", "anchors": ["include/boost/numeric/interval/checking.hpp: checking_base::pos_inf, neg_inf", "include/boost/numeric/interval/detail/division.hpp", "examples/rational.cpp"]}
{"id": "C58", "title": "Exceptions come from the policies and the base type only", "statement": "The interval functions throw nothing by themselves: whatever the operands (empty, NaN, no intervals), an exception is one of the classes the checking policy is composed of, an assertion of checking_base, or a failing base-type operation; with policies and a base type that never fail every call returns. Comparisons also throw comparison_error. (Violated: pow overflows on the smallest int, nth_root asserts on an index that is not positive.)", "quantifier": "all functions, all operands, all programs with regions, all configurations and states", "why_tests_cant": "Absence of outcomes over all operands, including ill-formed ones.", "anchors": ["doc/interval.htm: Exception throwing", "include/boost/numeric/interval/checking.hpp", "include/boost/numeric/interval/arith2.hpp: pow, nth_root"]}
{"id": "C59", "title": "nth_root and pow are inverse to each other", "statement": "nth_root(pow(x, k), k) encloses x for odd k and abs(x) for even k, and pow(nth_root(x, k), k) encloses the numbers of x that have a k-th root. (Violated: with policies that represent empty intervals, unbounded x gives a NaN bound.)", "quantifier": "all non-empty intervals, all positive k, all configurations", "why_tests_cant": "All intervals and all exponents; the root is an iteration.", "anchors": ["doc/interval.htm: nth_root", "include/boost/numeric/interval/arith2.hpp: pow, nth_root"]}
{"id": "C60", "title": "norm is a norm", "statement": "norm(x) is 0 for the interval {0} only, norm(-x) = norm(x), a larger interval has a larger norm, norm(x+y) <= norm(x) + norm(y), and norm(x*y) is norm(x)*norm(y) rounded upwards. (Violated: the triangle inequality holds for the sum rounded upwards only.)", "quantifier": "all non-empty intervals, unbounded ones included, all configurations with tight rounding", "why_tests_cant": "A relation between results of several calls on all operands.", "anchors": ["doc/interval.htm: norm", "include/boost/numeric/interval/utility.hpp: norm", "include/boost/numeric/interval/arith.hpp: operator+, operator*"]}
{"id": "C61", "title": "Subdistributivity", "statement": "x*(y+z) is contained in x*y + x*z. (Violated under rounding; holds for exact base types.)", "quantifier": "all non-empty bounded intervals, all configurations", "why_tests_cant": "A relation between results of several calls on all operands.", "anchors": ["include/boost/numeric/interval/arith.hpp: operator+, operator*"]}
{"id": "C62", "title": "Intervals are a lattice", "statement": "hull and intersect are commutative, associative and idempotent where they apply and absorb each other, with empty results reported in the same way on both sides; min and max are commutative, associative, idempotent, absorb each other and distribute.", "quantifier": "all intervals, empty ones where the policy represents them, all configurations", "why_tests_cant": "Laws between results of several calls on all operands.", "anchors": ["doc/interval.htm: intersect, hull, min, max", "include/boost/numeric/interval/utility.hpp: intersect, hull, min, max"]}
{"id": "C63", "title": "The determinant test holds for all sizes", "statement": "The Gaussian elimination of test/det.cpp ends with the same matrix, to the bit, whichever of the four interval types of the test it uses (rounding mode switched for each operation or one mode throughout; protected, or unprotected under a rounding object), and restores the control word.", "quantifier": "all matrix sizes, all floating-point formats, all checking policies, all initial rounding modes, all orders of evaluation", "why_tests_cant": "The test runs one size with one matrix from one rounding mode on one platform.", "anchors": ["test/det.cpp: det", "include/boost/numeric/interval/rounded_arith.hpp", "include/boost/numeric/interval/policies.hpp: unprotect"]}
{"id": "C64", "title": "Results may stay in registers as long as nothing overflows or underflows", "statement": "With the x86 fast rounding control (precision control set, no forced stores) interval results that are kept in registers with a wider exponent range and stored later, in any rounding modes, are the same smallest enclosures as if each operation had been rounded to the base type, provided that the exact limits of the result neither overflow nor underflow; on overflow and on underflow, or without the precision control, the stored interval can miss the exact result.", "quantifier": "all formats of equal precision, all intervals, all modes in force at the stores", "why_tests_cant": "When the compiler stores a register, and in which mode, is not visible to a test.", "anchors": ["include/boost/numeric/interval/ext/x86_fast_rounding_control.hpp", "doc/rounding.htm: Extended Registers"]}
{"id": "C65", "title": "Comparing is subtracting and comparing with zero", "statement": "For every relation, comparing two intervals gives the same answer as comparing their computed difference with zero, for all comparison operators (exception, indeterminate, certain, possible, explicit functions).", "quantifier": "all non-empty intervals over IEEE formats and exact types, all relations, all checking policies", "why_tests_cant": "Depends on gradual underflow for differences of all pairs of numbers.", "anchors": ["include/boost/numeric/interval/arith.hpp: operator-", "include/boost/numeric/interval/interval.hpp", "include/boost/numeric/interval/compare/certain.hpp", "include/boost/numeric/interval/compare/possible.hpp", "include/boost/numeric/interval/compare/tribool.hpp", "include/boost/numeric/interval/compare/explicit.hpp"]}
{"id": "C66", "title": "Inverse operations recover the operand", "statement": "An operation followed by its inverse returns an interval that contains the operand: (x+y)-y, (x-y)+y, (x*y)/y, (x/y)*y, 1/(1/x), square and sqrt, exp and log, the hyperbolic functions and their inverses, and the trigonometric functions after their inverses; x-x contains 0 and x/x contains 1.", "quantifier": "all non-empty intervals; divisors that contain zero need a base type with infinities; elementary functions rounded to the right side", "why_tests_cant": "Holds for infinitely many operands and for compositions, whose intermediate results are rounded.", "anchors": ["include/boost/numeric/interval/arith.hpp", "include/boost/numeric/interval/arith2.hpp", "include/boost/numeric/interval/transc.hpp"]}
{"id": "C67", "title": "Plain floating-point evaluation stays inside interval evaluation", "statement": "A program that evaluates a formula of + - * /, unary minus, abs, min, max, square, sqrt and reciprocals with plain floating-point numbers, each operation in any rounding mode, and meets neither infinities nor NaNs, computes a number inside the interval that the same formula returns for intervals containing the variables.", "quantifier": "all formulas, all formats, all operands, all rounding modes of each plain operation, all configurations", "why_tests_cant": "The test of the library checks single operations on bounds and midpoints of a grid, in the default mode.", "anchors": ["test/test_float.cpp", "include/boost/numeric/interval/arith.hpp", "include/boost/numeric/interval/arith2.hpp", "include/boost/numeric/interval/utility.hpp"]}
{"id": "C68", "title": "Scaling out of the range of the numbers and back", "statement": "The condition of test/overflow.cpp: n multiplications by f followed by n multiplications by the computed 1/f return an interval that contains the number at the start, whenever the first n multiplications overflow or underflow. (Without overflow or underflow it can fail when 1/f is computed in a directed mode.)", "quantifier": "all formats, all starting numbers and factors of either sign, all n, all configurations and initial rounding modes", "why_tests_cant": "The test has four instances, with one n and the default mode.", "anchors": ["test/overflow.cpp: test_one", "include/boost/numeric/interval/arith.hpp: operator*"]}
{"id": "C69", "title": "Whole formulas are inclusion isotone and can be evaluated piecewise", "statement": "With correctly rounded operations, evaluating a formula with larger operands gives a larger interval. If the operands are divided into pieces, for instance by bisect, the results for the pieces lie in the result for the whole and together contain every value of the formula.", "quantifier": "all formulas over the operators and functions of the library, all nested operand boxes, all divisions into pieces, all control words and evaluation orders", "why_tests_cant": "the formulas and the boxes are unbounded in number; tests check single operations", "anchors": ["include/boost/numeric/interval/arith.hpp: operator+, operator-, operator*, operator/", "include/boost/numeric/interval/arith2.hpp: square, sqrt, pow, multiplicative_inverse", "include/boost/numeric/interval/utility.hpp: bisect, hull, intersect, min, max, abs", "include/boost/numeric/interval/transc.hpp", "examples/findroot_demo.cpp: find_zeros"]}
{"id": "C70", "title": "The exact policy over floating-point types follows plain arithmetic", "statement": "With rounded_arith_exact over float or double the evaluation of a formula of + - * /, unary minus, abs, min, max, square, sqrt, reciprocals, hull and intersect leaves the rounding mode alone and contains what plain floating-point arithmetic in the mode of the caller computes for numbers of the operands; for single-point operands it returns exactly the plain result. The real result may be missed, whatever the mode.", "quantifier": "all formulas of these operations, all formats, all operands for which some plain evaluation stays finite, all control words and evaluation orders, inside and outside of rounding regions", "why_tests_cant": "The outcome depends on the mode of the caller and on every intermediate rounding; the documentation only says that inclusion is no longer guaranteed.", "anchors": ["include/boost/numeric/interval/rounding.hpp: rounded_arith_exact", "include/boost/numeric/interval/rounded_arith.hpp: rounded_arith_exact", "include/boost/numeric/interval/arith.hpp", "include/boost/numeric/interval/arith2.hpp", "include/boost/numeric/interval/utility.hpp", "doc/rounding.htm: Rounding"]}
{"id": "C71", "title": "Loss of precision comes from repeated variables only", "statement": "With exact arithmetic the evaluation of a formula of + - * /, unary minus, abs, min, max, square, pow, reciprocals, hull and intersect in which no variable occurs twice returns exactly the set of its values; any other formula returns the set of values it takes if each occurrence of a variable is a variable of its own. x-x is 0 and x/x is 1 exactly for single points, x*x is square(x) exactly if x has not both signs, and square(x)-2*x is larger than square(x-1)-1 unless x is a point or has no positive numbers.", "quantifier": "all formulas of these operations, all bounded non-empty operands on which no step is undefined, all exact base types; x-x, x/x and x*x for all correctly rounded types", "why_tests_cant": "Exactness of ranges quantifies over all real points of all boxes for all formulas.", "anchors": ["include/boost/numeric/interval/arith.hpp", "include/boost/numeric/interval/arith2.hpp", "include/boost/numeric/interval/utility.hpp", "doc/interval.htm: Interval values and references"]}
{"id": "C72", "title": "Replacing the base type by intervals keeps the meaning of a program", "statement": "A program with tests and loops over interval variables that ends without an exception takes, for any numbers in the initial intervals, the same way through all tests as the program over numbers does - over the real numbers, with rounded results, or in the floating-point type - and its final intervals contain the final numbers; and if a test throws, the numbers decide it either way.", "quantifier": "all programs of assignments, sequences, conditionals, loops and rounding-control blocks with comparisons under the default comparison policy; all intervals, all numbers in them, all initial rounding modes, all schedules", "why_tests_cant": "There are infinitely many programs and executions; a test shows one path for one input.", "anchors": ["include/boost/numeric/interval/interval.hpp: comparison operators", "include/boost/numeric/interval/detail/test_input.hpp", "doc/comparisons.htm: default comparison"]}
{"id": "C73", "title": "What may be concluded from comparisons", "statement": "Under the default and the tribool comparison the six operators respect negation (x < y is the negation of x >= y, with the same exceptions); certain and possible are negations of each other, so neither is total. Operands can be exchanged. x == x is true for single points only and throws otherwise (default), is never refuted by certain != and always holds for possible, lexicographic and set. Certain relations chain like relations of numbers; possible ones do not. Answers of the default comparison remain for parts of the operands. Disjoint operands never throw; operands with two common points always do.", "quantifier": "all six operators, all non-empty intervals over all base types, all checking policies of either operand", "why_tests_cant": "Relations between the answers for all triples of intervals are not a finite set of cases; tests compare few pairs with expected answers.", "anchors": ["include/boost/numeric/interval/interval.hpp: comparison operators", "include/boost/numeric/interval/compare/certain.hpp", "include/boost/numeric/interval/compare/possible.hpp", "include/boost/numeric/interval/compare/tribool.hpp", "doc/interval.htm: Common Pitfalls and Dangers"]}
{"id": "C74", "title": "The requirements on numbers suffice for inclusion", "statement": "Let D be any ordered domain whose operations are monotone the way + - * / are, let the base type represent part of D, and let the rounding object return bounds of the results in D: f_down <= f <= f_up. Whenever a formula of + - * /, unary minus, abs, square, reciprocals, min, max, hull, intersect and pow returns an interval, the interval contains every value of the formula in D over the operands. For built-in integers D can be the integers with the division of C++. The five order properties listed in the documentation give the monotonicity together with commutativity, rules of signs and 0 <= 1; pow needs in addition that products of nonnegative numbers are not rounded below zero.", "quantifier": "all ordered domains, all base types without invalid numbers, all rounding objects built by the library over them, all formulas, all operands, all initial rounding modes and schedules", "why_tests_cant": "It quantifies over all base types a user may supply.", "anchors": ["include/boost/numeric/interval/arith.hpp", "include/boost/numeric/interval/arith2.hpp", "include/boost/numeric/interval/utility.hpp", "include/boost/numeric/interval/detail/division.hpp", "doc/numbers.htm"]}
{"id": "C75", "title": "Bounds and widths", "statement": "lower(x) and upper(x) of a non-empty interval are the greatest lower and the least upper bound of its set, and the interval built from them, by the constructor or by hull, is x again. width(x) is the diameter of the set rounded upwards: it does not depend on the rounding mode in effect, is zero exactly for single points, is infinite for unbounded intervals, is not larger for a part of x, is the same for -x, and the widths of x + y and x - y are not below the sum of the diameters of x and y nor below either width. With exact arithmetic and bounded operands the widths of x + y and x - y are the sum of the widths, and the width of t * x is |t| times the width of x.", "quantifier": "all base types satisfying the requirements, all rounding and checking policies, all non-empty intervals, all initial rounding modes", "why_tests_cant": "The relations hold between results of several functions on all intervals.", "anchors": ["include/boost/numeric/interval/interval.hpp: lower", "include/boost/numeric/interval/utility.hpp: width", "include/boost/numeric/interval/utility.hpp: lower", "include/boost/numeric/interval/utility.hpp: upper", "include/boost/numeric/interval/arith.hpp"]}
{"id": "C76", "title": "The rounding object keeps what its documentation promises", "statement": "In a block that owns a rounding object every function of the object returns a bound of the exact result on the side its name says (the nearest integer on that side for int_down and int_up, the number closest to the average for median), in any order, between calls of the library with the protected or the unprotected interval type and in nested blocks with further protected or unprotected rounding objects; the library calls give what they give outside; the result does not depend on the rounding mode before the block, and after the block, also when left by an exception, the mode is as before. A block gives the same result with one rounding object, with a second nested one, and with a nested unprotected one.", "quantifier": "all programs that call functions of rounding objects and of the library, with branches on all earlier results and nested blocks; all base types whose operations round as requested; all rounding policies of the library; all initial modes and schedules", "why_tests_cant": "The state of the processor between calls depends on the whole history of the program.", "anchors": ["include/boost/numeric/interval/rounded_arith.hpp", "include/boost/numeric/interval/rounded_transc.hpp", "include/boost/numeric/interval/rounding.hpp: save_state", "doc/rounding.htm: Requirements"]}
{"id": "C77", "title": "Accuracy: one unit in the last place", "statement": "For binary floating-point base types, whenever the greatest lower (least upper) bound of the exact result of +, -, *, /, 1/x, square, sqrt, of an elementary function other than sin, cos, tan with a correctly rounded library, or of a conversion is finite and within the range of the format, the computed bound differs from it by less than one unit in the last place (relatively 2^(1-p), at least the distance of subnormal numbers), and equals it if it is representable. Hence the size of a result exceeds the size of the exact range by less than two units. pow(x, n) with n >= 1 is within the relative error of n-1 roundings, provided the powers of the bounds neither overflow nor underflow; one unit does not suffice for it. pow(x, -n) for an interval without zero has the relative error of these roundings, inverted, and of one more rounding, provided the inverses neither overflow nor underflow either.", "quantifier": "all binary formats with at least 3 digits, all rounding policies with directed operations, all checking policies, all non-empty operands, all exponents, all initial rounding modes and schedules", "why_tests_cant": "The error bound concerns every pair of operands of a format; a test can compare a few results with higher precision.", "anchors": ["include/boost/numeric/interval/arith.hpp: operator+", "include/boost/numeric/interval/arith.hpp: operator*", "include/boost/numeric/interval/arith.hpp: operator/", "include/boost/numeric/interval/arith2.hpp: pow", "include/boost/numeric/interval/arith2.hpp: sqrt", "include/boost/numeric/interval/transc.hpp", "include/boost/numeric/interval/utility.hpp"]}
{"id": "C78", "title": "Narrow operands give narrow results", "statement": "With an exact base type, for every formula of + - * /, unary operators, abs, square, 1/x, min, max, intersect and pow that is defined on a bounded box, even with its occurrences of variables taken as independent, there is a constant L such that over every part of the box in which the variables are known up to w, any two points of the result are at most L*w apart. Hence dividing the box into parts gives results that together contain the range of the formula and exceed it by at most L*w, and by less than any given number for small enough parts. Formulas with hull do not have this property.", "quantifier": "all formulas of these operations, all exact base types, all bounded boxes and all their parts, all checking policies, all initial states", "why_tests_cant": "The constant must serve infinitely many boxes; tests evaluate few.", "anchors": ["include/boost/numeric/interval/arith.hpp", "include/boost/numeric/interval/arith2.hpp", "include/boost/numeric/interval/utility.hpp", "examples/newton-raphson.cpp", "doc/interval.htm: Interval values and references"]}
{"id": "C79", "title": "A finer base type or a better library gives narrower results", "statement": "Let every number of one base type be a number of a second one, as float and double, and let the second configuration be correctly rounded. Then the result of a formula over the second type contains every value of the formula and lies in the result over the first type, whatever outward rounding, platform, library and checking policy the first one uses. Converting the operands to the finer format changes nothing, and converting the finer result back to the coarser format is never worse than evaluating in the coarser format.", "quantifier": "all formulas over the operators and functions of the library, all pairs of base types and configurations, all operands, all control words and evaluation orders, inside and outside of rounding regions", "why_tests_cant": "Two evaluations in different types have to be compared for every formula and operand; tests look at one type at a time.", "anchors": ["include/boost/numeric/interval/arith.hpp", "include/boost/numeric/interval/arith2.hpp", "include/boost/numeric/interval/utility.hpp", "include/boost/numeric/interval/transc.hpp", "include/boost/numeric/interval/interval.hpp: converting constructors", "doc/interval.htm: Interval values and references"]}
{"id": "C80", "title": "Exchanging the checking policy", "statement": "A formula whose evaluation returns an interval under a checking policy that forbids empty intervals returns the very same interval under every other checking policy, with and without assertions. Two policies that forbid empty intervals have the same outcome on every formula. If the formula does not use hull, then any two policies deliver the same interval, or an empty interval is created under both; it is thrown where it is forbidden, and where it is allowed the final result is an empty interval. With hull an empty interval created on the way may leave no trace.", "quantifier": "all formulas over the operators and functions of the library, all base types and configurations, all pairs of checking policies, all operands, all control words and evaluation orders", "why_tests_cant": "The policies are template parameters, so a test program is compiled with one of them; the formulas and operands are not exhaustible.", "anchors": ["include/boost/numeric/interval/checking.hpp", "include/boost/numeric/interval/arith.hpp", "include/boost/numeric/interval/utility.hpp", "include/boost/numeric/interval/transc.hpp", "doc/guide.htm: solving equations", "doc/checking.htm"]}
{"id": "C81", "title": "Hull and union, and the functions of the standard library", "statement": "The hull of two non-empty intervals is their union exactly if overlap holds. The templates of the standard library instantiated with intervals (a<b?b:a, a<b?a:b, a>b?a:b, a<0?-a:a with the default comparisons) throw a comparison error exactly if the order of the operands is not certain; where they return, the result has the points of max, min, abs of this library. The worked examples of the documentation for *, square, /, division_part1, division_part2 and fmod come out as printed.", "quantifier": "all base types and checking policies, all non-empty intervals; the examples for double from all control words and evaluation orders", "why_tests_cant": "The claims quantify over all pairs of intervals of all base types; touching operands are the case that is easily missed.", "anchors": ["include/boost/numeric/interval/utility.hpp: hull, overlap, min, max, abs", "include/boost/numeric/interval/interval.hpp: operator<, operator>", "include/boost/numeric/interval/arith2.hpp: fmod, division_part1, division_part2, square", "doc/interval.htm: Operations and functions"]}
{"id": "C82", "title": "Reproducibility across correctly rounded configurations", "statement": "Two correctly rounded configurations of one base type, which may differ in platform, rounding kind, library, constants and checking policy, evaluate every formula to intervals with the same bounds, sin, cos and tan included, also inside blocks that own a rounding object. For floating-point formats the bounds are the same numbers up to the sign of zero.", "quantifier": "all formulas, all operands, all pairs of correctly rounded configurations, all control words and evaluation orders", "why_tests_cant": "A test compares two builds on sample inputs; the claim is about all pairs of configurations and all formulas.", "anchors": ["include/boost/numeric/interval/rounded_arith.hpp: rounded_arith_std, rounded_arith_opp", "include/boost/numeric/interval/rounded_transc.hpp: rounded_transc_std, rounded_transc_opp", "include/boost/numeric/interval/transc.hpp: cos, sin, tan", "include/boost/numeric/interval/arith2.hpp: fmod"]}
{"id": "C83", "title": "The default policies detect invalid numbers", "statement": "doc/guide.htm: the default policies define an interval type that detects invalid numbers. So an operation that is given NaN as a number operand, and the constructors, throw an exception with the default policies. For every composition of the checking classes the answer to NaN is determined: it throws, says yes or says no.", "quantifier": "all compositions of checking policies, all operations with a number operand, all intervals, both rounding kinds with directed rounding, all formats", "why_tests_cant": "A test tries one policy on a few operands; which compositions detect NaN is a statement about all of them.", "anchors": ["include/boost/numeric/interval/checking.hpp: checking_strict, checking_no_nan, checking_catch_nan", "include/boost/numeric/interval/arith.hpp", "include/boost/numeric/interval/utility.hpp: min, max, hull", "doc/guide.htm"]}
{"id": "C84", "title": "Exception arguments of the checking templates", "statement": "doc/checking.htm: checking_no_empty and checking_catch_nan call a function object given by the user when an empty interval is about to be created or an invalid number is seen, and the value it returns is propagated. So function objects only matter from the moment they are called: a program that ends normally has the same result and leaves the same machine state under every policy that differs only in its function objects; if they all throw, two such policies differ only in the exception. In the same way NDEBUG does not change a program whose assertions hold.", "quantifier": "all programs and formulas over all library functions, all operands (also empty intervals and NaN), all compositions of checking policies with arbitrary function objects, all rounding policies, all base types, all machine states and evaluation orders", "why_tests_cant": "A test sees one program under one pair of policies; the claim relates all runs of all programs under all policies.", "anchors": ["include/boost/numeric/interval/checking.hpp: checking_no_empty, checking_catch_nan, exception_create_empty, exception_invalid_number", "include/boost/numeric/interval/arith2.hpp: nth_root", "doc/checking.htm"]}
{"id": "C85", "title": "The elimination of the determinant test encloses the exact elimination", "statement": "Gaussian elimination with full pivoting as in test/det.cpp: the first loop encloses the Hilbert matrix; the search finds the entry of the remaining part that is farthest from zero; the pivot is brought to the diagonal by exchanging two columns and two rows; the elimination below the pivot encloses the exact elimination step, which keeps the determinant and makes the entries below the pivot zero.", "quantifier": "all matrix sizes, all steps, all interval matrices, all enclosed real matrices with nonzero pivot, all floating-point formats, all checking policies, all machine states and evaluation orders", "why_tests_cant": "The test compares results of four interval types with each other for one matrix; it never compares them with an exact result, so it cannot see a wrong elimination.", "anchors": ["test/det.cpp: det"]}
{"id": "C86", "title": "Exceptions may be caught anywhere", "statement": "A program may catch the exceptions of the library and of the base type, also inside the lifetime of a rounding object, and go on with the unprotected type: it has the same outcome as with the protected type, its outcome does not depend on the direction in force at the start or on the order of evaluation, and the control word at the end is the one at the start.", "quantifier": "all client programs with handlers (handlers and regions nested in any way, continuing, replacing or rethrowing), all exceptions, all policies, all machine states, all evaluation orders", "why_tests_cant": "An exception interrupts an operation between two changes of the rounding direction; tests of the library never catch one inside a region and compute on.", "anchors": ["include/boost/numeric/interval/rounding.hpp: save_state", "include/boost/numeric/interval/rounded_transc.hpp: rounded_transc_opp", "include/boost/numeric/interval/rounded_arith.hpp: rounded_arith_opp"]}
{"id": "C87", "title": "Protected and unprotected types may be mixed", "statement": "Inside the lifetime of a rounding object a program may use the unprotected type for some calls and the protected type for others, and create further rounding objects of either type: the outcome is the same as if every call used the protected type and there were no rounding object at all.", "quantifier": "all client programs with handlers and nested regions, every choice of the type for each call and each rounding object, all policies, all machine states, all evaluation orders", "why_tests_cant": "The direction in force at each call depends on the whole history of switches and restorations; a test exercises one nesting.", "anchors": ["include/boost/numeric/interval/rounding.hpp: save_state, save_state_nothing", "include/boost/numeric/interval/policies.hpp: unprotect", "doc/rounding.htm"]}
{"id": "C88", "title": "The rounding control that is chosen governs the unit that computes", "statement": "For every combination of predefined macros hw_rounding.hpp either stops the compilation or provides exactly one implementation of the rounding control, one that is written for the compiler and the processor; the switches of that implementation set the direction of the floating-point unit in which values of the base type are computed, and saving and restoring gives back the control registers.", "quantifier": "all combinations of macros, all back ends, all contents of the control registers, both units of x86, all programs", "why_tests_cant": "A test is compiled with one set of macros on one machine, with one initial setting of the registers.", "anchors": ["include/boost/numeric/interval/hw_rounding.hpp", "include/boost/numeric/interval/detail/x86_rounding_control.hpp", "include/boost/numeric/interval/detail/c99sub_rounding_control.hpp", "include/boost/numeric/interval/detail/x86gcc_rounding_control.hpp", "doc/interval.htm"]}
{"id": "C89", "title": "Stacks of rounding classes and changes of policies", "statement": "doc/rounding.htm: rounding policies are built in levels, each class providing the members required by the next level; save_state saves the mode and restores it, unprotected_rounding removes all controls, and unprotect gives the interval type with the unprotected rounding. So for every stack of classes: unprotect keeps the checking and applied twice is the same type; objects of the unprotected class do nothing at construction and destruction; objects of a stack with save_state restore the control word; the outermost class of a level hides the others of that level; and any class of one level over any class of the level below computes bounds on the right side. The default rounding behaves as the stack with transcendental functions for every program that uses none.", "quantifier": "all stacks of rounding classes, all checking policies, all base types, all library calls and programs, all control words and evaluation orders", "why_tests_cant": "Each stack is another instantiation of the templates; tests compile a handful.", "anchors": ["include/boost/numeric/interval/rounding.hpp", "include/boost/numeric/interval/policies.hpp: change_rounding, change_checking, unprotect", "include/boost/numeric/interval/hw_rounding.hpp: rounded_math", "doc/rounding.htm"]}
{"id": "C90", "title": "The number of writes to the rounding mode", "statement": "doc/rounding.htm 134-136 and 422-520: the std classes switch the rounding mode each time, the opp classes keep it upward, so that a whole sum is computed with the same mode; a rounding object that lives during a computation disables the switches for the whole computation. Counted: with opp an operation of the protected type writes the mode at most twice, of the unprotected type never (midpoints, square roots and functions without symmetry: two more); a region with any number of operations writes it exactly twice, also if it throws, and so does Horner's scheme; n sums write it 2n times protected (3n with std) and twice in a region (2n + 1 with std); exact arithmetic never writes it.", "quantifier": "all library calls and all client programs with nested regions, all operands, all base types, all mathematical libraries, all checking policies, all rounding controls without any law, all control words, all evaluation orders", "why_tests_cant": "The mode is not observable in the results; tests do not count accesses to the control register.", "anchors": ["include/boost/numeric/interval/rounded_arith.hpp", "include/boost/numeric/interval/rounded_transc.hpp", "include/boost/numeric/interval/rounding.hpp: save_state", "doc/rounding.htm", "examples/horner.cpp"]}
{"id": "C91", "title": "The sign of a polynomial, the example of the documentation", "statement": "doc/examples.htm 14-106: sign_polynomial evaluates a polynomial by Horner's rule with intervals and compares with zero; the answers 1 and -1 are the sign, 0 only means that the sign is not known; the optimised version, with a rounding object and the unprotected type, gives the same answers. For both versions: an answer other than 0 is the sign of the polynomial at the point; the outcomes are the same for all inputs and the rounding mode is restored; with exact arithmetic, and also whenever the intermediate values are representable and rounding is to the nearest numbers outwards, 0 means zero; with a policy that sees NaN, a NaN among the inputs makes the comparison throw; without coefficients the array is read out of bounds; the first version writes the rounding mode four times per coefficient but one, the second exactly twice.", "quantifier": "all polynomials of all degrees, all points, all base types, all configurations of rounding and checking, all control words, all evaluation orders", "why_tests_cant": "A false certainty needs an operand for which a bound is rounded to the wrong side of zero; there is no test of the documentation's programs.", "anchors": ["doc/examples.htm", "include/boost/numeric/interval/compare/certain.hpp", "include/boost/numeric/interval/arith.hpp", "include/boost/numeric/interval/rounding.hpp: save_state"]}
{"id": "C92", "title": "The rounding control that does nothing", "statement": "For types that are not built in, rounding_control does nothing. Over an exact base type the classes rounded_arith_exact, _std and _opp and the transcendental classes over them, with or without saving of the state, are therefore interchangeable: every program gives the same outcome and the same state with each of them. (Violated: int_down and int_up of _std and _opp return fractions unchanged, so fmod([5,5],[2,2]) is 0 instead of 1; conv_down of _opp negates unsigned integers in their own type. What holds: all programs that do not call fmod, cos, sin or tan and do not convert such values; _std and _exact agree over inexact types also.)", "quantifier": "all exact base types, all stacks of rounding classes, all checking policies, all programs with branches and regions, all modes of the machine and evaluation orders", "why_tests_cant": "Each stack is another instantiation; test/add.cpp runs sums and differences of two of them on symbolic numbers.", "anchors": ["include/boost/numeric/interval/rounding.hpp: rounding_control", "include/boost/numeric/interval/rounded_arith.hpp", "include/boost/numeric/interval/rounded_transc.hpp", "doc/rounding.htm: Rounding control"]}
{"id": "C93", "title": "The inverse hyperbolic functions of another format", "statement": "With glibc and libstdc++ the rounding classes take asinh, acosh and atanh from the global namespace, where they exist for double only. The interval functions of float and long double built on them nevertheless enclose all values of the real functions, and are the smallest enclosures if the double functions are correctly rounded. (Violated for long double: asinh([2^2000, 2^2000]) and atanh of the point 1 - 2^-60 have no finite upper bound, because the arguments are infinite and 1 as doubles. What holds: the results enclose, for any two formats; they are the smallest enclosures if the other format is wider.)", "quantifier": "all pairs of formats, all libraries that round in the direction in force, all intervals meeting the domain, std and opp classes, all machine states", "why_tests_cant": "Which function is called is decided by name lookup; the values concerned lie between neighbouring doubles or beyond the largest one.", "anchors": ["include/boost/numeric/interval/detail/bugs.hpp: BOOST_NUMERIC_INTERVAL_using_ahyp", "include/boost/numeric/interval/rounded_transc.hpp", "include/boost/numeric/interval/transc.hpp: asinh, acosh, atanh"]}
