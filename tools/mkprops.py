#!/usr/bin/env python3
"""Writes /verif/properties.jsonl (kept as a script so that the list is easy to review and extend)."""
import json, os
H = "include/boost/numeric/interval"
P = []
def p(id, title, statement, quantifier, why, *anchors):
    P.append(dict(id=id, title=title, statement=statement, quantifier=quantifier,
                  why_tests_cant=why, anchors=list(anchors)))

INF = "The claim ranges over every pair of real points in every pair of intervals; a test run visits finitely many floating-point inputs and compares with another rounded computation."

p("C01", "Addition encloses",
  "For non-empty operands, the interval returned by x + y contains a + b for every real a in x and b in y; the same holds for the overloads where one operand is a finite number.",
  "every base type with correctly directed arithmetic (in particular every binary floating-point format), every checking policy, every initial rounding mode, every order of evaluation of function arguments, all intervals including unbounded ones, all real points",
  INF, f"{H}/arith.hpp: operator+", f"{H}/rounded_arith.hpp: add_down, add_up")
p("C02", "Subtraction and negation enclose",
  "x - y contains a - b for every a in x, b in y (also for number operands); -x is exactly the set of the opposites of the points of x.",
  "as C01", INF, f"{H}/arith.hpp: operator-")
p("C03", "Multiplication encloses",
  "x * y contains a * b for every a in x, b in y, for every combination of signs of the bounds, with unbounded operands, underflow and overflow included; also for finite number operands.",
  "as C01", INF + " The nine-way sign analysis also has to be right on zero and infinite bounds at once.",
  f"{H}/arith.hpp: operator*")
p("C04", "Division encloses",
  "x / y contains a / b for every a in x and every non-zero b in y; dividing by an interval reduced to zero gives the empty interval; also for number operands.",
  "as C01", INF + " Zero-containing and zero-touching divisors select different code.",
  f"{H}/arith.hpp: operator/", f"{H}/detail/division.hpp: div_non_zero, div_positive, div_negative, div_zero")
p("C05", "Compound assignment is the binary operator",
  "After x op= y (interval or number right operand, including x op= x) the object holds exactly the value of x op y computed from the old x, and the same exception is thrown when x op y throws.",
  "all operators + - * /, all operands, all policies whose checks do not themselves depend on the object, all rounding modes", 
  "Equality of two code paths on all operands and all failure outcomes, including self-aliasing.",
  f"{H}/arith.hpp: operator+=, operator-=, operator*=, operator/=")
p("C06", "Rounding mode is restored",
  "Every library operation with the default (state-saving) rounding policies leaves the floating-point control word exactly as it found it, whether it returns normally or throws.",
  "every operation of the model, every initial control word, every platform back end, every evaluation order, every checking policy",
  "The rounding mode is hidden global state; a test sees it only if it happens to inspect it after that call on that path, in particular on exceptional paths.",
  f"{H}/rounding.hpp: save_state_unprotected, save_state", f"{H}/hw_rounding.hpp")
p("C07", "Unprotected rounding is transparent",
  "Inside the lifetime of one rounding object, computing with the unprotected interval type gives exactly the same results and exceptions as computing with the protected type, and on leaving the region the control word is the one at entry.",
  "every sequence of operations, every nesting, every initial control word", 
  "It is an equivalence between two whole execution disciplines, for arbitrary client computations.",
  f"{H}/rounding.hpp", f"{H}/policies.hpp: unprotect", "doc/rounding.htm")
p("C08", "Evaluation order of arguments is unobservable",
  "C++ leaves open in which order the two bounds of a result are computed although each computation changes the global rounding mode; results, exceptions and final mode never depend on this order.",
  "every operation, every evaluation-order schedule, every initial mode",
  "One compiler picks one order; tests never see the other ones.",
  f"{H}/rounded_arith.hpp", f"{H}/arith.hpp")
p("C09", "Empty operands give empty results",
  "With a checking policy that represents empty intervals, every operation applied to an empty operand (or to a NaN number) yields the empty interval, and none of them throws.",
  "all operations, all values of the other operands, all representations of emptiness (inverted or NaN bounds)",
  "Emptiness has many representations (any NaN bound or any inverted pair).",
  f"{H}/checking.hpp", f"{H}/detail/test_input.hpp")
p("C10", "No silent empty interval under the default policy",
  "With the default checking (no NaN, no empty), an operation whose mathematical result is empty throws std::runtime_error, and an interval delivered for valid operands always has non-NaN bounds with lower <= upper.",
  "all operations, all valid operands", "A universally quantified invariant on the results of all operations.",
  f"{H}/checking.hpp: checking_no_empty, checking_strict")
p("C11", "NaN is caught by the catching policy",
  "With checking_catch_nan, passing a NaN number as operand throws std::invalid_argument and nothing else happens; numbers that are not NaN never trigger it.",
  "all operations with number operands, all numbers", "All values of the number and of the other operand.",
  f"{H}/checking.hpp: checking_catch_nan", f"{H}/detail/test_input.hpp")
p("C12", "Bounds are optimal",
  "With correctly rounded base operations, x + y, x - y, x * y, x / y (0 outside y), square, sqrt, abs return the smallest interval with representable bounds that contains all the exact results.",
  "all formats, all intervals, including overflow, underflow, unbounded operands", 
  "Minimality is a universally quantified statement over all competing intervals.",
  f"{H}/arith.hpp", f"{H}/rounded_arith.hpp")
p("C13", "Inclusion isotonicity",
  "If x is contained in x' and y in y', then x op y is contained in x' op y' for + - * / , and likewise for the unary functions.",
  "all nested pairs of intervals, all formats", "Quantifies over all pairs of nested operands.",
  f"{H}/arith.hpp", f"{H}/arith2.hpp")
p("C14", "Fundamental theorem for whole expressions",
  "Evaluating any expression built from + - * / , negation, abs, square, pow, sqrt, min, max, hull and constants with intervals gives an interval that contains the exact value of the expression at every choice of real points in the operand intervals where the real expression is defined.",
  "all finite expressions, all environments, all real points", "Quantifies over all programs of a language.",
  f"{H}/arith.hpp", f"{H}/arith2.hpp", f"{H}/utility.hpp")
p("C15", "sqrt, square, abs, inverse enclose",
  "sqrt(x), square(x), abs(x) and multiplicative_inverse(x) contain the image of every point of x in the domain; sqrt of a wholly negative interval is empty.",
  "as C01", INF, f"{H}/arith2.hpp: sqrt, square, multiplicative_inverse", f"{H}/utility.hpp: abs")
p("C16", "square is at least as sharp as x*x",
  "square(x) is included in x * x, and its lower bound is never negative.",
  "all non-empty intervals", "All intervals.", f"{H}/arith2.hpp: square")
p("C17", "Two-part division",
  "division_part1(x, y, b) together with division_part2(x, y, b) when b is true covers every quotient a / c with a in x, 0 <> c in y; when b is false the second part is not needed.",
  "all x, y", "Set cover over all quotients for all operand pairs.",
  f"{H}/arith2.hpp: division_part1, division_part2", f"{H}/detail/division.hpp: div_zero_part1, div_zero_part2")
p("C18", "fmod is a translate by an integer multiple",
  "fmod(x, y) contains, for one integer n common to all points, a - n*b for every a in x, b in y; if moreover the quotient is small enough for the integer to be exact, the lower bound lies in [0, y.upper()).",
  "all non-empty x, y with 0 not in y, finite lower bound", "All points, all operands; the documented range claim fails for large quotients.",
  f"{H}/arith2.hpp: fmod")
p("C19", "Monotone elementary functions enclose",
  "Given a math library whose directed variants bracket the true function, exp, log, asin, acos, atan, sinh, tanh, asinh, acosh, cosh, atanh return intervals containing the image of each point of x inside the domain, the empty interval if x lies outside the domain, and never go outside the range of the function when documented.",
  "all intervals, all bracketing math libraries", INF, f"{H}/transc.hpp", f"{H}/rounded_transc.hpp")
p("C20", "cos, sin, tan enclose and terminate",
  "cos(x), sin(x), tan(x) terminate and contain the image of each point of x (tan: where defined), whatever the magnitude and width of x; cos and sin stay inside [-1, 1] up to what the library guarantees.",
  "all non-empty intervals, all formats, all bracketing math libraries", "Range reduction with an inexact period on unbounded arguments, plus a recursive call.",
  f"{H}/transc.hpp: cos, sin, tan")
p("C21", "The pi constants bracket pi",
  "For float, double and long double the interval constants pi, pi/2, 2*pi contain the real number pi (resp. half, twice); both bounds are representable and for float and double they are consecutive representable numbers; the generic fallback brackets as well.",
  "the real number pi (irrational)", "pi is not representable; a test can only compare with another approximation.",
  f"{H}/constants.hpp")
p("C22", "Set predicates decide set relations",
  "in, zero_in, subset, proper_subset, overlap, singleton, equal, empty answer true exactly when the corresponding relation between the sets holds.",
  "all intervals (also empty), all numbers", "Equivalence with quantified set statements.",
  f"{H}/utility.hpp")
p("C23", "intersect is set intersection",
  "intersect(x, y) denotes exactly the intersection of x and y, and is empty when they are disjoint.",
  "all intervals, all points", "All points of all intervals.", f"{H}/utility.hpp: intersect")
p("C24", "hull is the least common enclosure",
  "hull of two intervals / numbers contains both and is included in every interval that does; an empty or NaN argument is ignored.",
  "all arguments", "Minimality quantifies over all competitors.", f"{H}/utility.hpp: hull", f"{H}/interval.hpp: hull")
p("C25", "bisect covers and nests",
  "The two halves returned by bisect(x) cover x and are contained in x; they share their common bound. (Fails when the midpoint overflows.)",
  "all intervals", "All intervals, including those on which the midpoint rounds to a bound or overflows.",
  f"{H}/utility.hpp: bisect")
p("C26", "median is inside, width is an upper bound",
  "median(x) is a point of x for every bounded non-empty x whose midpoint sum does not overflow; width(x) is at least b - a for all a, b in x, and zero for empty x.",
  "all intervals", "All intervals.", f"{H}/utility.hpp: median, width")
p("C27", "widen contains the neighbourhood",
  "widen(x, v) contains every point at distance at most v >= 0 from x.",
  "all intervals and radii", "All points.", f"{H}/utility.hpp: widen")
p("C28", "norm and abs are exact",
  "norm(x) is the largest absolute value of the points of x and abs(x) is exactly the set of absolute values.",
  "all intervals", "Exact extremum over an infinite set.", f"{H}/utility.hpp: norm, abs")
p("C29", "min and max are exact images",
  "max(x, y), min(x, y) denote exactly the set of max(a, b), min(a, b).",
  "all intervals and numbers", "Exact image of an infinite set.", f"{H}/utility.hpp: max, min")
p("C30", "Default comparisons are certain",
  "x < y (and <=, >, >=, ==, !=) returns true only if the relation holds for every pair of points, false only if it fails for every pair, and throws comparison_error in every other case, in particular when an operand is empty.",
  "all intervals and numbers", "Equivalence with a doubly quantified statement.", f"{H}/interval.hpp: comparison operators")
p("C31", "tribool comparisons",
  "The tribool comparisons return true / false / indeterminate exactly when the relation holds for all pairs / no pair / some but not all pairs.",
  "all intervals and numbers", "Equivalence with quantified statements.", f"{H}/compare/tribool.hpp")
p("C32", "certain and possible comparisons",
  "The operators of namespace certain (possible) return true exactly when the relation holds for all (some) pairs of points.",
  "all intervals and numbers", "Equivalence with quantified statements.", f"{H}/compare/certain.hpp", f"{H}/compare/possible.hpp")
p("C33", "Explicit comparisons and duality",
  "cerlt, cerle, cergt, cerge, cereq, cerne and poslt ... posne decide the for-all / exists relation, and cerX is the negation of the dual posX.",
  "all intervals and numbers", "Equivalence with quantified statements.", f"{H}/compare/explicit.hpp")
p("C34", "Lexicographic comparisons form a total order",
  "The lexicographic < is a strict total order on non-empty intervals, compatible with <=, >, >=, ==, !=.",
  "all triples of intervals", "Transitivity over all triples.", f"{H}/compare/lexicographic.hpp")
p("C35", "Set comparisons are inclusion",
  "The set-namespace operators are proper inclusion, inclusion and equality of the sets; comparison with a number always throws.",
  "all intervals", "Equivalence with inclusion of infinite sets.", f"{H}/compare/set.hpp")
p("C36", "Construction keeps the value",
  "interval(v) of a number is the singleton {v}; interval(l, u) is [l, u] if l <= u and empty (or throws) otherwise; construction from a wider or integer type yields an interval containing the source value.",
  "all numbers of base and source types, all modes", "All source values, rounding on conversion.", f"{H}/interval.hpp: constructors")
p("C37", "assign / set: strong exception safety and aliasing",
  "If construction of the new value throws, assignment leaves the object unchanged; assigning bounds that alias the object's own bounds behaves as if they were passed by value. (The second half is violated by assign.)",
  "all objects, all argument aliasing patterns", "Aliasing patterns and failing paths.", f"{H}/interval.hpp: assign, set, operator=")
p("C38", "The opposite trick rounds correctly",
  "The one-mode rounding policy, which computes downward results as the opposite of upward results of opposites, delivers the same values as switching to downward mode.",
  "all operands, all formats, also infinities and NaN", "All operand pairs of all formats.", f"{H}/rounded_arith.hpp: rounded_arith_opp")
p("C39", "Extended-precision evaluation is harmless",
  "Computing in a wider register format and then rounding to the destination format in the same directed mode gives exactly the directly rounded result.",
  "all real results, all pairs of nested formats, both directed modes", "Double rounding over all reals.", f"{H}/detail/x86_rounding_control.hpp: force_rounding")
p("C40", "Control-word encodings",
  "Each platform back end sets the mode it names, leaves the other control bits as specified, and save/restore round-trips; the Microsoft conversion functions are mutually inverse on the bits they handle.",
  "all control words", "All control words of all back ends, most of which do not exist on the test machine.", f"{H}/detail/msvc_rounding_control.hpp", f"{H}/detail/x86_rounding_control.hpp", f"{H}/detail/c99_rounding_control.hpp")
p("C41", "Exact base types give the exact image",
  "With an exact base field (e.g. rationals) and the default rounding, +, -, *, / by an interval without zero return exactly the set of results.",
  "all rational intervals", "Equality of infinite sets.", f"{H}/rounding.hpp: rounded_math", f"{H}/rounded_arith.hpp: rounded_arith_exact")
p("C42", "Mixed integer arithmetic",
  "The overloads of + - * / between an interval and a built-in integer give an enclosure of the result with the integer's exact value when the integer is exactly representable.",
  "all intervals, all ints", "All operands.", f"{H}/ext/integer.hpp")
p("C43", "nth_root encloses and terminates",
  "nth_root(x, k) terminates and contains the k-th root of each point of x (odd k: also negative points; even k: non-negative ones) when called in the upward mode expected by the default policies; called in another mode it may lose the enclosure and it leaves the rounding mode changed.",
  "all intervals, all k >= 1, all formats", "Loop termination and Newton invariants over all inputs; hidden mode state.", f"{H}/arith2.hpp: nth_root, root_aux")
p("C44", "Output operator",
  "operator<< writes [] for empty intervals and otherwise [l,u] with the two bounds in order.",
  "all intervals and number printers", "All intervals.", f"{H}/io.hpp")
p("C45", "numeric_limits",
  "numeric_limits<interval<T>>::min() / max() ... denote the documented intervals, ordered and non-empty.",
  "all base types", "Generic in the base type.", f"{H}/limits.hpp")
p("C46", "interval over machine integers",
  "With a built-in integer base type, +, -, * return the exact image or run into signed overflow (never a wrong interval), while / may lose the enclosure.",
  "all word sizes, all operands", "All word sizes and operands, undefined behaviour included.", f"{H}/rounding.hpp: rounded_math", f"{H}/rounded_arith.hpp: rounded_arith_exact")
p("C47", "pow encloses",
  "pow(x, k) contains a^k for every a in x (a <> 0 when k < 0), for every int k except the most negative one, on which the code negates k and overflows.",
  "all intervals, all int exponents", "Loop over the bits of all exponents and accumulation of rounding.", f"{H}/arith2.hpp: pow, pow_dn, pow_up")
p("C48", "Example programs do what they promise",
  "The sign filter of examples/filter.cpp only certifies a determinant sign that is true; interval Horner evaluation encloses the polynomial; the Newton step of examples keeps every root and proves existence when claimed. With exact arithmetic both algorithms of filter.cpp decide the sign.",
  "all matrices, all polynomials, all functions satisfying the hypotheses", "All inputs of client algorithms.", "examples/filter.cpp", "examples/horner.cpp", "examples/newton-raphson.cpp")
p("C49", "Algebraic symmetries",
  "- - x = x, x + y = y + x, x * y = y * x, x - y = x + (-y) as sets, for all operands.",
  "all intervals", "All operands.", f"{H}/arith.hpp")
p("C50", "Two-number arithmetic",
  "interval_lib::add, sub, mul, div of two numbers return an interval that contains the exact result of the operation (division by zero gives the empty interval).",
  "all pairs of finite numbers, all rounding modes", "All operand pairs.", f"{H}/arith3.hpp")
p("C51", "A number operand acts as its singleton",
  "For + - * / , hull, intersect, min, max, comparisons: the overload taking a number behaves as the overload taking the singleton interval of this number.",
  "all finite numbers and intervals", "Equality of separately coded overloads on all operands.", f"{H}/arith.hpp", f"{H}/utility.hpp")
p("C52", "Division by a zero-containing divisor is the smallest interval",
  "When y contains zero and other points, x / y is the smallest interval containing all quotients, as documented. (Violated when one bound of x is zero and y has a zero bound.)",
  "all x, y", "Minimality over all competitors.", f"{H}/detail/division.hpp: div_positive, div_negative, div_zero", "doc/interval.htm")

p("C53", "Reading intervals back",
  "The input operator of examples/io.cpp accepts exactly [l,u], [l] and bare numbers, consumes exactly that text and stores the interval with these bounds; other texts set the failure state and store the empty interval; what io.hpp, io_std and io_sngl write is read back as the same interval. (Violated: the text [] written for an empty interval is rejected, and an indeterminate variable is copied when the text ends before the first number.)",
  "all texts, all number readers, all intervals and policies", "All texts, including truncated ones; uninitialised variables are invisible to tests.", "examples/io.cpp: operator>>, io_std, io_sngl", f"{H}/io.hpp")
p("C54", "Output styles of the example",
  "io_wide writes bounds of an interval that contains the operand, widened by half a unit of the last digit; io_wdth writes a ball that contains the operand (violated with rounded arithmetic); io_prec writes a point of the operand, restores the precision, and its conversion to int is defined (violated for unbounded operands).",
  "all intervals, all streams, all rounding modes", "Enclosure over all operands and stream states.", "examples/io.cpp: io_wdth, io_prec, io_wide")
p("C55", "Rounding to an integer through a narrower format",
  "On back ends that only have rint(double), int_down and int_up of a long double are the floor and the ceiling. (Violated above 2^53; what holds: they are the nearest integers of double format on the right side, and exact up to 53 digits.)",
  "all finite numbers of the wide format, both arithmetics", "Fails only for arguments with more than 53 integer digits.", f"{H}/detail/c99sub_rounding_control.hpp: to_int", f"{H}/detail/ppc_rounding_control.hpp: to_int", f"{H}/detail/sparc_rounding_control.hpp: to_int", f"{H}/rounded_arith.hpp: int_down, int_up")
p("C56", "Elementary functions through a correctly rounded library",
  "With the policy of examples/transc.cpp (every elementary function is computed by MPFR in the format of the base type or a wider one and converted in the requested direction), every program has the same outcome as with rounded_transc_std over a correctly rounded library, and the monotone functions return the smallest enclosure.",
  "all programs of the public interface, all rounding modes", "All programs and arguments; double rounding only shows on rare arguments.", "examples/transc.cpp")
p("C57", "Base types without infinity",
  "With a base type whose numeric_limits has no infinity (rationals, integers), the operations that need an infinite bound (whole, division by an interval containing zero, inverse powers) stop with an assertion, exactly in these cases, and never return a wrong interval. (Violated with NDEBUG: infinity() is 0 and the results do not enclose.)",
  "all operands over a base type without infinity", "Which operands need an infinite bound ranges over all intervals.", f"{H}/checking.hpp: checking_base::pos_inf, neg_inf", f"{H}/detail/division.hpp", "examples/rational.cpp")
p("C58", "Exceptions come from the policies and the base type only",
  "The interval functions throw nothing by themselves: whatever the operands (empty, NaN, no intervals), an exception is one of the classes the checking policy is composed of, an assertion of checking_base, or a failing base-type operation; with policies and a base type that never fail every call returns. Comparisons also throw comparison_error. (Violated: pow overflows on the smallest int, nth_root asserts on an index that is not positive.)",
  "all functions, all operands, all programs with regions, all configurations and states", "Absence of outcomes over all operands, including ill-formed ones.", "doc/interval.htm: Exception throwing", f"{H}/checking.hpp", f"{H}/arith2.hpp: pow, nth_root")
p("C59", "nth_root and pow are inverse to each other",
  "nth_root(pow(x, k), k) encloses x for odd k and abs(x) for even k, and pow(nth_root(x, k), k) encloses the numbers of x that have a k-th root. (Violated: with policies that represent empty intervals, unbounded x gives a NaN bound.)",
  "all non-empty intervals, all positive k, all configurations", "All intervals and all exponents; the root is an iteration.", "doc/interval.htm: nth_root", f"{H}/arith2.hpp: pow, nth_root")
p("C60", "norm is a norm",
  "norm(x) is 0 for the interval {0} only, norm(-x) = norm(x), a larger interval has a larger norm, norm(x+y) <= norm(x) + norm(y), and norm(x*y) is norm(x)*norm(y) rounded upwards. (Violated: the triangle inequality holds for the sum rounded upwards only.)",
  "all non-empty intervals, unbounded ones included, all configurations with tight rounding", "A relation between results of several calls on all operands.", "doc/interval.htm: norm", f"{H}/utility.hpp: norm", f"{H}/arith.hpp: operator+, operator*")
p("C61", "Subdistributivity",
  "x*(y+z) is contained in x*y + x*z. (Violated under rounding; holds for exact base types.)",
  "all non-empty bounded intervals, all configurations", "A relation between results of several calls on all operands.", f"{H}/arith.hpp: operator+, operator*")
p("C62", "Intervals are a lattice",
  "hull and intersect are commutative, associative and idempotent where they apply and absorb each other, with empty results reported in the same way on both sides; min and max are commutative, associative, idempotent, absorb each other and distribute.",
  "all intervals, empty ones where the policy represents them, all configurations", "Laws between results of several calls on all operands.", "doc/interval.htm: intersect, hull, min, max", f"{H}/utility.hpp: intersect, hull, min, max")
p("C63", "The determinant test holds for all sizes",
  "The Gaussian elimination of test/det.cpp ends with the same matrix, to the bit, whichever of the four interval types of the test it uses (rounding mode switched for each operation or one mode throughout; protected, or unprotected under a rounding object), and restores the control word.",
  "all matrix sizes, all floating-point formats, all checking policies, all initial rounding modes, all orders of evaluation", "The test runs one size with one matrix from one rounding mode on one platform.", "test/det.cpp: det", f"{H}/rounded_arith.hpp", f"{H}/policies.hpp: unprotect")

p("C64", "Results may stay in registers as long as nothing overflows or underflows",
  "With the x86 fast rounding control (precision control set, no forced stores) interval results that are kept in registers with a wider exponent range and stored later, in any rounding modes, are the same smallest enclosures as if each operation had been rounded to the base type, provided that the exact limits of the result neither overflow nor underflow; on overflow and on underflow, or without the precision control, the stored interval can miss the exact result.",
  "all formats of equal precision, all intervals, all modes in force at the stores", "When the compiler stores a register, and in which mode, is not visible to a test.", f"{H}/ext/x86_fast_rounding_control.hpp", "doc/rounding.htm: Extended Registers")

p("C65", "Comparing is subtracting and comparing with zero",
  "For every relation, comparing two intervals gives the same answer as comparing their computed difference with zero, for all comparison operators (exception, indeterminate, certain, possible, explicit functions).",
  "all non-empty intervals over IEEE formats and exact types, all relations, all checking policies", "Depends on gradual underflow for differences of all pairs of numbers.", f"{H}/arith.hpp: operator-", f"{H}/interval.hpp", f"{H}/compare/certain.hpp", f"{H}/compare/possible.hpp", f"{H}/compare/tribool.hpp", f"{H}/compare/explicit.hpp")
p("C66", "Inverse operations recover the operand",
  "An operation followed by its inverse returns an interval that contains the operand: (x+y)-y, (x-y)+y, (x*y)/y, (x/y)*y, 1/(1/x), square and sqrt, exp and log, the hyperbolic functions and their inverses, and the trigonometric functions after their inverses; x-x contains 0 and x/x contains 1.",
  "all non-empty intervals; divisors that contain zero need a base type with infinities; elementary functions rounded to the right side", "Holds for infinitely many operands and for compositions, whose intermediate results are rounded.", f"{H}/arith.hpp", f"{H}/arith2.hpp", f"{H}/transc.hpp")

p("C67", "Plain floating-point evaluation stays inside interval evaluation",
  "A program that evaluates a formula of + - * /, unary minus, abs, min, max, square, sqrt and reciprocals with plain floating-point numbers, each operation in any rounding mode, and meets neither infinities nor NaNs, computes a number inside the interval that the same formula returns for intervals containing the variables.",
  "all formulas, all formats, all operands, all rounding modes of each plain operation, all configurations", "The test of the library checks single operations on bounds and midpoints of a grid, in the default mode.", "test/test_float.cpp", f"{H}/arith.hpp", f"{H}/arith2.hpp", f"{H}/utility.hpp")
p("C68", "Scaling out of the range of the numbers and back",
  "The condition of test/overflow.cpp: n multiplications by f followed by n multiplications by the computed 1/f return an interval that contains the number at the start, whenever the first n multiplications overflow or underflow. (Without overflow or underflow it can fail when 1/f is computed in a directed mode.)",
  "all formats, all starting numbers and factors of either sign, all n, all configurations and initial rounding modes", "The test has four instances, with one n and the default mode.", "test/overflow.cpp: test_one", f"{H}/arith.hpp: operator*")

p("C69", "Whole formulas are inclusion isotone and can be evaluated piecewise",
  "With correctly rounded operations, evaluating a formula with larger operands gives a larger interval. If the operands are divided into pieces, for instance by bisect, the results for the pieces lie in the result for the whole and together contain every value of the formula.",
  "all formulas over the operators and functions of the library, all nested operand boxes, all divisions into pieces, all control words and evaluation orders",
  "the formulas and the boxes are unbounded in number; tests check single operations",
  f"{H}/arith.hpp: operator+, operator-, operator*, operator/", f"{H}/arith2.hpp: square, sqrt, pow, multiplicative_inverse",
  f"{H}/utility.hpp: bisect, hull, intersect, min, max, abs", f"{H}/transc.hpp", "examples/findroot_demo.cpp: find_zeros")

p("C70", "The exact policy over floating-point types follows plain arithmetic",
  "With rounded_arith_exact over float or double the evaluation of a formula of + - * /, unary minus, abs, min, max, square, sqrt, reciprocals, hull and intersect leaves the rounding mode alone and contains what plain floating-point arithmetic in the mode of the caller computes for numbers of the operands; for single-point operands it returns exactly the plain result. The real result may be missed, whatever the mode.",
  "all formulas of these operations, all formats, all operands for which some plain evaluation stays finite, all control words and evaluation orders, inside and outside of rounding regions",
  "The outcome depends on the mode of the caller and on every intermediate rounding; the documentation only says that inclusion is no longer guaranteed.",
  f"{H}/rounding.hpp: rounded_arith_exact", f"{H}/rounded_arith.hpp: rounded_arith_exact", f"{H}/arith.hpp", f"{H}/arith2.hpp", f"{H}/utility.hpp", "doc/rounding.htm: Rounding")

p("C71", "Loss of precision comes from repeated variables only",
  "With exact arithmetic the evaluation of a formula of + - * /, unary minus, abs, min, max, square, pow, reciprocals, hull and intersect in which no variable occurs twice returns exactly the set of its values; any other formula returns the set of values it takes if each occurrence of a variable is a variable of its own. x-x is 0 and x/x is 1 exactly for single points, x*x is square(x) exactly if x has not both signs, and square(x)-2*x is larger than square(x-1)-1 unless x is a point or has no positive numbers.",
  "all formulas of these operations, all bounded non-empty operands on which no step is undefined, all exact base types; x-x, x/x and x*x for all correctly rounded types",
  "Exactness of ranges quantifies over all real points of all boxes for all formulas.",
  f"{H}/arith.hpp", f"{H}/arith2.hpp", f"{H}/utility.hpp", "doc/interval.htm: Interval values and references")

p("C72", "Replacing the base type by intervals keeps the meaning of a program",
  "A program with tests and loops over interval variables that ends without an exception takes, for any numbers in the initial intervals, the same way through all tests as the program over numbers does - over the real numbers, with rounded results, or in the floating-point type - and its final intervals contain the final numbers; and if a test throws, the numbers decide it either way.",
  "all programs of assignments, sequences, conditionals, loops and rounding-control blocks with comparisons under the default comparison policy; all intervals, all numbers in them, all initial rounding modes, all schedules",
  "There are infinitely many programs and executions; a test shows one path for one input.",
  f"{H}/interval.hpp: comparison operators", f"{H}/detail/test_input.hpp", "doc/comparisons.htm: default comparison")

p("C73", "What may be concluded from comparisons",
  "Under the default and the tribool comparison the six operators respect negation (x < y is the negation of x >= y, with the same exceptions); certain and possible are negations of each other, so neither is total. Operands can be exchanged. x == x is true for single points only and throws otherwise (default), is never refuted by certain != and always holds for possible, lexicographic and set. Certain relations chain like relations of numbers; possible ones do not. Answers of the default comparison remain for parts of the operands. Disjoint operands never throw; operands with two common points always do.",
  "all six operators, all non-empty intervals over all base types, all checking policies of either operand",
  "Relations between the answers for all triples of intervals are not a finite set of cases; tests compare few pairs with expected answers.",
  f"{H}/interval.hpp: comparison operators", f"{H}/compare/certain.hpp", f"{H}/compare/possible.hpp", f"{H}/compare/tribool.hpp", "doc/interval.htm: Common Pitfalls and Dangers")

p("C74", "The requirements on numbers suffice for inclusion",
  "Let D be any ordered domain whose operations are monotone the way + - * / are, let the base type represent part of D, and let the rounding object return bounds of the results in D: f_down <= f <= f_up. Whenever a formula of + - * /, unary minus, abs, square, reciprocals, min, max, hull, intersect and pow returns an interval, the interval contains every value of the formula in D over the operands. For built-in integers D can be the integers with the division of C++. The five order properties listed in the documentation give the monotonicity together with commutativity, rules of signs and 0 <= 1; pow needs in addition that products of nonnegative numbers are not rounded below zero.",
  "all ordered domains, all base types without invalid numbers, all rounding objects built by the library over them, all formulas, all operands, all initial rounding modes and schedules",
  "It quantifies over all base types a user may supply.",
  f"{H}/arith.hpp", f"{H}/arith2.hpp", f"{H}/utility.hpp", f"{H}/detail/division.hpp", "doc/numbers.htm")

p("C75", "Bounds and widths",
  "lower(x) and upper(x) of a non-empty interval are the greatest lower and the least upper bound of its set, and the interval built from them, by the constructor or by hull, is x again. width(x) is the diameter of the set rounded upwards: it does not depend on the rounding mode in effect, is zero exactly for single points, is infinite for unbounded intervals, is not larger for a part of x, is the same for -x, and the widths of x + y and x - y are not below the sum of the diameters of x and y nor below either width. With exact arithmetic and bounded operands the widths of x + y and x - y are the sum of the widths, and the width of t * x is |t| times the width of x.",
  "all base types satisfying the requirements, all rounding and checking policies, all non-empty intervals, all initial rounding modes",
  "The relations hold between results of several functions on all intervals.",
  f"{H}/interval.hpp: lower", f"{H}/utility.hpp: width", f"{H}/utility.hpp: lower", f"{H}/utility.hpp: upper", f"{H}/arith.hpp")

p("C76", "The rounding object keeps what its documentation promises",
  "In a block that owns a rounding object every function of the object returns a bound of the exact result on the side its name says (the nearest integer on that side for int_down and int_up, the number closest to the average for median), in any order, between calls of the library with the protected or the unprotected interval type and in nested blocks with further protected or unprotected rounding objects; the library calls give what they give outside; the result does not depend on the rounding mode before the block, and after the block, also when left by an exception, the mode is as before. A block gives the same result with one rounding object, with a second nested one, and with a nested unprotected one.",
  "all programs that call functions of rounding objects and of the library, with branches on all earlier results and nested blocks; all base types whose operations round as requested; all rounding policies of the library; all initial modes and schedules",
  "The state of the processor between calls depends on the whole history of the program.",
  f"{H}/rounded_arith.hpp", f"{H}/rounded_transc.hpp", f"{H}/rounding.hpp: save_state", "doc/rounding.htm: Requirements")

p("C77", "Accuracy: one unit in the last place",
  "For binary floating-point base types, whenever the greatest lower (least upper) bound of the exact result of +, -, *, /, 1/x, square, sqrt, of an elementary function other than sin, cos, tan with a correctly rounded library, or of a conversion is finite and within the range of the format, the computed bound differs from it by less than one unit in the last place (relatively 2^(1-p), at least the distance of subnormal numbers), and equals it if it is representable. Hence the size of a result exceeds the size of the exact range by less than two units. pow(x, n) with n >= 1 is within the relative error of n-1 roundings, provided the powers of the bounds neither overflow nor underflow; one unit does not suffice for it. pow(x, -n) for an interval without zero has the relative error of these roundings, inverted, and of one more rounding, provided the inverses neither overflow nor underflow either.",
  "all binary formats with at least 3 digits, all rounding policies with directed operations, all checking policies, all non-empty operands, all exponents, all initial rounding modes and schedules",
  "The error bound concerns every pair of operands of a format; a test can compare a few results with higher precision.",
  f"{H}/arith.hpp: operator+", f"{H}/arith.hpp: operator*", f"{H}/arith.hpp: operator/", f"{H}/arith2.hpp: pow", f"{H}/arith2.hpp: sqrt", f"{H}/transc.hpp", f"{H}/utility.hpp")

p("C78", "Narrow operands give narrow results",
  "With an exact base type, for every formula of + - * /, unary operators, abs, square, 1/x, min, max, intersect and pow that is defined on a bounded box, even with its occurrences of variables taken as independent, there is a constant L such that over every part of the box in which the variables are known up to w, any two points of the result are at most L*w apart. Hence dividing the box into parts gives results that together contain the range of the formula and exceed it by at most L*w, and by less than any given number for small enough parts. Formulas with hull do not have this property.",
  "all formulas of these operations, all exact base types, all bounded boxes and all their parts, all checking policies, all initial states",
  "The constant must serve infinitely many boxes; tests evaluate few.",
  f"{H}/arith.hpp", f"{H}/arith2.hpp", f"{H}/utility.hpp", "examples/newton-raphson.cpp", "doc/interval.htm: Interval values and references")

p("C79", "A finer base type or a better library gives narrower results",
  "Let every number of one base type be a number of a second one, as float and double, and let the second configuration be correctly rounded. Then the result of a formula over the second type contains every value of the formula and lies in the result over the first type, whatever outward rounding, platform, library and checking policy the first one uses. Converting the operands to the finer format changes nothing, and converting the finer result back to the coarser format is never worse than evaluating in the coarser format.",
  "all formulas over the operators and functions of the library, all pairs of base types and configurations, all operands, all control words and evaluation orders, inside and outside of rounding regions",
  "Two evaluations in different types have to be compared for every formula and operand; tests look at one type at a time.",
  f"{H}/arith.hpp", f"{H}/arith2.hpp", f"{H}/utility.hpp", f"{H}/transc.hpp", f"{H}/interval.hpp: converting constructors", "doc/interval.htm: Interval values and references")

p("C80", "Exchanging the checking policy",
  "A formula whose evaluation returns an interval under a checking policy that forbids empty intervals returns the very same interval under every other checking policy, with and without assertions. Two policies that forbid empty intervals have the same outcome on every formula. If the formula does not use hull, then any two policies deliver the same interval, or an empty interval is created under both; it is thrown where it is forbidden, and where it is allowed the final result is an empty interval. With hull an empty interval created on the way may leave no trace.",
  "all formulas over the operators and functions of the library, all base types and configurations, all pairs of checking policies, all operands, all control words and evaluation orders",
  "The policies are template parameters, so a test program is compiled with one of them; the formulas and operands are not exhaustible.",
  f"{H}/checking.hpp", f"{H}/arith.hpp", f"{H}/utility.hpp", f"{H}/transc.hpp", "doc/guide.htm: solving equations", "doc/checking.htm")

p("C81", "Hull and union, and the functions of the standard library",
  "The hull of two non-empty intervals is their union exactly if overlap holds. The templates of the standard library instantiated with intervals (a<b?b:a, a<b?a:b, a>b?a:b, a<0?-a:a with the default comparisons) throw a comparison error exactly if the order of the operands is not certain; where they return, the result has the points of max, min, abs of this library. The worked examples of the documentation for *, square, /, division_part1, division_part2 and fmod come out as printed.",
  "all base types and checking policies, all non-empty intervals; the examples for double from all control words and evaluation orders",
  "The claims quantify over all pairs of intervals of all base types; touching operands are the case that is easily missed.",
  f"{H}/utility.hpp: hull, overlap, min, max, abs", f"{H}/interval.hpp: operator<, operator>", f"{H}/arith2.hpp: fmod, division_part1, division_part2, square", "doc/interval.htm: Operations and functions")

p("C82", "Reproducibility across correctly rounded configurations",
  "Two correctly rounded configurations of one base type, which may differ in platform, rounding kind, library, constants and checking policy, evaluate every formula to intervals with the same bounds, sin, cos and tan included, also inside blocks that own a rounding object. For floating-point formats the bounds are the same numbers up to the sign of zero.",
  "all formulas, all operands, all pairs of correctly rounded configurations, all control words and evaluation orders",
  "A test compares two builds on sample inputs; the claim is about all pairs of configurations and all formulas.",
  f"{H}/rounded_arith.hpp: rounded_arith_std, rounded_arith_opp", f"{H}/rounded_transc.hpp: rounded_transc_std, rounded_transc_opp", f"{H}/transc.hpp: cos, sin, tan", f"{H}/arith2.hpp: fmod")

p("C83", "The default policies detect invalid numbers",
  "doc/guide.htm: the default policies define an interval type that detects invalid numbers. So an operation that is given NaN as a number operand, and the constructors, throw an exception with the default policies. For every composition of the checking classes the answer to NaN is determined: it throws, says yes or says no.",
  "all compositions of checking policies, all operations with a number operand, all intervals, both rounding kinds with directed rounding, all formats",
  "A test tries one policy on a few operands; which compositions detect NaN is a statement about all of them.",
  f"{H}/checking.hpp: checking_strict, checking_no_nan, checking_catch_nan", f"{H}/arith.hpp", f"{H}/utility.hpp: min, max, hull", "doc/guide.htm")

p("C84", "Exception arguments of the checking templates",
  "doc/checking.htm: checking_no_empty and checking_catch_nan call a function object given by the user when an empty interval is about to be created or an invalid number is seen, and the value it returns is propagated. So function objects only matter from the moment they are called: a program that ends normally has the same result and leaves the same machine state under every policy that differs only in its function objects; if they all throw, two such policies differ only in the exception. In the same way NDEBUG does not change a program whose assertions hold.",
  "all programs and formulas over all library functions, all operands (also empty intervals and NaN), all compositions of checking policies with arbitrary function objects, all rounding policies, all base types, all machine states and evaluation orders",
  "A test sees one program under one pair of policies; the claim relates all runs of all programs under all policies.",
  f"{H}/checking.hpp: checking_no_empty, checking_catch_nan, exception_create_empty, exception_invalid_number", f"{H}/arith2.hpp: nth_root", "doc/checking.htm")
p("C85", "The elimination of the determinant test encloses the exact elimination",
  "Gaussian elimination with full pivoting as in test/det.cpp: the first loop encloses the Hilbert matrix; the search finds the entry of the remaining part that is farthest from zero; the pivot is brought to the diagonal by exchanging two columns and two rows; the elimination below the pivot encloses the exact elimination step, which keeps the determinant and makes the entries below the pivot zero.",
  "all matrix sizes, all steps, all interval matrices, all enclosed real matrices with nonzero pivot, all floating-point formats, all checking policies, all machine states and evaluation orders",
  "The test compares results of four interval types with each other for one matrix; it never compares them with an exact result, so it cannot see a wrong elimination.", "test/det.cpp: det")
p("C86", "Exceptions may be caught anywhere",
  "A program may catch the exceptions of the library and of the base type, also inside the lifetime of a rounding object, and go on with the unprotected type: it has the same outcome as with the protected type, its outcome does not depend on the direction in force at the start or on the order of evaluation, and the control word at the end is the one at the start.",
  "all client programs with handlers (handlers and regions nested in any way, continuing, replacing or rethrowing), all exceptions, all policies, all machine states, all evaluation orders",
  "An exception interrupts an operation between two changes of the rounding direction; tests of the library never catch one inside a region and compute on.",
  f"{H}/rounding.hpp: save_state", f"{H}/rounded_transc.hpp: rounded_transc_opp", f"{H}/rounded_arith.hpp: rounded_arith_opp")
p("C87", "Protected and unprotected types may be mixed",
  "Inside the lifetime of a rounding object a program may use the unprotected type for some calls and the protected type for others, and create further rounding objects of either type: the outcome is the same as if every call used the protected type and there were no rounding object at all.",
  "all client programs with handlers and nested regions, every choice of the type for each call and each rounding object, all policies, all machine states, all evaluation orders",
  "The direction in force at each call depends on the whole history of switches and restorations; a test exercises one nesting.",
  f"{H}/rounding.hpp: save_state, save_state_nothing", f"{H}/policies.hpp: unprotect", "doc/rounding.htm")

p("C88", "The rounding control that is chosen governs the unit that computes",
  "For every combination of predefined macros hw_rounding.hpp either stops the compilation or provides exactly one implementation of the rounding control, one that is written for the compiler and the processor; the switches of that implementation set the direction of the floating-point unit in which values of the base type are computed, and saving and restoring gives back the control registers.",
  "all combinations of macros, all back ends, all contents of the control registers, both units of x86, all programs",
  "A test is compiled with one set of macros on one machine, with one initial setting of the registers.",
  f"{H}/hw_rounding.hpp", f"{H}/detail/x86_rounding_control.hpp", f"{H}/detail/c99sub_rounding_control.hpp", f"{H}/detail/x86gcc_rounding_control.hpp", "doc/interval.htm")

p("C89", "Stacks of rounding classes and changes of policies",
  "doc/rounding.htm: rounding policies are built in levels, each class providing the members required by the next level; save_state saves the mode and restores it, unprotected_rounding removes all controls, and unprotect gives the interval type with the unprotected rounding. So for every stack of classes: unprotect keeps the checking and applied twice is the same type; objects of the unprotected class do nothing at construction and destruction; objects of a stack with save_state restore the control word; the outermost class of a level hides the others of that level; and any class of one level over any class of the level below computes bounds on the right side. The default rounding behaves as the stack with transcendental functions for every program that uses none.",
  "all stacks of rounding classes, all checking policies, all base types, all library calls and programs, all control words and evaluation orders",
  "Each stack is another instantiation of the templates; tests compile a handful.",
  f"{H}/rounding.hpp", f"{H}/policies.hpp: change_rounding, change_checking, unprotect", f"{H}/hw_rounding.hpp: rounded_math", "doc/rounding.htm")

p("C90", "The number of writes to the rounding mode",
  "doc/rounding.htm 134-136 and 422-520: the std classes switch the rounding mode each time, the opp classes keep it upward, so that a whole sum is computed with the same mode; a rounding object that lives during a computation disables the switches for the whole computation. Counted: with opp an operation of the protected type writes the mode at most twice, of the unprotected type never (midpoints, square roots and functions without symmetry: two more); a region with any number of operations writes it exactly twice, also if it throws, and so does Horner's scheme; n sums write it 2n times protected (3n with std) and twice in a region (2n + 1 with std); exact arithmetic never writes it.",
  "all library calls and all client programs with nested regions, all operands, all base types, all mathematical libraries, all checking policies, all rounding controls without any law, all control words, all evaluation orders",
  "The mode is not observable in the results; tests do not count accesses to the control register.",
  f"{H}/rounded_arith.hpp", f"{H}/rounded_transc.hpp", f"{H}/rounding.hpp: save_state", "doc/rounding.htm", "examples/horner.cpp")

p("C91", "The sign of a polynomial, the example of the documentation",
  "doc/examples.htm 14-106: sign_polynomial evaluates a polynomial by Horner's rule with intervals and compares with zero; the answers 1 and -1 are the sign, 0 only means that the sign is not known; the optimised version, with a rounding object and the unprotected type, gives the same answers. For both versions: an answer other than 0 is the sign of the polynomial at the point; the outcomes are the same for all inputs and the rounding mode is restored; with exact arithmetic, and also whenever the intermediate values are representable and rounding is to the nearest numbers outwards, 0 means zero; with a policy that sees NaN, a NaN among the inputs makes the comparison throw; without coefficients the array is read out of bounds; the first version writes the rounding mode four times per coefficient but one, the second exactly twice.",
  "all polynomials of all degrees, all points, all base types, all configurations of rounding and checking, all control words, all evaluation orders",
  "A false certainty needs an operand for which a bound is rounded to the wrong side of zero; there is no test of the documentation's programs.",
  "doc/examples.htm", f"{H}/compare/certain.hpp", f"{H}/arith.hpp", f"{H}/rounding.hpp: save_state")

p("C92", "The rounding control that does nothing",
  "For types that are not built in, rounding_control does nothing. Over an exact base type the classes rounded_arith_exact, _std and _opp and the transcendental classes over them, with or without saving of the state, are therefore interchangeable: every program gives the same outcome and the same state with each of them. (Violated: int_down and int_up of _std and _opp return fractions unchanged, so fmod([5,5],[2,2]) is 0 instead of 1; conv_down of _opp negates unsigned integers in their own type. What holds: all programs that do not call fmod, cos, sin or tan and do not convert such values; _std and _exact agree over inexact types also.)",
  "all exact base types, all stacks of rounding classes, all checking policies, all programs with branches and regions, all modes of the machine and evaluation orders",
  "Each stack is another instantiation; test/add.cpp runs sums and differences of two of them on symbolic numbers.",
  "include/boost/numeric/interval/rounding.hpp: rounding_control", "include/boost/numeric/interval/rounded_arith.hpp", "include/boost/numeric/interval/rounded_transc.hpp", "doc/rounding.htm: Rounding control")
p("C93", "The inverse hyperbolic functions of another format",
  "With glibc and libstdc++ the rounding classes take asinh, acosh and atanh from the global namespace, where they exist for double only. The interval functions of float and long double built on them nevertheless enclose all values of the real functions, and are the smallest enclosures if the double functions are correctly rounded. (Violated for long double: asinh([2^2000, 2^2000]) and atanh of the point 1 - 2^-60 have no finite upper bound, because the arguments are infinite and 1 as doubles. What holds: the results enclose, for any two formats; they are the smallest enclosures if the other format is wider.)",
  "all pairs of formats, all libraries that round in the direction in force, all intervals meeting the domain, std and opp classes, all machine states",
  "Which function is called is decided by name lookup; the values concerned lie between neighbouring doubles or beyond the largest one.",
  "include/boost/numeric/interval/detail/bugs.hpp: BOOST_NUMERIC_INTERVAL_using_ahyp", "include/boost/numeric/interval/rounded_transc.hpp", "include/boost/numeric/interval/transc.hpp: asinh, acosh, atanh")
out = os.path.join(os.path.dirname(__file__), "..", "properties.jsonl")
with open(out, "w") as f:
    for x in P: f.write(json.dumps(x) + "\n")
print(len(P))
