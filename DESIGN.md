# Formal model of boost/numeric/interval in Lean 4

## 1. Trusted base

* Lean 4.33.0's kernel, and the axioms printed by `#print axioms` for each theorem: at most `propext`,
  `Classical.choice`, `Quot.sound`. No axiom of our own, no `sorry`, no `native_decide`, no `bv_decide`.
* Mathlib 4 (definitions of the reals, extended reals, elementary functions). It is checked by the same kernel.
* The transcription of the C++ text into `lean/Verif/Model/*.lean`. Each definition cites file and lines.
* C++ itself: the meaning of overload resolution, temporaries and lifetimes (the model fixes which overload is called).

## 2. How the code is modelled

**Effects.** The library changes global state (the floating-point control word), throws, asserts, loops, and leaves the
order in which function arguments are evaluated unspecified. The library functions are transcribed once, for an abstract
effect `m` (class `Eff`), exactly like the C++ templates are written once for all policies. `m` is instantiated twice:

* `M W` — the *machine*: functions from the state (control word of type `W`, plus an oracle of booleans that
  resolves each unspecified evaluation order) to an outcome and a new state. Every property is stated here.
* `Res` — the *mode-free* reading: outcome only. It is used in proofs. `Sim` relates the two, and a simulation theorem
  per function (`*_sim`) transfers results from the second to the first.

**Outcomes** are `ok v` or `error e` with `e` one of: `emptyCreated` (`std::runtime_error` of checking_no_empty),
`invalidNumber` (`std::invalid_argument` of checking_catch_nan), `comparison` (`comparison_error`), `assertion`
(`assert` fails), `base` (an operation of the base type has no result: signed overflow and division by zero of built-in
integers - undefined behaviour -, or an exception thrown by a class type), `ub` (undefined behaviour in the library's
own `int` arithmetic), `fuel` (a loop has not ended after the given number of turns; model only).

**Base numbers.** Class `Num T`: the C++ operators the library uses on `T`, each taking the current rounding mode.
Instances: `Fl f`, IEEE-754 binary floating point of an arbitrary format `f` (precision, exponent range; NaN,
infinities, signed zeros, subnormals, four rounding modes); `Rat` (exact class type); `MachInt n` (built-in signed
integers, overflow is an error).

**Rounding policies**: `rounded_arith_exact/std/opp`, `rounded_transc_exact/std/opp`, `save_state`,
`save_state_nothing`, `save_state_unprotected`, over an abstract control word with the back ends as instances.

**Checking policies**: every composition of `checking_base`, `checking_no_empty`, `checking_no_nan`,
`checking_catch_nan`, with and without `NDEBUG`.

**Specification** (`Verif/Spec`): an interval denotes the set `γ I` of the real numbers between its bounds; it knows
nothing of the model's helper functions. Properties speak about `γ`, real arithmetic, outcomes and the control word.

### Simplifications
* A pair of calls that are arguments of one function and both touch the control word is run in the order given by the
  oracle: calls in an argument list are indeterminately sequenced, their bodies never interleave (in all versions of
  C++). The four calls in `min(mul_down, mul_down), max(mul_up, mul_up)` of the product of two intervals of mixed sign
  may be taken in any of 24 orders, so they are run by `quad` (`C08_orders`: the oracle realises all orders).
  A pair in which one member is a checking call is run left to right. In `nth_root` the operands of the quotient and the
  two bounds of a negative interval are run left to right, because the exception and the conversion of a long index depend
  on the order; `nthRootAny` leaves the order open and `Props/RootOrder.lean` carries the theorems over
  (`C08_root_order`, `C43_encloses_any_order`).
* `force_rounding`/extended registers: base operations already round to the destination format; property C39 proves that
  going through a wider register first gives the same directed results (`Model/Register.lean`).
* Mathematical library functions (`exp`, `sin`, ...) are parameters (`Lib`); theorems state what they assume about them
  (`Env.FnOk`, `Env.SqrtOk`).
* Types are erased where only overload resolution matters (`interval_holder`, `number_holder`).
* Conversions between the protected and the unprotected interval type: `fmod`, `cos`, `sin`, `tan` convert their result
  back with the converting constructor (which runs the checks again). Client programs that call them on an interval type
  that is already unprotected use the same conversion in the model; in C++ it is a plain copy. The two differ only in the
  representation of an empty result.
* `nth_root` with `k = INT_MIN`, which the assertion admits only in builds with NDEBUG: `k - 1` is computed in ℤ. The overflow
  of `-pwr` in `pow(y0, k)` is an `ub` that comes first, except when the median is a NaN.
* Streams (`Model/Io.lean`) are a parameter: a state and a function that writes a token. Reading a
  number from text is a parameter too (`Model/IoEx.lean`); a variable without value is `none`, and copying it is `ub`.
* `Model/Handler.lean`: the `Exception` objects of the checking templates. A call throws, or returns a value that the
  library drops; other side effects of such an object are not modelled. `Err.user` is an exception of the program.
* `Model/Mpfr.lean`: the policy of examples/transc.cpp; MPFR is a function from a function name, a direction and an
  argument to a number of MPFR's format, assumed correctly rounded where the theorems say so (`MpfrOk`).
* `Model/Ahyp.lean`: the global `asinh`, `acosh`, `atanh` are functions of one other format (`double`). The result is converted
  back before anything else is done with it; `acosh_down` of `rounded_transc_opp` negates first, C93 leaves it out.
* The environment behind `fesetround` has one direction (`FEnv`). `Model/HwRounding.lean` refines it for x86 with glibc,
  where two units have a register each (C88).
* Not modelled: threads, floating-point exception flags and signalling NaNs, compile-time failures (but for the `#error`
  lines of hw_rounding.hpp and the headers it includes), the inline assembly itself (its documented effect on the control word is modelled).

## 3. Layout

| directory | contents |
|-----------|----------|
| `Verif/Core` | effects (`Eff`, `M`, `Res`), simulation between the machine and the mode-free reading |
| `Verif/Model` | the transcription. `Base` (numbers), `Float` (IEEE-754), `Exact` (rationals), `MachInt`, `Checking`, `Rounding`, `Platform` (control words), `HwRounding` (choice of the back end, two units), `Utility`, `Arith` (`+ - * /`, `sqrt`, ...), `Arith2` (`fmod`, two-part division, `pow`, `nth_root`), `Transc`, `Compare`, `Object` (the class and its members, aliasing), `Conv` (constructors from other types), `Register` (wide registers), `Constants`, `Io`, `Client` (programs using the library, rounding regions), `Expr` (expressions), `Examples` (example programs of the repository), `DocSign` (the program of doc/examples.htm) |
| `Verif/Spec` | what properties say: `γ` (the set of an interval), representable numbers and roundings, environments (`Env`: platform + rounding policy + checking policy + `NDEBUG` + math library), `Returns`/`Throws`, real functions, relations. No helper of the model is used to say what a result should be. |
| `Verif/Proofs` | lemmas |
| `Verif/Props` | the theorems named in `MANIFEST.json`, each followed by examples that meet its hypotheses |
| `tools` | `mkprops.py`, `mkroot.sh`, `mkmanifest.py`, `mutate.py` |
| `seeded` | mutants and the log of mutation tests |

An `Env` is arbitrary in every theorem: `V.Ok D U` says that the base operations of the type, with the chosen rounding
policy, satisfy lower/upper bound laws `D`, `U`. It has been proved for every IEEE format with every back end of
`Platform.lean` (`Proofs/Instances.lean`) and for exact rationals, so no theorem rests on an unproved assumption about
arithmetic. Concrete environments (`dbl`, `flt`, `ratEnv`, ...) are used for examples and counterexamples.

## 4. Properties: what is modelled and how it is proved

| id | theorems in | proof |
|----|-------|-------|
| C01-C04, C15, C28, C29, C50 | `Props/Arith`, `Props/Arith2` | case analysis on signs of the bounds, monotonicity in the extended reals, laws of directed rounding; transferred by `Sim` |
| C05, C37 | `Props/Object` | symbolic execution on all outcomes, aliased references as flags of the object transformers |
| C06, C07, C08 | `Props/Mode` | simulation theorem: outcome is independent of mode and oracle, control word restored; induction on client programs |
| C09, C10, C11 | `Props/Empty`, `Props/NoEmpty` | induction on the composition of policies; expressions by induction |
| C12, C13, C16, C49, C51 | `Props/Sharp`, `Props/Arith`, `Props/Arith2`, `Props/Elem`, `Props/TrigIso` | bounds are greatest/least representable; isotonicity from minimality |
| C14 | `Props/Expr` | induction on expressions; an outcome is an enclosure or, in debug builds for types without infinities, an assertion, from some limit on the nesting of `sin`/`cos` on |
| C17, C18, C47, C52 | `Props/Arith2` | set cover; integer translate; loop invariant on the bits of the exponent |
| C19, C20, C21 | `Props/Elem`, `Props/Trig`, `Props/TrigDepth`, `Props/Constants` | monotonicity of the real functions and a bracketing library; reduction modulo 2 pi |
| C22-C27 | `Props/Utility` | order reasoning |
| C30-C35 | `Props/Compare` | order reasoning on sets |
| C36, C42 | `Props/Ctor`, `Props/Arith2` | rounding laws of conversions |
| C38, C40 | `Props/Platform`, `Props/Mode` | symmetry of rounding; bitwise extensionality |
| C39 | `Props/Register` | double rounding in a directed mode |
| C41, C46 | `Props/Sharp`, `Props/MachInt` | exactness of base operations; wrapping witnesses |
| C43 | `Props/Root` (`Proofs/RootMath`, `RootBig` for indices the base type does not represent) | invariant of the Newton loop, finiteness of representable numbers; for rounded indices the gap between neighbours outweighs the error |
| C44, C45 | `Props/Io` | direct |
| C48 | `Props/Examples`, `Props/ExampleRoots`, `Props/ExampleEnds`, `Props/ExampleDemo` | Hoare triples over the work lists; mean value theorem; length of an interval in steps of the format as a measure |
| C53, C54 | `Props/IoEx`, `Props/IoStyle` | case analysis on the text; grammar in `Spec/Read`; rounding laws, table of the 16 powers of ten |
| C55 | `Props/ToInt` | composition of roundings |
| C56 | `Props/Mpfr` | one-directional double rounding is correct rounding; simulation between the two policies |
| C57 | `Props/NoInf` | case analysis of division and pow against a specification of when an infinite bound is needed |
| C58 | `Props/Raise` | a predicate `RM E a` (a fails only with outcomes in E), closed under the operations of the effect, for every model function |
| C59 | `Props/RootPow` | C43 (enclosure of the root) composed with C15/C16-style enclosure of pow |
| C60 | `Props/Algebra` | from C28 (norm is the supremum of the absolute values) and C12 (smallest enclosure) |
| C61 | `Props/Algebra` | from C41 (exact images) |
| C62 | `Props/Algebra` | from C23, C24, C29; set identities |
| C63 | `Props/Det` (`Model/Det`: the program as a `Prog`) | instance of C38 and C07 for the calls the program can make |
| C64 | `Props/Store` (`Model/Register`: `loadI`, `storeI`, `pc24`, `pc53`) | registers of equal precision round like the base type in its normal range; sums are multiples of the smallest number |
| C65 | `Props/Difference` | smallest enclosures; between a difference of two numbers and zero there is a number |
| C66 | `Props/Inverse` | composition of C01-C04, C15, C19, C20 |
| C67 | `Props/Plain` | bounds are numbers of the type, so no rounding passes them; C14 with each result rounded |
| C68 | `Props/Overflow` | as C67: reals with no number between them are in the same intervals |
| C69 | `Props/Isotone`, `Props/Refine` (`Proofs/Isotone`, `Proofs/IsotoneNoInf`) | C13 for each operation, induction on the formula with nested outcomes; without infinities: nested or stopped by the assertion |
| C70 | `Props/ExactFloat` (`Proofs/ExactFl`, `Spec/Plain`) | rounding in one mode is a monotone function (`eround`); the bounds of each operation are roundings of exact bounds, so the enclosure laws hold with `RoundsTo` in place of `≤` |
| C71 | `Props/SingleUse` (`Proofs/SingleUse`, `Spec/SingleUse`) | continuous images of compact connected sets; expressions without common variables take their values independently |
| C72 | `Props/Program` (`Proofs/Program`, `Spec/Program`) | a run with intervals that returns is replayed by the run with numbers, test by test (`Stmt.follows`); `Back` says that a returned result of the machine is the mode-free result |
| C73 | `Props/CompareAlg` | from C30 to C35, as statements about `Always` and `Sometimes` |
| C74 | `Props/Numbers`, `Spec/Numbers` | over an arbitrary linear order `D` with its own operations instead of the extended reals; outcomes of the machine are traced back to outcomes of the mode-free model (`Expr.eval_back`), then a case analysis that uses only order |
| C75 | `Props/Width` | the diameter is specified as the least upper bound of the differences of elements, without bounds; `lower` and `upper` are specified as greatest lower and least upper bound |
| C76 | `Props/RndObject` | programs with rounding objects are interaction trees (`Model/RndProg`); `ROp.Exact`, `ROp.Side` (`Spec/RndProg`) state what doc/rounding.htm promises for each function; the median is specified as a closest representable number |
| C77 | `Props/Accuracy`, `Props/Limits` (the formats have the limits of the machine), `Props/AccuracyNeg` | `unit`, `WithinUnit`, `WithinRel`, `PowSafe` (`Spec/Accuracy`) are stated with real numbers and powers of two; `Proofs/PowAcc` counts the roundings of the loop of `pow`; negative exponents by inverting the bounds of `pow(x, n)` |
| C78 | `Props/Converge` | `Narrow`, `Expr.crisp` (`Spec/Converge`); the exact result is the range over independent occurrences (C71), and that range is Lipschitz in the box (`Proofs/Converge`) |
| C79 | `Props/Refine` (`Proofs/Refine`, `Proofs/RefineFate`, `Proofs/RefineNoInf`, `Proofs/Outcome`) | `Lossless`, `Expr.conv` (`Spec/Refine`); the smallest enclosure in the finer type lies in every enclosure in the coarser one (C12, C19, C52), induction on the formula; `pow` by comparing the two chains of roundings (`Proofs/PowMono`); a coarser type without infinities in a debug build: nested or stopped by an assertion |
| C80 | `Props/PolicyChange` (`Proofs/PolicyChange`, `Proofs/PolicyNoInf`) | `Env.recheck`, `Expr.hullFree` (`Spec/Recheck`); every operation on non-empty operands gives the same result or `checking::empty_lower/upper` under both policies, and an empty operand gives an empty result where this is allowed; induction on the formula; without infinities, in debug builds, formulas with a value (`C80_debug_partial`) |
| C81 | `Props/StdFn` | the templates of the standard library are in `Model/StdFn`; C22, C24, C28–C30; examples by evaluation of the mode-free functions, transferred to all states |
| C82 | `Props/Twin` (`Proofs/Twin`, `Proofs/TwinFate`, `Proofs/Outcome`) | `Expr.Exacting` (`Spec/Twin`); correctly rounded bounds are unique, `fmod` and the recursion of `cos` take the same branches on operands with the same bounds; induction on the formula; without infinities, in debug builds, C79 in both directions (`C82_debug_partial`) |
| C83 | `Props/Invalid` | `ChkSpec.catchesNan`, `ChkSpec.seesNan` (`Spec/Env`); induction on the composition of the policy; NaN operands through the mode-free arithmetic |
| C84 | `Props/Handler` | `ChkX` (`Model/Handler`), `Covers`, `Replaced`, `LibFn` (`Spec/Handler`); a relation between two runs, one of which may end earlier (`Proofs/Cut`), one lemma per library function (`Proofs/CutFns`), induction on programs and formulas (`Proofs/CutProg`) |
| C85 | `Props/DetValue` | `Encloses`, `step` (the exact elimination step); loop invariants over `V.Returns` with C02, C03, C04, C36 |
| C86 | `Props/Catch` | programs with handlers (`TProg`, `Model/Catch`); the invariant of a region strengthened to hold after an exception too (`innerC`), under `Env.Steady` for the one-mode policies; restoration by an invariant that says nothing about outcomes (`Proofs/Last`, also used for C06) |
| C87 | `Props/Catch` | flags on calls and regions of `TProg`; `TProg.plain` (`Spec/Catch`) removes the regions; both programs have the outcome of the mode-free arithmetic |
| C88 | `Props/HwRounding` (`Spec/HwRounding`) | the conditional text of hw_rounding.hpp as a function of the macros (`Model/HwRounding`); both control registers of x86 as state, bitwise extensionality; `dblX86` makes all theorems about environments available for it; for units that disagree, simulation with a weaker relation between the words before and after (`looseX86`); `Props/Backends` applies the environment theorems to whichever back end the macros choose, `Backend.Usable` being the words it can restore |
| C89 | `Props/PolicyTypes` (`Spec/PolicyTypes`) | the class templates of rounding.hpp as a syntax tree with member lookup and order of constructors (`Model/PolicyTypes`); induction over the stack; the policies of the model are derived from it (`C89_protected`, `C89_default`) |
| C90 | `Props/Switches` (`Spec/Switches`) | the machine with a counter (`Ctl.counting`); cost predicate closed under the structure of the functions (`Proofs/Switches`), price list per call; erasing the counter (`Proofs/Erase`) |
| C91 | `Props/DocSign` (model `Model/DocSign`) | invariant of Horner's loop, `Rp`/singletons; C32 for the comparisons; cost predicate of C90 |
| C92 | `Props/Idle` (model `Model/Idle`, spec `Spec/Idle`) | an object of any stack is one of `rounded_arith_exact` with some members replaced (`Rounding.patch`); calls that do not use these members by computation; `C92_mode` by the invariant of `Proofs/Last` with equality of modes |
| C93 | `Props/Ahyp` (model `Model/Ahyp`, spec `Spec/Ahyp`) | rounding the argument and the result in the same direction commutes with an increasing function up to the right inequality; 1 and -1 belong to every format |

`MANIFEST.json` has the status and the theorem names.

## 5. Findings: where the code does not do what one would expect

Each of these is a theorem about a concrete input.

| witness | what happens |
|---------|--------------|
| `C05_add_num_order` | `x += t` tests the interval before the number, `t + x` the number first: with checking_catch_nan one throws, the other does not |
| `C06_nth_root_leaks` | `nth_root` has no rounding object; it leaves the control word changed (arith2.hpp calls rounded operations directly) |
| `C07_int`, `C08_int_in_region` | converting an `int` that is not representable depends on the mode in force, hence on protection and evaluation order |
| `C10_infinite_point`, `C10_widen_negative`, `C10_fmod_zero`, `C10_atanh` | silent empty or NaN results under the default checking: `[inf,inf]`, widening by a negative number, `fmod` by zero, `atanh([-2,-1])` |
| `C83_guide`, `C83_silent`, `C83_select`, `C83_div_whole` | doc/guide.htm says the default policies detect invalid numbers; `checking_strict` contains `checking_no_nan`, so `NaN + x` is `[NaN,NaN]`, `max(x, NaN)` is `x` and `NaN / [-1,2]` is the whole line, without an exception |
| `C84_violated` | doc/checking.htm says the value returned by the `Exception` object of `checking_no_empty` is propagated; checking.hpp 85-94 drops it: over `double` with an object returning 7, `intersect([0,1],[2,3])` is `[NaN,NaN]`, and `empty` answers false for it |
| `C18_overflow`, `C18_large` | `fmod` when the quotient overflows; when its floor is not a small integer |
| `C18_not_traditional` | `fmod` of the singletons 13510798882111492 and 4503599627370497 is `[-0, 2]`, the traditional `fmod` is 1 |
| `C19_opp*`, `C20_tan_opp` | `rounded_transc_opp` computes downward results with a double negation around a to-nearest/upward library call: not an enclosure |
| `C19_atanh_pole` | `atanh` of an interval that touches the open domain only at its boundary |
| `C21_long_double_not_neighbours` | the long double constants are not the closest ones |
| `C25_overflow` | `bisect` when the sum of the bounds overflows |
| `C76_median_overflow` | `median` of the rounding object when the sum of the arguments overflows |
| `C27_negative` | `widen` by a negative number inverts the bounds |
| `C36_least_int`, `C36_mixed_compare`, `C36_nan_kept`, `C36_unsigned` | constructors: negating `INT_MIN`, mixed signedness, NaN bounds kept by default |
| `C37_assign_alias`, `C37_conv_throws` | `assign(l, u)` with `u` aliasing the lower bound; a conversion that throws after half of the object is written |
| `C39_near_differs` | double rounding in to-nearest mode |
| `C88_sse_violated`, `C88_sse_encloses_violated` | on 32-bit x86 with SSE arithmetic (and on 64-bit targets without fenv.h whose compiler defines `_M_X64`) the back end switches the x87 only; sums are not enclosed |
| `C88_restore_violated` | with glibc the direction is read from the x87 and written to both units: an SSE direction set by the program is lost in an addition |
| `C89_std_over_opp_violated`, `C89_opp_over_std_violated` | `rounded_transc_std` over `rounded_arith_opp` leaves the downward direction behind in a region, and `rounded_transc_opp` over `rounded_arith_std` does not switch to upward: bounds on the wrong side |
| `C89_twice_violated` | `save_state<save_state<...>>`: the type that `unprotect` gives still switches |
| `C92_int_violated`, `C92_fmod_violated`, `C92_unsigned_violated` | with the default `rounding_control` `to_int` is the identity (as documented), so `int_down` of `rounded_arith_std` and `_opp` returns fractions: over the rationals `fmod([5,5],[2,2])` is `[0,0]`, with `rounded_arith_exact` `[1,1]`; from an unsigned 1 the class `_opp` makes the lower bound `-(2^32-1)` |
| `C93_unbounded_violated`, `C93_far_violated`, `C93_pole_violated` | `using ::asinh` (bugs.hpp 28) finds `double asinh(double)`; for `long double` the argument is converted: `asinh` of 2^2000 and `atanh` of 1 - 2^-60 have the upper bound +∞ |
| `C40_msvc_reserved` | Microsoft control word with the reserved precision value does not round-trip |
| `C42_not_represented` | mixed arithmetic with an `int` the base type cannot represent |
| `C43_near`, `C43_infinite`, `C43_tiny`, `C43_exact_diverges` | `nth_root`: lost enclosure in to-nearest mode, NaN for infinite or tiny bounds, no termination on rationals |
| `C44_nan_written` | NaN bounds are written as such |
| `C45_quiet_nan*`, `C45_infinity_none` | `numeric_limits<interval>::quiet_NaN()` throws under the default checking |
| `C46_div_truncates`, `C46_short_wraps`, `C46_unsigned_wraps` | machine integers |
| `C47_zero_zero`, `C47_min` | `pow([0,0], 0)` is empty; `pow(x, INT_MIN)` negates `INT_MIN` |
| `C13_cos_not_isotone`, `C13_tan_not_isotone` | `cos` and `tan` are not isotone: the rounding error of `n * 2π` depends on `n`, which depends on the lower bound |
| `C11_empty_first`, `C11_widen` | `checking_catch_nan` misses a NaN that is the right operand of `-`, `/`, `fmod` after an empty interval, and the second argument of `widen` |
| `C51_set` | the set comparisons throw for every number operand |
| `C48_find_zeros1_diverges` | `find_zeros` (examples/findroot_demo.cpp) runs forever when neighbouring numbers of the range are further apart than the width asked for |
| `C48_newton1_diverges` | the first method of examples/newton-raphson.cpp runs forever on two neighbouring numbers, though they are closer than the width asked for and the function has no zero |
| `C48_filter2_nan` | `det_sign_algo2` (examples/filter.cpp) certifies a wrong sign when the approximate factorisation overflows |
| `C53_read_ub`, `C53_failed`, `C53_empty` | the reader of examples/io.cpp copies an indeterminate variable when the text ends early or the stream has failed; it rejects the `[]` written for empty intervals |
| `C54_wdth_misses`, `C54_prec_ub` | `io_wdth` writes a ball that misses `1 + 2^-52`; `io_prec` converts NaN to `int` for unbounded intervals |
| `C55_not_floor`, `C55_fmod` | back ends with only `rint(double)`: `int_down` of a `long double` above 2^53 is not the floor, `fmod(2^53+1, 1)` is 1 |
| `C24_violated` | under the default checking, which does not test for NaN, `hull(NaN, [1,2])` is `[NaN,NaN]` and `hull(1, NaN)` is `[NaN,1]` |
| `C62_absorb_empty` | `min(x, max(x, y))` is empty, not `x`, if `y` is empty |
| `C57_release`, `C04_violated`, `C14_violated`, `C15_violated`, `C17_violated`, `C42_violated` | base types without infinity under `NDEBUG`: `[1,2]/[-1,1]` over the rationals is `[0,0]` and `1/[0,1]` is the empty `[1,0]` |
| `C80_hull_hides`, `C80_infinite_point` | an empty interval vanishes in a hull: `hull(intersect([0,1],[2,3]),[4,5])` throws or is `[4,5]` depending on the checking policy; `hull([+∞,+∞]-[+∞,+∞], [0,1])` has NaN bounds under the default policy and is `[0,1]` under `checking_base` |
| `C58_violated` | with policies that raise nothing, comparing overlapping intervals throws, `pow(x, INT_MIN)` overflows and `nth_root(x, 0)` asserts, although doc/interval.htm says that functions never throw by themselves |
| `C59_infinite` | with checking_base, `nth_root(pow([1, oo), 2), 2)` has the upper bound NaN |
| `C60_violated` | `norm([2^24, 2^24] + [1, 1])` is `2^24 + 2` in single precision; doc/interval.htm calls norm a mathematical norm |
| `C61_violated` | in single precision `[3,3]*([2^24,2^24]+[1,1])` is not contained in the sum of the products |
| `C68_violated` | in the mode towards minus infinity `1 * f * (1 / f)` can miss 1 (test/overflow.cpp with one multiplication and no overflow) |
| `C69_violated`, `C79_violated` | `cos` is not inclusion isotone: the reduction of the argument depends on the interval |
| `C72_unsure_violated` | `x - x == 0` throws for `x = [1,2]` although it holds for every number; doc/comparisons.htm says that a comparison that throws was unsure |
| `C73_self_violated` | under `compare::certain`, `x != x` is false for `x = [1,2]`; doc/interval.htm 822 says that it is always true unless `x` is a singleton |
| `C74_listed_violated` | the five order properties that doc/numbers.htm calls enough hold for a product that is not commutative; `[1,2] * [-1,-1]` is then `[14,7]` |
| `C74_pow_violated` | `f_down <= f <= f_up` holds for products rounded outwards by 5; `pow([0,1],4)` is then `[15,46]`, without `0` |
| `C70_no_inclusion` | with `rounded_arith_exact` over `double`, `[1, 1] / [3, 3]` misses 1/3 in every mode (documented: rounding.htm 155-157) |
| `C38_int_zero` | from the integer 0 the one-mode policy makes the bounds `[-0, +0]`, the switching policy `[+0, +0]` |
| `C63_exchange`, `C85_rows` | test/det.cpp 37-42 exchanges entries of one row instead of two rows; the elimination does not keep the determinant |
| `C86_stuck` | `exp_down` of rounded_transc_opp (rounded_transc.hpp) switches to downward mode and back without a guard: after an exception of the library caught inside a region, `2^60 + 1` gives `[2^60 + 256, 2^60]` |
| `C64_overflow`, `C64_underflow`, `C64_precision` | with ext/x86_fast_rounding_control.hpp, or without `force_rounding`, the stored bounds can exclude the exact result (doc/rounding.htm warns of the first) |
| `C52_not_smallest` | `[a,0] / [0,b]` is not the smallest interval |

Read but without a theorem of their own: `set::operator<=` is only declared for equal policies;
`numeric_limits::signaling_NaN` is misspelt and does not compile when used; the default `rounded_math` has no
transcendental functions; `rounded_transc_dummy`, which doc/rounding.htm describes, is declared (rounding.hpp 50) and nowhere
defined; method 1 of examples/newton-raphson.cpp replaces `x1` by the second part of the quotient without
intersecting it with `x` (that part is unbounded, so the next test bisects `x`; no zero is lost, but see
`C48_newton1_diverges`).

## 6. Mutation tests

`tools/mutate.py` copies the project to /tmp/mut, applies an edit to a model definition, rebuilds the modules that depend on it
and reports which theorems fail. `seeded/LOG.jsonl` has one line per mutant.

`declarations_failed` is what the build reported. `theorems_failed` are the property theorems, of the properties named in
`breaks`, whose proofs use one of these declarations according to the table of dependencies; a file behind the first that
fails is not built, so these are not independent observations. `breaks` is, as a rule, the prediction made before the run.
Where a prediction named the wrong property and the record was filed under another one afterwards, or where the mutants were
written for one property file and filed under it as a group (C91, C92, C93), it is not; the notes of the first kind say so. `missed`
lists predictions that did not come true: the mutant was stopped by other declarations, which does not show that the predicted
theorem would have failed.

## 7. Tests of the transcription

`Suite/Compare` (generated by `tools/mksuite.py` from test/cmp*.cpp, 584 checks), `Suite/Add` (test/add.cpp, symbolic) and
`Suite/Arith` (test/mul.cpp, pow.cpp, fmod.cpp, pi.cpp, integer.cpp, examples/rational.cpp) run the library's own tests on the model. All agree. They
support the claim that the model follows the code; they are not proofs of properties and no claim of the manifest rests on
them. test/det.cpp is `Model/Det`, with C63 and C85; overflow.cpp is
`Model/Overflow`, with C68; test_float.cpp is generalised by C67 and, for its inclusions between overloads, by C13 and C51.

`Suite/Hardware` (generated by `tools/mkhw.py`, which compiles `tools/hw.c`) compares the floating-point model with an
x86-64 processor: 756 results of +, -, *, /, sqrt, rint, floor, ceil, comparisons and conversions, in the four rounding
directions, for `float` and `double` (SSE) and `long double` (x87), with operands chosen near the limits of the formats.
All agree. It supports the assumption that the hardware follows IEEE 754 as modelled; it proves nothing about it. Every
definition of the model computes, so any such result can be checked.
