import Verif.Core.Effect
/-!
# Base numbers

The operations of the base type `T` that the library calls. Operations whose result depends on the rounding direction
take it as an argument. `none` means that the operation has no result (see `Err.base`).
-/

namespace BI

/-- The operators of the base number type used by the library (doc/numbers.htm). `>` and `>=` are `lt` and `le` with
exchanged arguments, `!=` is the negation of `eq`.
`lit` is `static_cast<T>` of a small literal (exact); `ofInt` the conversion of a run-time `int`.
`rint` is `to_int` of the rounding control: rounding to an integer in the current direction. -/
class Num (T : Type) where
  lt : T → T → Bool
  le : T → T → Bool
  eq : T → T → Bool
  lit : Int → T
  ofInt : RMode → Int → Option T
  neg : T → Option T
  add : RMode → T → T → Option T
  sub : RMode → T → T → Option T
  mul : RMode → T → T → Option T
  div : RMode → T → T → Option T
  sqrt : RMode → T → Option T
  rint : RMode → T → Option T
  floor : T → Option T
  ceil : T → Option T
  /-- `std::numeric_limits<T>::has_infinity` -/
  hasInf : Bool
  /-- `std::numeric_limits<T>::has_quiet_NaN` -/
  hasNaN : Bool
  /-- `std::numeric_limits<T>::infinity()` -/
  infinity : T
  /-- `std::numeric_limits<T>::quiet_NaN()` -/
  nan : T

section
variable {T : Type} [Num T]

/-- detail/test_input.hpp 20-21 -/
def isZero (v : T) : Bool := Num.eq v (Num.lit 0)
/-- detail/test_input.hpp 23-24 -/
def isNeg (v : T) : Bool := Num.lt v (Num.lit 0)
/-- detail/test_input.hpp 26-27 -/
def isPos (v : T) : Bool := Num.lt (Num.lit 0) v

/-- `std::max`; used in arith.hpp 190, arith2.hpp 190, utility.hpp 171-298 -/
def stdMax (a b : T) : T := if Num.lt a b then b else a
/-- `std::min`; used in arith.hpp 189, transc.hpp 75, utility.hpp 172-329 -/
def stdMin (a b : T) : T := if Num.lt b a then b else a

/-- unary minus on `T`; for instance arith.hpp 39, rounded_arith.hpp 92-98 -/
def negM {m : Type → Type} [Eff m] (x : T) : m T := lift (ofOpt (Num.neg x))
end

/-- The mathematical functions taken from the C++ library, rounded_transc.hpp 27-44. -/
inductive Fn where
  | exp | log | sin | cos | tan | asin | acos | atan | sinh | cosh | tanh | asinh | acosh | atanh
  deriving DecidableEq, Repr

/-- A mathematical library: `lib f r x` is `f(x)` computed while the rounding direction is `r`
(rounded_transc.hpp 51-79, 86-132). -/
def Lib (T : Type) : Type := Fn → RMode → T → Option T

/-- A value `v` of some other arithmetic type, seen from `T`: the conversion to `T` of `v`, and of `-v` (computed in
the source type), in a given rounding direction (rounded_arith.hpp 56-57, 93-94). -/
structure Src (T : Type) where
  conv : RMode → Option T
  negConv : RMode → Option T

/-- An interval: two bounds (interval.hpp 130-131). -/
structure Itv (T : Type) where
  lower : T
  upper : T
  deriving DecidableEq, Repr

end BI
