import Mathlib.Algebra.Order.Floor.Ring
import Mathlib.Data.Rat.Floor
import Verif.Model.Rounding
import Verif.Spec.Sem
/-!
# Rational numbers as a base type

An exact class type such as `boost::rational<big integer>` (examples/rational.cpp): no rounding, no infinity, no NaN.
Division by zero throws. There is no square root; `floor` and `ceil` are what a user would provide.
-/

namespace BI

/-- Rational numbers as a base type with exact operators (examples/rational.cpp 25-26); no infinity, no NaN. -/
instance : Num ℚ where
  lt a b := decide (a < b)
  le a b := decide (a ≤ b)
  eq a b := decide (a = b)
  lit n := n
  ofInt _ n := some n
  neg a := some (-a)
  add _ a b := some (a + b)
  sub _ a b := some (a - b)
  mul _ a b := some (a * b)
  div _ a b := if b = 0 then none else some (a / b)
  sqrt _ _ := none
  rint _ _ := none
  floor a := some (⌊a⌋ : ℤ)
  ceil a := some (⌈a⌉ : ℤ)
  hasInf := false
  hasNaN := false
  infinity := 0
  nan := 0

/-- What a rational number denotes. -/
instance : Val ℚ where
  val q := some ((q : ℝ) : EReal)

end BI
