import Verif.Model.Compare
/-!
# The functions of the standard library, instantiated with intervals

doc/interval.htm ("min max abs square pow …"): `min`, `max` and `abs` of the library must not be mistaken for those of the
standard library, "aka `a<b?a:b`, `a>b?a:b`, `a<0?-a:a`". These templates compile for intervals, too; they use the
comparisons in scope, by default those of interval.hpp 323-445. All of them return copies of their operands.
-/

namespace BI
variable {T : Type} [Num T]

/-- `std::max(a, b)`: `a < b ? b : a`; operator interval.hpp 323-331 -/
def stdMaxI (C : Checking T) (a b : Itv T) : Res (Itv T) := do
  if ← cmpII .lt C C a b then pure b else pure a

/-- `std::min(a, b)`: `b < a ? b : a`; operator interval.hpp 323-331 -/
def stdMinI (C : Checking T) (a b : Itv T) : Res (Itv T) := do
  if ← cmpII .lt C C b a then pure b else pure a

/-- `a < b ? a : b`, doc/interval.htm; operator interval.hpp 323-331 -/
def condMin (C : Checking T) (a b : Itv T) : Res (Itv T) := do
  if ← cmpII .lt C C a b then pure a else pure b

/-- `a > b ? a : b`, doc/interval.htm; operator interval.hpp 333-341 -/
def condMax (C : Checking T) (a b : Itv T) : Res (Itv T) := do
  if ← cmpII .gt C C a b then pure a else pure b

/-- `a < 0 ? -a : a`, doc/interval.htm; operators interval.hpp 387-395 and arith.hpp 34-40 -/
def condAbs (C : Checking T) (a : Itv T) : Res (Itv T) := do
  if ← cmpIT .lt C a (Num.lit 0) then negI C a else pure a

end BI
