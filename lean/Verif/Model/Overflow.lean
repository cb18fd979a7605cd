import Verif.Model.Arith
import Verif.Model.Utility
/-!
# The program of test/overflow.cpp

The parameter `n` is the constant `nb` of the test. `y *= f` is written as the multiplication it performs (C05).
-/

namespace BI.Overflow
variable {m : Type → Type} [Eff m] {T : Type} [Num T]

/-- `for(int i = 0; i < n; i++) y *= t;` overflow.cpp 20, 21 -/
def scale (P : Policies m T) (t : T) : Nat → Itv T → m (Itv T)
  | 0, y => pure y
  | n + 1, y => do
    let y ← mulIT P y t
    scale P t n y

/-- The condition tested by `test_one`, overflow.cpp 15-26; `1 / f` is computed in the current rounding mode. -/
def testOne (P : Policies m T) (n : Nat) (x f : T) : m Bool := do
  let y ← lift (ctorT P.chk x)
  let g ← P.cur fun r => Num.div r (Num.lit 1) f
  let y ← scale P f n y
  let y ← scale P g n y
  lift (inI P.chk x y)

end BI.Overflow
