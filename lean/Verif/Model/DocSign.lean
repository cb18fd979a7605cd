import Verif.Model.Arith
import Verif.Model.Compare
import Mathlib.Data.Nat.Notation
/-!
# The sign of a polynomial at a point, doc/examples.htm

The array of the coefficients is a function of the index; `sz` is the number of coefficients. -/

namespace BI
variable {m : Type → Type} [Eff m] {T : Type} [Num T]

/-- `for(int i = sz - 2; i >= 0; i--) y = y * x + P[i];` doc/examples.htm 54-55 and 90-91; the first argument is `i + 1`. -/
def polyLoop (P : Policies m T) (x : T) (p : ℕ → T) : ℕ → Itv T → m (Itv T)
  | 0, y => pure y
  | i + 1, y => do
    let z ← mulIT P y x
    let y ← addIT P z (p i)
    polyLoop P x p i y

/-- The operators of `compare::certain`, doc/examples.htm 62-65 and 93-96. -/
def signY (C : Checking T) (y : Itv T) : Res Int := do
  if ← certainIT .gt C y (Num.lit 0) then return 1
  if ← certainIT .lt C y (Num.lit 0) then return -1
  return 0

/-- The first version of `sign_polynomial`, doc/examples.htm 36-66. With `sz <= 0` the program reads outside the array
(line 53). -/
def signPoly (P : Policies m T) (x : T) (p : ℕ → T) (sz : Int) : m Int :=
  match sz.toNat with
  | 0 => lift (.error .ub)
  | n + 1 => do
    let y ← lift (ctorT P.chk (p n))
    let y ← polyLoop P x p n y
    lift (signY P.chk y)

/-- The second version, doc/examples.htm 81-97: a rounding object lives during the whole function (line 86) and the
interval type is the unprotected one (line 87). -/
def signPolyFast (P : Policies m T) (x : T) (p : ℕ → T) (sz : Int) : m Int :=
  P.rnd.scope (signPoly P.unprot x p sz)

end BI
