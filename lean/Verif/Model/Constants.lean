import Verif.Model.Transc
import Verif.Model.Conv
/-!
# constants.hpp: the constants for built-in types

Literals and expressions are evaluated in the rounding direction `r` (of the compiler, of the static initialisation, or
of the call); `C21_mode` shows that it does not matter.
-/

namespace BI

/-- `pi_f_l`, `pi_f_u`, constants.hpp 22-23 -/
def piF (r : RMode) (up : Bool) : Fl Fmt.single :=
  (Fl.ofInt r (if up then 13176795 else 13176794)).div r (Fl.ofInt r 4194304)

/-- `pi_d_l`, `pi_d_u`, constants.hpp 24-25 -/
def piD (r : RMode) (up : Bool) : Fl Fmt.double :=
  ((Fl.ofInt r 3373259426).add r ((Fl.ofInt r (if up then 273689 else 273688)).div r (Fl.ofInt r 2097152))).div r
    (Fl.ofInt r 1073741824)

/-- constants.hpp 34-39 (`f = Fmt.single`), 41-46 (`f = Fmt.double`), 48-53 (`f = Fmt.extended`), from the constants
`l`, `u` of the format `g`: half and twice are computed in `g`, then converted. -/
def piOf {g : Fmt} (f : Fmt) (r : RMode) (l u : Fl g) : PiConst (Fl f) where
  piLower := l.convert f r
  piUpper := u.convert f r
  piHalfLower := (l.div r (Fl.ofInt r 2)).convert f r
  piHalfUpper := (u.div r (Fl.ofInt r 2)).convert f r
  piTwiceLower := (l.mul r (Fl.ofInt r 2)).convert f r
  piTwiceUpper := (u.mul r (Fl.ofInt r 2)).convert f r

/-- `float`, constants.hpp 34-39 -/
def piFloat (r : RMode) : PiConst (Fl Fmt.single) := piOf _ r (piF r false) (piF r true)
/-- `double`, constants.hpp 41-46 -/
def piDouble (r : RMode) : PiConst (Fl Fmt.double) := piOf _ r (piD r false) (piD r true)
/-- `long double`, constants.hpp 48-53 -/
def piLongDouble (r : RMode) : PiConst (Fl Fmt.extended) := piOf _ r (piD r false) (piD r true)

end BI
