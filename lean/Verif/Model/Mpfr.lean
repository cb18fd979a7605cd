import Verif.Model.Client
import Verif.Model.Conv
import Verif.Model.Platform
/-!
# The rounding policy of examples/transc.cpp

Elementary functions obtained from a library that takes the rounding direction as an argument (MPFR), instead of from
the direction in force.
-/

namespace BI

/-- examples/transc.cpp 24-31, `invoke_mpfr`: the argument is converted to the format `g` of the library (exactly, `g` is
wider), the function is evaluated there in direction `r`, and the result is converted back in the same direction. -/
def invokeMpfr {f g : Fmt} (mp : Lib (Fl g)) : Lib (Fl f) := fun fn r x =>
  (mp fn r (x.convert g .near)).map fun y => y.convert f r

section
variable (c : Ctl) {T : Type} [Num T]

/-- examples/transc.cpp 19-50, `full_rounding`: `rounded_arith_opp` with `name_down` and `name_up` calling the library
with an explicit direction; neither reads nor changes the control word. -/
def arithFull (lib : Lib T) : Arith (M c.W) T :=
  arithOpp c (fun fn x => lift (ofOpt (lib fn .down x)), fun fn x => lift (ofOpt (lib fn .up x)))

/-- examples/transc.cpp 56-58: `policies<save_state<full_rounding>, P>`. -/
def fullPolicies (lib : Lib T) (chk : Checking T) : Policies (M c.W) T where
  rnd := saveState c c.upward (arithFull c lib)
  unp := noState c (arithFull c lib)
  chk := chk
  cur := evalIn c
end

end BI
