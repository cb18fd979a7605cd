import Verif.Model.Conv
/-!
# The inverse hyperbolic functions of another format

detail/bugs.hpp 26-29: with glibc and libstdc++ the name `asinh` in rounded_transc.hpp 72-78, 115-132 is looked up in the
global namespace, where the C library declares it for `double` only.
-/

namespace BI

/-- The functions of rounded_transc.hpp 72-78 and 115-132, found by `BOOST_NUMERIC_INTERVAL_using_ahyp`. -/
def Fn.ahyp : Fn → Bool
  | .asinh | .acosh | .atanh => true
  | _ => false

/-- The library seen by `rounded_transc_std<T>` and `rounded_transc_opp<T>`, `T` of format `f` (rounded_transc.hpp 51-79,
86-132 with bugs.hpp 22-34): the functions found in `std` are those of `T`, the inverse hyperbolic ones those of the format
`g`. The argument is converted to `g` and the result back to `T` (the parameter of `force_rounding`), both in the direction
in force. Simplification: `acosh_down` of `rounded_transc_opp` (124-126) negates before it converts back; it is not the
subject of the theorems. -/
def viaFormat {f g : Fmt} (lib : Lib (Fl f)) (glob : Lib (Fl g)) : Lib (Fl f) := fun fn r x =>
  if fn.ahyp then (glob fn r (x.convert g r)).map fun y => y.convert f r else lib fn r x

end BI
