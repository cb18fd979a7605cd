import Verif.Model.Conv
import Verif.Model.Float
import Verif.Model.Platform
/-!
# `to_int` through a narrower format

Several back ends round a number to an integer by `rint(double)` whatever its type: detail/c99sub_rounding_control.hpp
34-35, detail/bcc_rounding_control.hpp 49, detail/ppc_rounding_control.hpp 89, detail/sparc_rounding_control.hpp 103.
A `long double` is then converted to `double`, in the direction in force, rounded, and converted back.
-/

namespace BI

/-- `rint` of the format `g` applied to a number of the format `f`, detail/c99sub_rounding_control.hpp 34-35. -/
def toIntVia (g : Fmt) {f : Fmt} (r : RMode) (x : Fl f) : Fl f := ((x.convert g r).rint r).convert f r

/-- Numbers of the format `f` on a back end whose `to_int` goes through the format `g`
(detail/c99sub_rounding_control.hpp 34-35). -/
structure Via (f g : Fmt) where
  v : Fl f
  deriving DecidableEq

/-- All other operations are those of `f`. `floor` and `ceil` (rounding.hpp, exact arithmetic only) are not concerned. -/
instance (f g : Fmt) : Num (Via f g) where
  lt a b := a.v.lt b.v
  le a b := a.v.le b.v
  eq a b := a.v.eq b.v
  lit n := ⟨Fl.ofInt .near n⟩
  ofInt r n := some ⟨Fl.ofInt r n⟩
  neg a := some ⟨a.v.neg⟩
  add r a b := some ⟨a.v.add r b.v⟩
  sub r a b := some ⟨a.v.sub r b.v⟩
  mul r a b := some ⟨a.v.mul r b.v⟩
  div r a b := some ⟨a.v.div r b.v⟩
  sqrt r a := some ⟨a.v.sqrt r⟩
  rint r a := some ⟨toIntVia g r a.v⟩
  floor a := some ⟨a.v.rint .down⟩
  ceil a := some ⟨a.v.rint .up⟩
  hasInf := true
  hasNaN := true
  infinity := ⟨.inf false⟩
  nan := ⟨.nan⟩

/-- `interval<long double>` on such a back end (C99 control word), detail/c99_rounding_control.hpp 36-42. -/
def ldPolicies (k : RKind) : Policies (M (FEnv Unit)) (Via Fmt.extended Fmt.double) :=
  libPolicies (c99 Unit feGlibc) k (fun _ _ x => some x) (ChkSpec.strict.eval _ true)

end BI
