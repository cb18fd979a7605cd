import Verif.Model.PolicyTypes
/-!
# The rounding control that does nothing

The non-specialised `rounding_control<T>` of rounding.hpp, for class types. The machine has a rounding mode all the same;
this control neither reads nor writes it.
-/

namespace BI

/-- rounding.hpp 21-32: all members are empty functions. -/
def idle : Ctl where
  W := RMode
  Saved := Unit
  decode := id
  get _ := ()
  set _ w := w
  upward := id
  downward := id
  toNearest := id
  towardZero := id

/-- Numbers of type `T` that use this control. -/
structure Idle (T : Type) where
  v : T
  deriving DecidableEq

/-- `to_int` returns its argument, rounding.hpp 30; all other operations are those of `T`. -/
instance {T : Type} [Num T] : Num (Idle T) where
  lt a b := Num.lt a.v b.v
  le a b := Num.le a.v b.v
  eq a b := Num.eq a.v b.v
  lit n := ⟨Num.lit n⟩
  ofInt r n := (Num.ofInt r n).map Idle.mk
  neg a := (Num.neg a.v).map Idle.mk
  add r a b := (Num.add r a.v b.v).map Idle.mk
  sub r a b := (Num.sub r a.v b.v).map Idle.mk
  mul r a b := (Num.mul r a.v b.v).map Idle.mk
  div r a b := (Num.div r a.v b.v).map Idle.mk
  sqrt r a := (Num.sqrt r a.v).map Idle.mk
  rint _ a := some a
  floor a := (Num.floor a.v).map Idle.mk
  ceil a := (Num.ceil a.v).map Idle.mk
  hasInf := Num.hasInf T
  hasNaN := Num.hasNaN T
  infinity := ⟨Num.infinity⟩
  nan := ⟨Num.nan⟩

end BI
