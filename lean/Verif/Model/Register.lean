import Verif.Model.Conv
/-!
# Extended registers

On the x87 the arithmetic works on registers of a wider format `g`, whatever the base type `f`; `force_rounding` then
stores the result into a variable of the base type and thereby rounds it a second time, in the mode in force
(x86_rounding_control.hpp 60-75: `volatile T r_ = r; return r_;`).
-/

namespace BI
variable {f g : Fmt}

/-- Loading an operand into a register, operating there, `force_rounding`, detail/x86_rounding_control.hpp 60-74. -/
def viaRegister2 (g : Fmt) (op : RMode → Fl g → Fl g → Fl g) (r : RMode) (a b : Fl f) : Fl f :=
  (op r (a.convert g r) (b.convert g r)).convert f r

/-- The same with one operand, detail/x86_rounding_control.hpp 60-74. -/
def viaRegister1 (g : Fmt) (op : RMode → Fl g → Fl g) (r : RMode) (a : Fl f) : Fl f :=
  (op r (a.convert g r)).convert f r

/-- Numbers of the format `f` whose arithmetic goes through registers of the format `g`
(detail/x86_rounding_control.hpp 60-74). -/
def Reg (f _g : Fmt) : Type := Fl f

/-- The operators on such numbers, detail/x86_rounding_control.hpp 60-74. -/
instance (f g : Fmt) : Num (Reg f g) where
  lt := Fl.lt
  le := Fl.le
  eq := Fl.eq
  lit n := Fl.ofInt .near n
  ofInt r n := some ((Fl.ofInt r n : Fl g).convert f r)
  neg a := some (Fl.neg a)
  add r a b := some (viaRegister2 g Fl.add r a b)
  sub r a b := some (viaRegister2 g Fl.sub r a b)
  mul r a b := some (viaRegister2 g Fl.mul r a b)
  div r a b := some (viaRegister2 g Fl.div r a b)
  sqrt r a := some (viaRegister1 g Fl.sqrt r a)
  rint r a := some (viaRegister1 g Fl.rint r a)
  floor a := some (Fl.rint .down a)
  ceil a := some (Fl.rint .up a)
  hasInf := true
  hasNaN := true
  infinity := (.inf false : Fl f)
  nan := (.nan : Fl f)

/-- They denote what the numbers of the format denote. -/
noncomputable instance (f g : Fmt) : Val (Reg f g) := inferInstanceAs (Val (Fl f))

/-! ## Without `force_rounding`

`x86_fast_rounding_control` (ext/x86_fast_rounding_control.hpp 38-66) lets `force_rounding` do nothing. It sets the
precision control of the x87 instead (the constants of lines 27-29), so that the registers round to the precision of
the base type, but the range of exponents stays that of the registers. Results may remain in registers until the
compiler stores them; the mode in force by then is unknown. -/

/-- A register with the precision control set to 24 bits (`rnd_mode_f`). -/
def Fmt.pc24 : Fmt := ⟨24, -16405, 16360, by decide, by decide, by decide⟩
/-- A register with the precision control set to 53 bits (`rnd_mode_d`). -/
def Fmt.pc53 : Fmt := ⟨53, -16434, 16331, by decide, by decide, by decide⟩

/-- The bounds of an interval loaded into registers; ext/x86_fast_rounding_control.hpp 36-64. -/
def loadI (g : Fmt) (x : Itv (Fl f)) : Itv (Fl g) := ⟨x.lower.convert g .near, x.upper.convert g .near⟩

/-- The bounds of an interval stored into variables of the base type, in the modes `r` and `r'`:
what ext/x86_fast_rounding_control.hpp 43, 53, 63 leave to the compiler. -/
def storeI (f : Fmt) (r r' : RMode) (z : Itv (Fl g)) : Itv (Fl f) := ⟨z.lower.convert f r, z.upper.convert f r'⟩

end BI
