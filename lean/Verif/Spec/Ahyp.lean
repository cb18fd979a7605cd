import Verif.Spec.Elem
import Verif.Model.Ahyp
import Verif.Model.Float
/-! # What is expected of the inverse hyperbolic functions of the C library -/

namespace BI

/-- `Fn.Ext` with the poles of the inverse hyperbolic tangent (C99 F.9.2.3: `atanh(±1)` returns `±∞`). -/
def Fn.ExtPole (fn : Fn) (x e : EReal) : Prop :=
  fn.Ext x e ∨ (fn = .atanh ∧ ((x = ((-1 : ℝ) : EReal) ∧ e = ⊥) ∨ (x = ((1 : ℝ) : EReal) ∧ e = ⊤)))

/-- The function rounds in the direction in force, and delivers the infinities at its poles. -/
def PoleOk {T : Type} [Num T] [Val T] (glob : Lib T) (fn : Fn) : Prop :=
  ∀ (a : T) x e, val a = some x → fn.ExtPole x e → Approx T LeB GeB (fun r => glob fn r a) e

end BI
