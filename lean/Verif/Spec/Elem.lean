import Mathlib.Analysis.SpecialFunctions.Arcosh
import Mathlib.Analysis.SpecialFunctions.Arsinh
import Mathlib.Analysis.SpecialFunctions.Artanh
import Mathlib.Analysis.SpecialFunctions.Trigonometric.Arctan
import Mathlib.Analysis.SpecialFunctions.Trigonometric.Inverse
import Verif.Spec.Env
import Verif.Model.Transc
/-! # The elementary functions: real functions, domains, limits, and what is expected of a mathematical library -/

namespace BI
open Set

/-- The real function. -/
noncomputable def Fn.real : Fn → ℝ → ℝ
  | .exp => Real.exp
  | .log => Real.log
  | .sin => Real.sin
  | .cos => Real.cos
  | .tan => Real.tan
  | .asin => Real.arcsin
  | .acos => Real.arccos
  | .atan => Real.arctan
  | .sinh => Real.sinh
  | .cosh => Real.cosh
  | .tanh => Real.tanh
  | .asinh => Real.arsinh
  | .acosh => Real.arcosh
  | .atanh => Real.artanh

/-- Where the function is defined. -/
def Fn.dom : Fn → Set ℝ
  | .log => Ioi 0
  | .asin => Icc (-1) 1
  | .acos => Icc (-1) 1
  | .acosh => Ici 1
  | .atanh => Ioo (-1) 1
  | .tan => {r | Real.cos r ≠ 0}
  | _ => univ

/-- Limit at minus infinity. -/
noncomputable def Fn.atBot : Fn → Option EReal
  | .exp => some 0
  | .atan => some ((-(Real.pi / 2) : ℝ) : EReal)
  | .sinh => some ⊥
  | .cosh => some ⊤
  | .tanh => some (-1)
  | .asinh => some ⊥
  | _ => none

/-- Limit at plus infinity. -/
noncomputable def Fn.atTop : Fn → Option EReal
  | .exp => some ⊤
  | .log => some ⊤
  | .atan => some ((Real.pi / 2 : ℝ) : EReal)
  | .sinh => some ⊤
  | .cosh => some ⊤
  | .tanh => some 1
  | .asinh => some ⊤
  | .acosh => some ⊤
  | _ => none

/-- `e` is the value of the function, continued to the infinities by its limits, at `x`. -/
def Fn.Ext (f : Fn) (x e : EReal) : Prop :=
  (∃ r ∈ f.dom, x = ((r : ℝ) : EReal) ∧ e = f.real r) ∨ (x = ⊥ ∧ f.atBot = some e) ∨ (x = ⊤ ∧ f.atTop = some e)

section
variable {T : Type} [Num T] [Val T]

/-- The functions for whose lower bounds `rounded_transc_opp` switches the direction (rounded_transc.hpp 86-98,
115-124). For the others see `C19_opp`. -/
def _root_.BI.Fn.oppSwitches : Fn → Bool
  | .exp | .log | .cos | .acos | .cosh | .asinh | .atanh => true
  | .sin | .tan | .asin | .atan | .sinh | .tanh | .acosh => false

/-- The rounding policy obtains directed approximations of `f`: the library function rounds in the direction in force,
and the policy calls it in the direction it needs. The latter is not the case for `rounded_transc_opp` and the functions
for which it does not switch. Without directions, the library has to be exact. -/
def Env.FnOk (D U : EReal → EReal → Prop) (V : Env T) (f : Fn) : Prop :=
  ((V.kind = .std ∨ (V.kind = .opp ∧ f.oppSwitches = true)) ∧
    ∀ (a : T) x e, val a = some x → f.Ext x e → Approx T D U (fun r => V.lib f r a) e) ∨
  (V.kind = .exact ∧ ∀ (a : T) x e, val a = some x → f.Ext x e →
    ∃ c, (∀ r, V.lib f r a = some c) ∧ val c = some e)

/-- The constants approximate `π`, `π/2` and `2π`. -/
structure PiOk (D U : EReal → EReal → Prop) (K : PiConst T) : Prop where
  piLower : ∃ z, val K.piLower = some z ∧ D z Real.pi
  piUpper : ∃ z, val K.piUpper = some z ∧ U z Real.pi
  piHalfLower : ∃ z, val K.piHalfLower = some z ∧ D z (Real.pi / 2 : ℝ)
  piHalfUpper : ∃ z, val K.piHalfUpper = some z ∧ U z (Real.pi / 2 : ℝ)
  piTwiceLower : ∃ z, val K.piTwiceLower = some z ∧ D z (2 * Real.pi : ℝ)
  piTwiceUpper : ∃ z, val K.piTwiceUpper = some z ∧ U z (2 * Real.pi : ℝ)

/-- The lower bounds of the periods by which `cos` and `tan` divide are not too small. -/
structure PiPos (K : PiConst T) : Prop where
  piLower : ∀ z, val K.piLower = some z → 1 ≤ z
  piTwiceLower : ∀ z, val K.piTwiceLower = some z → 1 ≤ z

/-- What the base type does with infinities and NaN, as far as the trigonometric functions come across it (nothing for
types without such values): rounding to an integer leaves an infinity alone; the difference of equal infinities, or of
something and NaN, is NaN. -/
structure IeeeBase (T : Type) [Num T] [Val T] : Prop where
  rintDown : ∀ a : T, val a = some ⊥ → ∃ c, Num.rint .down a = some c ∧ val c = some ⊥
  rintUp : ∀ a : T, val a = some ⊤ → ∃ c, Num.rint .up a = some c ∧ val c = some ⊤
  floor : ∀ a : T, val a = some ⊥ → ∃ c, Num.floor a = some c ∧ val c = some ⊥
  sub : ∀ r (a b : T), (val a = some ⊥ ∧ val b = some ⊥) ∨ val a = none ∨ val b = none →
    ∃ c, Num.sub r a b = some c ∧ val c = none
end

/-- The pairs of constants bracket `π`, `π/2` and `2π`. -/
def Brackets {T : Type} [Val T] (K : PiConst T) : Prop :=
  Real.pi ∈ γ (piI K) ∧ Real.pi / 2 ∈ γ (piHalfI K) ∧ 2 * Real.pi ∈ γ (piTwiceI K)

/-- The constants are the neighbours of `π`, `π/2` and `2π` among the numbers of `T`. -/
def Neighbours {T : Type} [Val T] (K : PiConst T) : Prop :=
  SmallestEnclosure (piI K) {Real.pi} ∧ SmallestEnclosure (piHalfI K) {Real.pi / 2} ∧
    SmallestEnclosure (piTwiceI K) {2 * Real.pi}

/-- The functions other than sine, cosine and tangent. -/
def Fn.simple : Fn → Bool
  | .sin => false
  | .cos => false
  | .tan => false
  | _ => true

/-- The interval function may have to deliver an infinity. -/
def Fn.unbounded : Fn → Bool
  | .log => true
  | .atanh => true
  | .tan => true
  | _ => false

end BI
