import Verif.Model.RndProg
import Verif.Spec.Client
import Verif.Spec.Conv
import Verif.Spec.Elem
/-! # What the functions of a rounding object promise, and what programs that use them may expect -/

namespace BI
variable {T : Type} [Num T] [Val T]

/-- `z` is among the numbers of the base type closest to `x`. -/
def Closest (T : Type) [Val T] (z x : ℝ) : Prop :=
  Representable T (z : EReal) ∧ ∀ w : ℝ, Representable T (w : EReal) → |z - x| ≤ |w - x|

/-- The exact result of the function named by `o` is the extended real number `e` (doc/rounding.htm 70-120). No claim is
made about NaN, about arguments outside of the domain of the function, nor here about the median, whose result is not
directed. -/
def ROp.Exact (V : Env T) (D U : EReal → EReal → Prop) (e : EReal) : ROp T → Prop
  | .conv _ v => v.Denotes V D U e
  | .add _ x y => ∃ a b, val x = some a ∧ val y = some b ∧ AddOk a b ∧ e = a + b
  | .sub _ x y => ∃ a b, val x = some a ∧ val y = some b ∧ SubOk a b ∧ e = a - b
  | .mul _ x y => ∃ a b, val x = some a ∧ val y = some b ∧ MulOk a b ∧ e = a * b
  | .div _ x y => ∃ a b, val x = some a ∧ val y = some b ∧ DivOk a b ∧ e = a / b
  | .sqrt _ x => ∃ a, val x = some a ∧ 0 ≤ a ∧ e = esqrt a
  | .int up x => ∃ q : ℝ, val x = some (q : EReal) ∧ e = if up then ((⌈q⌉ : ℝ) : EReal) else ((⌊q⌋ : ℝ) : EReal)
  | .fn _ f x => ∃ a, val x = some a ∧ f.Ext a e
  | .median _ _ => False

/-- How the number `z` returned has to relate to the exact result `e`: an approximation from the side in the name of the
function; the integers are exact. -/
def ROp.Side (D U : EReal → EReal → Prop) (z e : EReal) : ROp T → Prop
  | .conv up _ | .add up _ _ | .sub up _ _ | .mul up _ _ | .div up _ _ | .sqrt up _ | .fn up _ _ =>
    if up then U z e else D z e
  | .int _ _ => z = e
  | .median _ _ => False

/-- The outcome `r` of the function named by `o` is as promised. -/
def ROp.Meets (V : Env T) (D U : EReal → EReal → Prop) (o : ROp T) (r : Res T) : Prop :=
  ∀ e, o.Exact V D U e → ∃ c z, r = .ok c ∧ val c = some z ∧ o.Side D U z e

/-- The base type supports the function named by `o`: square roots and the mathematical library are accurate, integer
parts are exact; conversions do not depend on the direction if the policy does not control it. -/
def ROp.Supported (V : Env T) (D U : EReal → EReal → Prop) : ROp T → Prop
  | .conv _ v => V.kind = .exact → ∀ r r', v.conv r = v.conv r'
  | .sqrt _ _ => V.SqrtOk D U
  | .int _ _ => V.IntOk ∧ (V.kind = .exact → ∀ (a : T) (q : ℝ), val a = some (q : EReal) →
      ∃ c, Num.ceil a = some c ∧ val c = some ((⌈q⌉ : ℝ) : EReal))
  | .fn _ f _ => V.FnOk D U f
  | _ => True

/-- Every function of the rounding object that the program may call is supported, and every call of the interval library
it may make is independent of the direction in force (`nth_root` is not: it creates no rounding object). -/
def RProg.Ok (V : Env T) (D U : EReal → EReal → Prop) : {α : Type} → RProg T α → Prop
  | _, .ret _ => True
  | _, .fail _ => True
  | _, .op o k => o.Supported V D U ∧ ∀ b, (k b).Ok V D U
  | _, .call _ c k => V.ModeFree false c ∧ ∀ b, (k b).Ok V D U
  | _, .block _ body k => body.Ok V D U ∧ ∀ b, (k b).Ok V D U

/-- `r` is an outcome the program may expect: functions of the rounding object deliver what they promise; calls of the
library give what the protected call gives in every valid state, whichever interval type is used; nested blocks are
transparent; an error ends the program. -/
def RProg.Expects (V : Env T) (D U : EReal → EReal → Prop) : {α : Type} → RProg T α → Res α → Prop
  | _, .ret a, r => r = .ok a
  | _, .fail e, r => r = .error e
  | _, .op o k, r => ∃ ro, o.Meets V D U ro ∧ (∀ b, ro = .ok b → (k b).Expects V D U r) ∧ ∀ e, ro = .error e → r = .error e
  | _, .call _ c k, r => ∃ rc, (∀ s : V.State, V.Valid s → (c.run V.P s).1 = rc) ∧
      (∀ b, rc = .ok b → (k b).Expects V D U r) ∧ ∀ e, rc = .error e → r = .error e
  | _, .block _ body k, r => ∃ rb, body.Expects V D U rb ∧
      (∀ b, rb = .ok b → (k b).Expects V D U r) ∧ ∀ e, rb = .error e → r = .error e

end BI
