import Verif.Model.Client
import Verif.Spec.Env
/-! # Which calls do not depend on the rounding direction in force when they are made -/

namespace BI
variable {T : Type} [Num T]

/-- The conversion of the integer `n` to the base type gives the same number in all rounding directions (for instance
because the number is representable). -/
def IntFree (T : Type) [Num T] (n : Int) : Prop := ∀ r r', (Num.ofInt r n : Option T) = Num.ofInt r' n

/-- Construction from `v`: the answer to "is it NaN" does not depend on the rounding direction; and the conversion does
not either, if the rounding policy does not control it. -/
def Env.SrcFree (V : Env T) (v : Src T) : Prop :=
  (∀ r r', (ofOpt (v.conv r) >>= V.C.isNan) = (ofOpt (v.conv r') >>= V.C.isNan)) ∧
  (V.kind = .exact → ∀ r r', v.conv r = v.conv r')

/-- The call does not depend on the rounding direction in force. `inside`: it is made by a program that owns a rounding
object and uses the unprotected type. The calls concerned are the ones that convert a built-in integer or a number of
another type before they create their rounding object, and `nth_root`, which creates none. -/
def Env.ModeFree (V : Env T) (inside : Bool) {α : Type} : Call T α → Prop
  | .addIInt _ n | .addIntI n _ | .subIInt _ n | .subIntI n _ | .mulIInt _ n | .mulIntI n _ | .divIInt _ n
  | .divIntI n _ => IntFree T n
  | .nthRoot _ _ _ k => inside = true ∧ IntFree T k
  | .ctorSrc v => V.SrcFree v
  | .ctorSrc2 l u _ => V.SrcFree l ∧ V.SrcFree u
  | .ctorItv _ l u => V.kind = .exact → (∀ r r', l.conv r = l.conv r') ∧ (∀ r r', u.conv r = u.conv r')
  | _ => True

/-- The call is not `nth_root`, or is made inside a region. -/
def Call.Protected (inside : Bool) {α : Type} : Call T α → Prop
  | .nthRoot _ _ _ _ => inside = true
  | _ => True

/-- For the value `v` of another type, the opposite of `-v` rounded upward is `v` rounded downward. (Not so if `-v` is not
the opposite of `v`, as with unsigned types and the smallest integer, nor for the integer 0, where the signs of zero
differ.) -/
def Src.Opposite (v : Src T) : Prop := (v.negConv .up).bind Num.neg = v.conv .down

/-- The call does not use the mathematical library, and converts from other types only values that have an opposite. -/
def Call.Arithmetic {α : Type} : Call T α → Prop
  | .exp _ | .log _ | .cos _ _ _ | .sin _ _ _ | .tan _ _ | .asin _ _ | .acos _ _ | .atan _ | .sinh _ | .cosh _ | .tanh _
  | .asinh _ | .acosh _ | .atanh _ => False
  | .ctorSrc v | .ctorSrc2 v _ _ | .ctorItv _ v _ => v.Opposite
  | _ => True

/-- All the calls the program may make satisfy `p`; the flag tells whether the call is made inside a region. -/
def Prog.All (p : Bool → {β : Type} → Call T β → Prop) : Bool → {α : Type} → Prog T α → Prop
  | _, _, .ret _ => True
  | _, _, .fail _ => True
  | i, _, .call c k => p i c ∧ ∀ b, (k b).All p i
  | i, _, .region body k => body.All p true ∧ ∀ b, (k b).All p i

end BI
