import Verif.Model.PolicyTypes
/-! # Calls that need transcendental functions of the rounding class -/

namespace BI

/-- Functions of transc.hpp other than `pow` and `nth_root`. -/
def Call.Transcendental {T : Type} [Num T] {α : Type} : Call T α → Bool
  | .exp _ | .log _ | .cos _ _ _ | .sin _ _ _ | .tan _ _ | .asin _ _ | .acos _ _ | .atan _ | .sinh _ | .cosh _ | .tanh _
  | .asinh _ | .acosh _ | .atanh _ => true
  | _ => false

/-- No class of the stack saves the state. -/
def RClass.Plain : RClass → Prop
  | .control => True
  | .save _ => False
  | .arith _ r | .transc _ r | .unprotected r | .nothing r | .derived r => r.Plain

/-- At most one class of the stack saves the state, and none below one that is declared unprotected. -/
def RClass.OneSave : RClass → Prop
  | .control => True
  | .save r | .unprotected r | .nothing r => r.Plain
  | .arith _ r | .transc _ r | .derived r => r.OneSave

end BI
