import Verif.Model.Handler
import Verif.Model.Compare
import Verif.Model.StdFn
/-! # Vocabulary for the `Exception` arguments of the checking templates -/

namespace BI
variable {T : Type}

/-- The exception a call ended with, if any. -/
def Res.thrown {α : Type} : Res α → Option Err
  | .ok _ => none
  | .error e => some e

/-- The two policies are composed of the same classes, and a function object of the first that returns is replaced by one
that returns. -/
def ChkX.Covers : ChkX T → ChkX T → Prop
  | .base, .base => True
  | .noEmpty h c, .noEmpty h' c' => (h.thrown = none → h'.thrown = none) ∧ c.Covers c'
  | .noNan c, .noNan c' => c.Covers c'
  | .catchNan h c, .catchNan h' c' => (h.thrown = none → h'.thrown = none) ∧ c.Covers c'
  | _, _ => False

/-- At some place of the composition the function object of the first policy throws `e`, the one of the second policy
throws `e'` (`some e'`) or returns (`none`). -/
def ChkX.Replaced : ChkX T → ChkX T → Err → Option Err → Prop
  | .noEmpty h c, .noEmpty h' c', e, o => h.thrown = some e ∧ h'.thrown = o ∨ c.Replaced c' e o
  | .noNan c, .noNan c', e, o => c.Replaced c' e o
  | .catchNan h c, .catchNan h' c', e, o => h.thrown = some e ∧ h'.thrown = o ∨ c.Replaced c' e o
  | _, _, _, _ => False

/-- All function objects of the policy throw. -/
def ChkX.AllThrow : ChkX T → Prop
  | .base => True
  | .noEmpty h c => (∃ e, h = .error e) ∧ c.AllThrow
  | .noNan c => c.AllThrow
  | .catchNan h c => (∃ e, h = .error e) ∧ c.AllThrow

/-- A function object of the policy throws `e`. -/
def ChkX.CanThrow : ChkX T → Err → Prop
  | .base, _ => False
  | .noEmpty h c, e => h = .error e ∨ c.CanThrow e
  | .noNan c, e => c.CanThrow e
  | .catchNan h c, e => h = .error e ∨ c.CanThrow e

variable [Num T]

/-- The functions of the library that use the checking policy and nothing else. -/
inductive LibFn : {α : Type} → (Checking T → Res α) → Prop
  /- functions without any test: accessors, `operator+`, explicit.hpp, ... -/
  | plain {α : Type} (r : Res α) : LibFn fun _ => r
  | empty : LibFn emptyI
  | whole : LibFn wholeI
  | ctorT (v : T) : LibFn (ctorT · v)
  | ctorTT (l u : T) : LibFn (ctorTT · l u)
  | hullTT (l u : T) : LibFn (hullTT · l u)
  | lower (x : Itv T) : LibFn (checkedLower · x)
  | upper (x : Itv T) : LibFn (checkedUpper · x)
  | isEmpty (x : Itv T) : LibFn (isEmptyI · x)
  | zeroIn (x : Itv T) : LibFn (zeroIn · x)
  | inI (t : T) (x : Itv T) : LibFn (inI · t x)
  | subset (x y : Itv T) : LibFn (subset · x y)
  | properSubset (x y : Itv T) : LibFn fun C => properSubset C C x y
  | overlap (x y : Itv T) : LibFn fun C => overlap C C x y
  | singleton (x : Itv T) : LibFn (singleton · x)
  | equal (x y : Itv T) : LibFn fun C => equal C C x y
  | intersect (x y : Itv T) : LibFn (intersect · x y)
  | hullII (x y : Itv T) : LibFn (hullII · x y)
  | hullIT (x : Itv T) (t : T) : LibFn (hullIT · x t)
  | hullTI (t : T) (x : Itv T) : LibFn (hullTI · t x)
  | norm (x : Itv T) : LibFn (norm · x)
  | neg (x : Itv T) : LibFn (negI · x)
  | abs (x : Itv T) : LibFn (absI · x)
  | maxII (x y : Itv T) : LibFn (maxII · x y)
  | maxIT (x : Itv T) (t : T) : LibFn (maxIT · x t)
  | maxTI (t : T) (x : Itv T) : LibFn (maxTI · t x)
  | minII (x y : Itv T) : LibFn (minII · x y)
  | minIT (x : Itv T) (t : T) : LibFn (minIT · x t)
  | minTI (t : T) (x : Itv T) : LibFn (minTI · t x)
  | cmpII (r : Rel) (x y : Itv T) : LibFn fun C => cmpII r C C x y
  | cmpIT (r : Rel) (x : Itv T) (t : T) : LibFn fun C => cmpIT r C x t
  | certainII (r : Rel) (x y : Itv T) : LibFn fun C => certainII r C C x y
  | certainIT (r : Rel) (x : Itv T) (t : T) : LibFn fun C => certainIT r C x t
  | possibleII (r : Rel) (x y : Itv T) : LibFn fun C => possibleII r C C x y
  | possibleIT (r : Rel) (x : Itv T) (t : T) : LibFn fun C => possibleIT r C x t
  | triII (r : Rel) (x y : Itv T) : LibFn fun C => triII r C C x y
  | triIT (r : Rel) (x : Itv T) (t : T) : LibFn fun C => triIT r C x t
  | lexII (r : Rel) (x y : Itv T) : LibFn fun C => lexII r C C x y
  | lexIT (r : Rel) (x : Itv T) (t : T) : LibFn fun C => lexIT r C x t
  | setII (r : Rel) (x y : Itv T) : LibFn fun C => setII r C C x y

/-- The call is one of the library's (and not an arbitrary use of the policy by the client). -/
def Call.Library {α : Type} : Call T α → Prop
  | .chk f => LibFn f
  | _ => True

/-- All calls a program may make are. -/
def Prog.Library : {α : Type} → Prog T α → Prop
  | _, .ret _ => True
  | _, .fail _ => True
  | _, .call c k => c.Library ∧ ∀ b, (k b).Library
  | _, .region body k => body.Library ∧ ∀ b, (k b).Library

end BI
