import Verif.Spec.PolicyTypes
import Verif.Spec.Client
import Verif.Model.Idle
/-! # Programs under the rounding control that does nothing -/

namespace BI

/-- Calls that round to an integer: `fmod`, and `cos`, `sin`, `tan`, which use it. -/
def Call.RoundsToInt {T : Type} [Num T] {α : Type} : Call T α → Bool
  | .fmodII _ _ | .fmodIT _ _ | .fmodTI _ _ | .cos _ _ _ | .sin _ _ _ | .tan _ _ => true
  | _ => false

/-- The values of other types that a call converts to a lower bound. -/
def Call.Converts {T : Type} [Num T] {α : Type} : Call T α → Src T → Prop
  | .ctorSrc v, w => w = v
  | .ctorSrc2 l _ _, w => w = l
  | .ctorItv _ l _, w => w = l
  | _, _ => False

/-- Negations cancel: what the "opposite trick" relies on, in every direction the machine may be in. It holds for exact
base types. -/
structure NegExact (T : Type) [Num T] : Prop where
  neg : ∀ x : T, (Num.neg x).bind Num.neg = some x
  add : ∀ r (x y : T), (((Num.neg x).bind fun nx => Num.sub r nx y).bind Num.neg) = Num.add r x y
  sub : ∀ r (x y : T), (Num.sub r y x).bind Num.neg = Num.sub r x y
  mul : ∀ r (x y : T), (((Num.neg y).bind fun ny => Num.mul r x ny).bind Num.neg) = Num.mul r x y
  div : ∀ r (x y : T), (((Num.neg y).bind fun ny => Num.div r x ny).bind Num.neg) = Num.div r x y

/-- The value can be negated in its own type, and that negation commutes with the conversion. -/
def Src.NegExact {T : Type} [Num T] (v : Src T) : Prop := ∀ r, (v.negConv r).bind Num.neg = v.conv r

/-- The classes of the type and of its unprotected version have transcendental functions. -/
def IType.HasTransc (t : IType) : Prop :=
  t.rounding.transcKind.isSome ∧ ∀ u, t.unprotect = some u → u.rounding.transcKind.isSome

/-- None of the classes that matter is an "opposite" one. -/
def RClass.NoOpp (r : RClass) : Prop := r.arithKind ≠ some .opp ∧ r.transcKind ≠ some .opp

/-- Neither the type nor its unprotected version use an "opposite" class. -/
def IType.NoOpp (t : IType) : Prop :=
  t.rounding.NoOpp ∧ ∀ u, t.unprotect = some u → u.rounding.NoOpp

end BI
