import Verif.Spec.Sem
import Verif.Model.Rounding
/-!
# Environments

What the theorems assume about the base type, the rounding control and the configuration of the library, and what it
means for a library call to return.
-/

namespace BI

/-- What a rounding control has to guarantee. `valid` singles out the control words on which saving and restoring is
faithful, `same` relates words that differ only in what the library may change. -/
structure CtlLaws (c : Ctl) where
  valid : c.W → Prop
  same : c.W → c.W → Prop
  same_refl : ∀ w, same w w
  same_trans : ∀ u v w, same u v → same v w → same u w
  valid_up : ∀ w, valid w → valid (c.upward w)
  valid_down : ∀ w, valid w → valid (c.downward w)
  valid_near : ∀ w, valid w → valid (c.toNearest w)
  same_up : ∀ w, valid w → same w (c.upward w)
  same_down : ∀ w, valid w → same w (c.downward w)
  same_near : ∀ w, valid w → same w (c.toNearest w)
  decode_up : ∀ w, valid w → c.decode (c.upward w) = .up
  decode_down : ∀ w, valid w → c.decode (c.downward w) = .down
  decode_near : ∀ w, valid w → c.decode (c.toNearest w) = .near
  restore : ∀ w w', valid w → same w w' → c.set (c.get w) w' = w

section
variable (T : Type) [Num T] [Val T]

/-- Comparisons, small literals, negation and special values of `T` agree with the denotation. -/
class NumLaws : Prop where
  lt_iff : ∀ a b : T, Num.lt a b = true ↔ ∃ x y : EReal, val a = some x ∧ val b = some y ∧ x < y
  le_iff : ∀ a b : T, Num.le a b = true ↔ ∃ x y : EReal, val a = some x ∧ val b = some y ∧ x ≤ y
  eq_iff : ∀ a b : T, Num.eq a b = true ↔ ∃ x : EReal, val a = some x ∧ val b = some x
  lit : ∀ n : Int, |n| ≤ 7 → val (Num.lit n : T) = some (((n : ℝ)) : EReal)
  neg : ∀ a b : T, Num.neg a = some b → val b = (val a).map fun x => -x
  nan : Num.hasNaN T = true → val (Num.nan : T) = none
  noNan : Num.hasNaN T = false → ∀ a : T, val a ≠ none
  inf : Num.hasInf T = true → val (Num.infinity : T) = some ⊤

/-- The operation `op` has a result which, in the directed modes, approximates `e` from the side named by the mode: `D`
says which lower approximations are accepted, `U` which upper ones. -/
def Approx (D U : EReal → EReal → Prop) (op : RMode → Option T) (e : EReal) : Prop :=
  ∀ r, ∃ c z, op r = some c ∧ val c = some z ∧ (r = .down → D z e) ∧ (r = .up → U z e)

/-- Arithmetic of `T` rounds in the demanded direction, whenever the exact result makes sense. -/
structure BaseLaws (D U : EReal → EReal → Prop) : Prop where
  neg : ∀ a : T, Num.neg a ≠ none
  add : ∀ (a b : T) x y, val a = some x → val b = some y → AddOk x y → Approx T D U (fun r => Num.add r a b) (x + y)
  sub : ∀ (a b : T) x y, val a = some x → val b = some y → SubOk x y → Approx T D U (fun r => Num.sub r a b) (x - y)
  mul : ∀ (a b : T) x y, val a = some x → val b = some y → MulOk x y → Approx T D U (fun r => Num.mul r a b) (x * y)
  div : ∀ (a b : T) x y, val a = some x → val b = some y → DivOk x y → Approx T D U (fun r => Num.div r a b) (x / y)

/-- Any lower / upper approximation. -/
def LeB (z e : EReal) : Prop := z ≤ e
def GeB (z e : EReal) : Prop := e ≤ z

/-- Directed rounding: results lie on the demanded side of the exact value. -/
def DirectedBase : Prop := BaseLaws T LeB GeB

/-- Correct rounding: results are the closest representable values on the demanded side. -/
def TightBase : Prop := BaseLaws T (IsRoundDown T) (IsRoundUp T)

/-- Exact arithmetic, the rounding direction does not matter. -/
structure ExactBase : Prop where
  neg : ∀ a : T, Num.neg a ≠ none
  add : ∀ (a b : T) x y, val a = some x → val b = some y → AddOk x y →
    ∃ c, (∀ r, Num.add r a b = some c) ∧ val c = some (x + y)
  sub : ∀ (a b : T) x y, val a = some x → val b = some y → SubOk x y →
    ∃ c, (∀ r, Num.sub r a b = some c) ∧ val c = some (x - y)
  mul : ∀ (a b : T) x y, val a = some x → val b = some y → MulOk x y →
    ∃ c, (∀ r, Num.mul r a b = some c) ∧ val c = some (x * y)
  div : ∀ (a b : T) x y, val a = some x → val b = some y → DivOk x y →
    ∃ c, (∀ r, Num.div r a b = some c) ∧ val c = some (x / y)

/-- `T` has an infinity and its opposite. -/
def InfBase : Prop := Num.hasInf T = true ∧ (Num.neg (Num.infinity : T)).isSome
end

/-- The operations of the base type and of the mathematical library do not depend on the rounding direction (exact
types). -/
structure ModeFree (T : Type) [Num T] (lib : Lib T) : Prop where
  add : ∀ (x y : T) a b, Num.add a x y = Num.add b x y
  sub : ∀ (x y : T) a b, Num.sub a x y = Num.sub b x y
  mul : ∀ (x y : T) a b, Num.mul a x y = Num.mul b x y
  div : ∀ (x y : T) a b, Num.div a x y = Num.div b x y
  sqrt : ∀ (x : T) a b, Num.sqrt a x = Num.sqrt b x
  lib : ∀ f (x : T) a b, lib f a x = lib f b x

/-- A configuration of the library: platform, rounding kind, mathematical library, checking policy, `NDEBUG`. -/
structure Env (T : Type) [Num T] where
  ctl : Ctl
  laws : CtlLaws ctl
  kind : RKind
  lib : Lib T
  checks : ChkSpec
  ndebug : Bool

section
variable {T : Type} [Num T]

/-- The policies of the configured interval type. -/
def Env.P (V : Env T) : Policies (M V.ctl.W) T := libPolicies V.ctl V.kind V.lib (V.checks.eval T V.ndebug)

/-- The checking policy of the configuration. -/
def Env.C (V : Env T) : Checking T := V.checks.eval T V.ndebug

/-- A debug build for a base type without infinities. -/
structure Env.NoInf (V : Env T) : Prop where
  inf : Num.hasInf T = false
  debug : V.ndebug = false

/-- Machine states from which calls are made. -/
abbrev Env.State (V : Env T) := St V.ctl.W

/-- The control word is one the platform can save and restore. -/
def Env.Valid (V : Env T) (s : V.State) : Prop := V.laws.valid s.cw

/-- From every state (control word with any rounding direction, any evaluation-order oracle) the call `op` returns
normally, with a result satisfying `Q`, and the control word is the one before the call. -/
def Env.Returns (V : Env T) {α : Type} (op : M V.ctl.W α) (Q : α → Prop) : Prop :=
  ∀ s : V.State, V.Valid s → ∃ z, (op s).1 = .ok z ∧ (op s).2.cw = s.cw ∧ Q z

/-- From every state the call `op` fails with `e`, and the control word is the one before the call. -/
def Env.Throws (V : Env T) {α : Type} (op : M V.ctl.W α) (e : Err) : Prop :=
  ∀ s : V.State, V.Valid s → (op s).1 = .error e ∧ (op s).2.cw = s.cw

/-- The checking policy contains `checking_no_empty`. -/
def _root_.BI.ChkSpec.forbidsEmpty : ChkSpec → Bool
  | .base => false
  | .noEmpty _ => true
  | .noNan c => c.forbidsEmpty
  | .catchNan c => c.forbidsEmpty

/-- The policy answers whether a number is NaN. -/
def _root_.BI.ChkSpec.seesNan : ChkSpec → Bool
  | .base => true
  | .noEmpty c => c.seesNan
  | .noNan _ => false
  | .catchNan _ => false

/-- The policy throws on NaN. -/
def _root_.BI.ChkSpec.catchesNan : ChkSpec → Bool
  | .base => false
  | .noEmpty c => c.catchesNan
  | .noNan _ => false
  | .catchNan c => c.seesNan || c.catchesNan

variable [Val T]

/-- The call produces the empty interval; this is an exception if the policy does not allow empty intervals. -/
def Env.YieldsEmpty (V : Env T) (op : M V.ctl.W (Itv T)) : Prop :=
  if V.checks.forbidsEmpty then V.Throws op .emptyCreated else V.Returns op Void

/-- An interval the configuration can represent: non-empty, or empty if the policy allows empty intervals. -/
def Env.Proper (V : Env T) (x : Itv T) : Prop := (γ x).Nonempty ∨ (Void x ∧ V.checks.forbidsEmpty = false)

/-- The arithmetic of the base type suits the rounding kind of the configuration: approximations `D`, `U` for the
switching kinds, exact arithmetic for the non-switching kind. -/
def Env.Ok (D U : EReal → EReal → Prop) (V : Env T) : Prop :=
  (V.kind ≠ .exact ∧ BaseLaws T D U) ∨ (V.kind = .exact ∧ ExactBase T ∧ ModeFree T V.lib)

/-- The configuration rounds outwards. -/
def Env.Directed (V : Env T) : Prop := V.Ok LeB GeB

/-- The configuration rounds outwards to the nearest representable numbers. -/
def Env.Tight (V : Env T) : Prop := V.Ok (IsRoundDown T) (IsRoundUp T)
/-- The square root of the base type rounds in the demanded direction (switching kinds), or is exact. -/
def Env.SqrtOk (D U : EReal → EReal → Prop) (V : Env T) : Prop :=
  (V.kind ≠ .exact ∧ ∀ (a : T) x, val a = some x → 0 ≤ x → Approx T D U (fun r => Num.sqrt r a) (esqrt x)) ∨
  (V.kind = .exact ∧ ∀ (a : T) x, val a = some x → 0 ≤ x →
    ∃ c, (∀ r, Num.sqrt r a = some c) ∧ val c = some (esqrt x))

/-- Lower and upper approximations that do not leave the side of zero on which the exact value lies. -/
def LeS (z e : EReal) : Prop := z ≤ e ∧ (0 ≤ e → 0 ≤ z)
def GeS (z e : EReal) : Prop := e ≤ z ∧ (e ≤ 0 → z ≤ 0)

/-- The configuration rounds outwards, but not across zero. -/
def Env.Signed (V : Env T) : Prop := V.Ok LeS GeS

/-- Rounding a finite number down to an integer is exact: `rint` for the switching kinds, `floor` otherwise. -/
def Env.IntOk (V : Env T) : Prop :=
  (V.kind ≠ .exact ∧ ∀ (a : T) (q : ℝ), val a = some (q : EReal) →
    (∃ c, Num.rint .down a = some c ∧ val c = some ((⌊q⌋ : ℝ) : EReal)) ∧
    ∃ c, Num.rint .up a = some c ∧ val c = some ((⌈q⌉ : ℝ) : EReal)) ∨
  (V.kind = .exact ∧ ∀ (a : T) (q : ℝ), val a = some (q : EReal) →
    ∃ c, Num.floor a = some c ∧ val c = some ((⌊q⌋ : ℝ) : EReal))
end

end BI
