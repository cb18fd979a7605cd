import Verif.Spec.Client
import Verif.Model.Compare
/-!
# Where exceptions may come from

doc/interval.htm ("Exception throwing"): exceptions are only thrown by the base type or by one of the policies.
-/

namespace BI
variable {T : Type} [Num T]

/-- All operations of the base type and of the mathematical library have results, whatever the operands. -/
structure TotalBase (T : Type) [Num T] (lib : Lib T) : Prop where
  neg : ∀ x : T, (Num.neg x).isSome
  ofInt : ∀ r n, (Num.ofInt r n : Option T).isSome
  add : ∀ r (x y : T), (Num.add r x y).isSome
  sub : ∀ r (x y : T), (Num.sub r x y).isSome
  mul : ∀ r (x y : T), (Num.mul r x y).isSome
  div : ∀ r (x y : T), (Num.div r x y).isSome
  sqrt : ∀ r (x : T), (Num.sqrt r x).isSome
  rint : ∀ r (x : T), (Num.rint r x).isSome
  floor : ∀ x : T, (Num.floor x).isSome
  ceil : ∀ x : T, (Num.ceil x).isSome
  lib : ∀ f r (x : T), (lib f r x).isSome

/-- What the base type and the checking policy of the configuration may raise: the exceptions of the classes the policy is
composed of; the assertions of `checking_base` for a type without infinity, or without NaN if empty intervals are
possible; a failing operation of the base type, unless there is none. -/
def Env.MayRaise (V : Env T) : Err → Prop
  | .emptyCreated => V.checks.forbidsEmpty = true
  | .invalidNumber => V.checks.catchesNan = true ∧ Num.hasNaN T = true
  | .assertion => V.ndebug = false ∧ (Num.hasInf T = false ∨ Num.hasNaN T = false ∧ V.checks.forbidsEmpty = false)
  | .base => ¬TotalBase T V.lib
  | _ => False

/-- The conversion of a number of another type may fail. -/
def Src.Partial (v : Src T) : Prop := ∃ r, v.conv r = none ∨ v.negConv r = none

/-- What a function may raise by itself. -/
def Call.Own (C : Checking T) {α : Type} : Call T α → Err → Prop
  /- `-pwr` overflows -/
  | .pow _ k, e => e = .ub ∧ k = -2147483648
  /- the index must be positive; the loop may not end -/
  | .nthRoot nd _ _ k, e => e = .fuel ∨ k ≤ 0 ∧ (e = .ub ∨ e = .assertion ∧ nd = false)
  /- depth of the recursion of the model -/
  | .cos _ _ _, e => e = .fuel
  | .sin _ _ _, e => e = .fuel
  | .ctorSrc v, e => e = .base ∧ v.Partial
  | .ctorSrc2 l u _, e => e = .base ∧ (l.Partial ∨ u.Partial)
  | .ctorItv t l u, e => t = .error e ∨ e = .base ∧ (l.Partial ∨ u.Partial)
  | .chk f, e => f C = .error e
  | _, _ => False

/-- What a program may raise by itself: what the client throws, and what the calls it makes raise by themselves. -/
def Prog.Own (C : Checking T) : {α : Type} → Prog T α → Err → Prop
  | _, .ret _, _ => False
  | _, .fail e', e => e = e'
  | _, .call c k, e => c.Own C e ∨ ∃ b, (k b).Own C e
  | _, .region body k, e => body.Own C e ∨ ∃ b, (k b).Own C e

/-- A function without rounding raises only what the base type and the checking policy raise. -/
def Env.Quiet (V : Env T) {α : Type} (r : Res α) : Prop := ∀ e, r = .error e → V.MayRaise e

/-- The same for comparisons, which also throw `comparison_error`. -/
def Env.QuietCmp (V : Env T) {α : Type} (r : Res α) : Prop := ∀ e, r = .error e → V.MayRaise e ∨ e = .comparison

/-- No exception comes from the policies: empty intervals and NaN are represented, and all operations have results. -/
structure Env.Mute (V : Env T) : Prop where
  total : TotalBase T V.lib
  empty : V.checks.forbidsEmpty = false
  nan : V.checks.catchesNan = false
  inf : V.ndebug = true ∨ Num.hasInf T = true ∧ Num.hasNaN T = true

end BI
