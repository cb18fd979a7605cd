import Verif.Model.Catch
import Verif.Spec.Client
import Verif.Spec.Elem
/-! # Conditions on programs that catch exceptions -/

namespace BI
variable {T : Type} [Num T]

/-- All the calls the program may make satisfy `p`; the flag tells whether the call is made inside a region with the
unprotected type. -/
def TProg.All (p : Bool → {β : Type} → Call T β → Prop) : Bool → {α : Type} → TProg T α → Prop
  | _, _, .ret _ => True
  | _, _, .fail _ => True
  | i, _, .call prot c k => p (i && !prot) c ∧ ∀ b, (k b).All p i
  | i, _, .region _ body k => body.All p true ∧ ∀ b, (k b).All p i
  | i, _, .attempt body k => body.All p i ∧ ∀ r, (k r).All p i

/-- There are no handlers inside regions (handlers around regions are allowed). -/
def TProg.Outside : Bool → {α : Type} → TProg T α → Prop
  | _, _, .ret _ => True
  | _, _, .fail _ => True
  | i, _, .call _ _ k => ∀ b, (k b).Outside i
  | i, _, .region _ body k => body.Outside true ∧ ∀ b, (k b).Outside i
  | i, _, .attempt body k => i = false ∧ body.Outside i ∧ ∀ r, (k r).Outside i

/-- Programs without handlers are among them. -/
def TProg.ofProg : {α : Type} → Prog T α → TProg T α
  | _, .ret a => .ret a
  | _, .fail e => .fail e
  | _, .call c k => .call false c fun x => ofProg (k x)
  | _, .region body k => .region false (ofProg body) fun x => ofProg (k x)

/-- One program, then another one that depends on its result. -/
def TProg.andThen {β : Type} : {α : Type} → TProg T α → (α → TProg T β) → TProg T β
  | _, .ret a, f => f a
  | _, .fail e, _ => .fail e
  | _, .call b c k, f => .call b c fun x => (k x).andThen f
  | _, .region b body k, f => .region b body fun x => (k x).andThen f
  | _, .attempt body k, f => .attempt body fun r => (k r).andThen f

/-- The same program without rounding objects, all calls with the protected type. -/
def TProg.plain : {α : Type} → TProg T α → TProg T α
  | _, .ret a => .ret a
  | _, .fail e => .fail e
  | _, .call _ c k => .call true c fun x => (k x).plain
  | _, .region _ body k => body.plain.andThen fun x => (k x).plain
  | _, .attempt body k => .attempt body.plain fun r => (k r).plain

/-- The one-mode policies switch the direction around square roots, midpoints and some library functions (rounded_arith.hpp
81-90, 103-105, rounded_transc.hpp 86-98); these do not throw. -/
structure Env.Steady (V : Env T) : Prop where
  sqrt : V.kind = .opp → ∀ x : T, Num.sqrt .down x ≠ none
  sum : V.kind = .opp → ∀ x y : T, Num.add .near x y ≠ none
  half : V.kind = .opp → ∀ x : T, Num.div .near x (Num.lit 2) ≠ none
  fn : V.kind = .opp → ∀ (f : Fn) (x : T), f.oppSwitches = true → V.lib f .down x ≠ none

end BI
