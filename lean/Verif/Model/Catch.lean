import Verif.Model.Client
import Verif.Model.Object
/-!
# Programs that catch exceptions and mix the protected and the unprotected type

The exceptions of checking.hpp 22-36, interval.hpp 22-29 and of the base type may be caught by the program, which then goes
on: also inside a region, where the direction in force is what the interrupted function left. Programs of Model/Client.lean
are those without `attempt`.
-/

namespace BI

/-- Exceptions of C++; a failed assertion ends the program and undefined behaviour has no handler (`fuel` belongs to the
model). The exceptions are those of checking.hpp 22-36, interval.hpp 22-29. -/
def Err.caught : Err → Bool
  | .emptyCreated | .invalidNumber | .comparison | .base | .user _ => true
  | .assertion | .ub | .fuel => false

/-- Effects with handlers: run to the end and report the outcome. No library code of its own. -/
class Catch (m : Type → Type) where
  attempt : {α : Type} → m α → m (Res α)

/-- The mode-free reading; no library code of its own. -/
instance : Catch Res where
  attempt r := .ok r

/-- The machine: the state is what the interrupted computation left. No library code of its own. -/
instance {W : Type} : Catch (M W) where
  attempt a := M.attempt a

/-- Client programs with handlers; not library code. Inside a region each call and each new rounding object may be of the
protected type again (`prot`; outside there is only that one). -/
inductive TProg (T : Type) : Type → Type 1 where
  | ret {α : Type} (a : α) : TProg T α
  | fail {α : Type} (e : Err) : TProg T α
  | call {α β : Type} (prot : Bool) (c : Call T β) (k : β → TProg T α) : TProg T α
  | region {α β : Type} (prot : Bool) (body : TProg T β) (k : β → TProg T α) : TProg T α
  /- `try { body } catch (...) { ... }`; the rest depends on the outcome, and may throw it again -/
  | attempt {α β : Type} (body : TProg T β) (k : Res β → TProg T α) : TProg T α

/-- Executing such a program; regions as in `Prog.run` (rounding.hpp 75-85, policies.hpp 59-68). `P0` are the policies of the
protected type, `P` those of the type in use. -/
def TProg.run {m : Type → Type} [Eff m] [Catch m] {T : Type} [Num T] (P0 : Policies m T) :
    Policies m T → {α : Type} → TProg T α → m α
  | _, _, .ret a => pure a
  | _, _, .fail e => lift (.error e)
  | P, _, .call prot c k => c.run (if prot then P0 else P) >>= fun b => (k b).run P0 P
  | P, _, .region prot body k =>
      (if prot then P0 else P).rnd.scope (body.run P0 P.unprot) >>= fun b => (k b).run P0 P
  | P, _, .attempt body k => Catch.attempt (body.run P0 P) >>= fun r =>
      match r with
      | .ok b => (k (.ok b)).run P0 P
      | .error e => if e.caught then (k (.error e)).run P0 P else lift (.error e)

end BI
