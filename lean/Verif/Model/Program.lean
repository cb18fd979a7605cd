import Verif.Model.Compare
import Verif.Model.Expr
/-!
# Programs with variables, tests and loops

Client code that computes with interval variables and decides with the comparison operators of interval.hpp where to go
on: the programs doc/comparisons.htm 67-70 speaks of, in which "base types are replaced by interval types". A block may
own a rounding object and use the unprotected type (doc/interval.htm 852-870); the conversions of the variables at its
borders, which copy the bounds, are left out.
-/

namespace BI

/-- Tests with the default comparison operators, interval.hpp 102-125. -/
inductive Cond (T : Type) where
  | II (r : Rel) (e₁ e₂ : Expr T)
  | IT (r : Rel) (e : Expr T) (t : T)

/-- Statements: nothing, `x_i = e;`, two statements, `if (c) a else b`, `while (c) a`, a block with a rounding object;
client code, not library code. -/
inductive Stmt (T : Type) where
  | skip
  | assign (i : Nat) (e : Expr T)
  | seq (a b : Stmt T)
  | ite (c : Cond T) (a b : Stmt T)
  | loop (c : Cond T) (a : Stmt T)
  | region (a : Stmt T)

section
variable {m : Type → Type} [Eff m] {T : Type} [Num T]

/-- A test, with the comparison operators of interval.hpp 323-445; the operands are evaluated in an unspecified order. -/
def Cond.test (K : PiConst T) (fuel : Nat) (P : Policies m T) (ρ : Nat → Itv T) : Cond T → m Bool
  | .II r e₁ e₂ => do
    let p ← pair (e₁.eval K fuel P ρ) (e₂.eval K fuel P ρ)
    lift (cmpII r P.chk P.chk p.1 p.2)
  | .IT r e t => do
    let x ← e.eval K fuel P ρ
    lift (cmpIT r P.chk x t)

/-- `while (test) body`, for less than `n` turns; client code, not library code. -/
def loopTurns (test : (Nat → Itv T) → m Bool) (body : (Nat → Itv T) → m ((Nat → Itv T) × List Bool)) :
    Nat → (Nat → Itv T) → m ((Nat → Itv T) × List Bool)
  | 0, _ => lift (.error .fuel)
  | n + 1, ρ => do
    let b ← test ρ
    if b then do
      let p ← body ρ
      let q ← loopTurns test body n p.1
      pure (q.1, true :: (p.2 ++ q.2))
    else pure (ρ, [false])

/-- Execution with intervals: the variables at the end, and the results of the tests on the way. Each execution of a loop
is limited to less than `n` turns. Client code, not library code. -/
def Stmt.run (K : PiConst T) (fuel n : Nat) : Stmt T → Policies m T → (Nat → Itv T) → m ((Nat → Itv T) × List Bool)
  | .skip, _, ρ => pure (ρ, [])
  | .assign i e, P, ρ => do
    let x ← e.eval K fuel P ρ
    pure (fun j => if j = i then x else ρ j, [])
  | .seq a b, P, ρ => do
    let p ← a.run K fuel n P ρ
    let q ← b.run K fuel n P p.1
    pure (q.1, p.2 ++ q.2)
  | .ite c a b, P, ρ => do
    let t ← c.test K fuel P ρ
    let p ← (if t then a.run K fuel n P ρ else b.run K fuel n P ρ)
    pure (p.1, t :: p.2)
  | .loop c a, P, ρ => loopTurns (c.test K fuel P) (a.run K fuel n P) n ρ
  | .region a, P, ρ => P.rnd.scope (a.run K fuel n P.unprot ρ)
end

end BI
