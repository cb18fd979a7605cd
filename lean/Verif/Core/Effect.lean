/-!
# Effects of the library

The library reads and writes one piece of global state, the floating-point control word, it throws, asserts, and leaves
the order of evaluation of function arguments to the compiler. The model functions are written for an abstract effect
`m` with `Eff m`; this file gives the two instances.
-/

namespace BI

/-- IEEE-754 rounding directions. -/
inductive RMode where
  | near | down | up | zero
  deriving DecidableEq, Repr

/-- Abnormal outcomes. `fuel` belongs to the model: a loop has not ended after the granted number of turns. -/
inductive Err where
  /-- `std::runtime_error("boost::interval: empty interval created")`, checking.hpp 22-28 -/
  | emptyCreated
  /-- `std::invalid_argument("boost::interval: invalid number")`, checking.hpp 30-36 -/
  | invalidNumber
  /-- `interval_lib::comparison_error`, interval.hpp 22-29 -/
  | comparison
  /-- a failing `assert` -/
  | assertion
  /-- an operation of the base type has no result: undefined behaviour of a built-in integer (overflow, division by
  zero), or an exception thrown by a class type -/
  | base
  /-- undefined behaviour in the library's own `int` computations -/
  | ub
  | fuel
  /-- an exception of the program's own: a client or a function object given as `Exception` argument, checking.hpp 76-119,
  throws it -/
  | user (code : Nat)
  deriving DecidableEq, Repr

/-- Outcome of a computation. (The definitions of this file have no counterpart in /repo.) -/
abbrev Res (α : Type) := Except Err α

/-- Effects used by the library code. `lift` embeds a computation that does not look at the control word; `pair` runs
two computations that are arguments of the same function call, in an order chosen by the implementation; `quad` runs
the four calls in an expression of the form `f(g(a, b), h(c, d))` whose inner functions have no effect: the
implementation may take them in any of the 24 orders. -/
class Eff (m : Type → Type) extends Monad m where
  lift : {α : Type} → Res α → m α
  pair : {α β : Type} → m α → m β → m (α × β)
  quad : {α β γ δ : Type} → m α → m β → m γ → m δ → m ((α × β) × γ × δ)

export Eff (lift pair quad)

/-- Outcome of a base type operation that may have no result. -/
def ofOpt {α : Type} : Option α → Res α
  | some a => .ok a
  | none => .error .base

/-- The mode-free reading: outcomes only. -/
instance : Eff Res where
  lift := id
  pair a b := a.bind fun x => b.bind fun y => .ok (x, y)
  quad a b c d := a.bind fun x => b.bind fun y => c.bind fun z => d.bind fun w => .ok ((x, y), z, w)

/-- State of the machine: the control word, and the oracle that decides each unspecified order of evaluation
(`true`: left argument first). -/
structure St (W : Type) where
  cw : W
  sched : Nat → Bool

/-- Machine computations. The state after a throw is kept: destructors have run. -/
def M (W : Type) (α : Type) : Type := St W → Res α × St W

namespace M
variable {W : Type}

protected def bind {α β : Type} (a : M W α) (f : α → M W β) : M W β := fun s =>
  match a s with
  | (.ok x, s') => f x s'
  | (.error e, s') => (.error e, s')

instance : Monad (M W) where
  pure x := fun s => (.ok x, s)
  bind := M.bind

/-- Ask the oracle. -/
def choose {α : Type} (a b : M W α) : M W α := fun s =>
  let s' : St W := { s with sched := fun n => s.sched (n + 1) }
  if s.sched 0 then a s' else b s'

/-- Two calls in any order. -/
def any2 {α β : Type} (a : M W α) (b : M W β) : M W (α × β) :=
  choose (do let x ← a; let y ← b; pure (x, y)) (do let y ← b; let x ← a; pure (x, y))

/-- Three calls in any order. -/
def any3 {α β γ : Type} (a : M W α) (b : M W β) (c : M W γ) : M W (α × β × γ) :=
  choose (do let x ← a; let q ← any2 b c; pure (x, q.1, q.2))
    (choose (do let y ← b; let q ← any2 a c; pure (q.1, y, q.2)) (do let z ← c; let q ← any2 a b; pure (q.1, q.2, z)))

/-- Four calls in any order. -/
def any4 {α β γ δ : Type} (a : M W α) (b : M W β) (c : M W γ) (d : M W δ) : M W ((α × β) × γ × δ) :=
  choose (choose (do let x ← a; let q ← any3 b c d; pure ((x, q.1), q.2.1, q.2.2))
      (do let y ← b; let q ← any3 a c d; pure ((q.1, y), q.2.1, q.2.2)))
    (choose (do let z ← c; let q ← any3 a b d; pure ((q.1, q.2.1), z, q.2.2))
      (do let w ← d; let q ← any3 a b c; pure ((q.1, q.2.1), q.2.2, w)))

instance : Eff (M W) where
  lift r := fun s => (r, s)
  pair := any2
  quad := any4

/-- Apply a function to the control word. -/
def modify (f : W → W) : M W Unit := fun s => (.ok (), { s with cw := f s.cw })

end M

end BI
