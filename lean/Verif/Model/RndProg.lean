import Verif.Model.Client
/-!
# Programs that use the rounding object themselves

doc/rounding.htm 40-120 lists the functions of a rounding object; doc/rounding.htm 283-313 shows blocks that create a
`rounding` or a nested `unprotected_rounding` object and call them. examples/transc.cpp and examples/rational.cpp define
policies with this interface; every function of arith.hpp, arith2.hpp, transc.hpp uses it.
-/

namespace BI
variable {T : Type}

/-- The functions of a rounding object: rounded_arith.hpp 27-114, rounded_transc.hpp 22-134. `up` selects the function
whose name ends in `_up`. -/
inductive ROp (T : Type) where
  | conv (up : Bool) (v : Src T)
  | add (up : Bool) (x y : T)
  | sub (up : Bool) (x y : T)
  | mul (up : Bool) (x y : T)
  | div (up : Bool) (x y : T)
  | sqrt (up : Bool) (x : T)
  | int (up : Bool) (x : T)
  | fn (up : Bool) (f : Fn) (x : T)
  | median (x y : T)

/-- Calling a function of the rounding object: rounded_arith.hpp 29-47, 56-72, 93-109, rounded_transc.hpp 22-46, 49-81,
84-134. -/
def ROp.run {m : Type → Type} (A : Arith m T) : ROp T → m T
  | .conv up v => if up then A.convUp v else A.convDown v
  | .add up x y => if up then A.addUp x y else A.addDown x y
  | .sub up x y => if up then A.subUp x y else A.subDown x y
  | .mul up x y => if up then A.mulUp x y else A.mulDown x y
  | .div up x y => if up then A.divUp x y else A.divDown x y
  | .sqrt up x => if up then A.sqrtUp x else A.sqrtDown x
  | .int up x => if up then A.intUp x else A.intDown x
  | .fn up f x => if up then A.fnUp f x else A.fnDown f x
  | .median x y => A.median x y

/-- Client programs inside a block that owns a rounding object (doc/rounding.htm 283-313, doc/interval.htm 852-870). They
are not library code. -/
inductive RProg (T : Type) : Type → Type 1 where
  /- the block ends -/
  | ret {α : Type} (a : α) : RProg T α
  /- the client throws an exception of its own -/
  | fail {α : Type} (e : Err) : RProg T α
  /- a function of the innermost rounding object; the rest depends on its result -/
  | op {α : Type} (o : ROp T) (k : T → RProg T α) : RProg T α
  /- a call of the interval library, with the interval type itself or with `unprotect<I>::type` -/
  | call {α β : Type} (unprot : Bool) (c : Call T β) (k : β → RProg T α) : RProg T α
  /- a nested block `{ rounding rnd; ... }` or `{ rounding::unprotected_rounding rnd; ... }` -/
  | block {α β : Type} (unprot : Bool) (body : RProg T β) (k : β → RProg T α) : RProg T α

/-- Executing a program whose innermost rounding object is `A`: save_state and save_state_unprotected, rounding.hpp 67-91;
`unprotect`, policies.hpp 59-68. -/
def RProg.run {m : Type → Type} [Eff m] [Num T] (P : Policies m T) : Arith m T → {α : Type} → RProg T α → m α
  | _, _, .ret a => pure a
  | _, _, .fail e => lift (.error e)
  | A, _, .op o k => o.run A >>= fun b => (k b).run P A
  | A, _, .call unprot c k => (if unprot then c.run P.unprot else c.run P) >>= fun b => (k b).run P A
  | A, _, .block unprot body k =>
    (if unprot then P.unp.scope (body.run P P.unp.toArith) else P.rnd.scope (body.run P P.rnd.toArith)) >>=
      fun b => (k b).run P A

/-- The block `{ rounding rnd; ... }`: save_state, rounding.hpp 77-85 -/
def RProg.withRounding {m : Type → Type} [Eff m] [Num T] (P : Policies m T) {α : Type} (p : RProg T α) : m α :=
  P.rnd.scope (p.run P P.rnd.toArith)

/-- The block `{ rounding::unprotected_rounding rnd; ... }`: save_state_unprotected, rounding.hpp 67-71 -/
def RProg.withUnprotected {m : Type → Type} [Eff m] [Num T] (P : Policies m T) {α : Type} (p : RProg T α) : m α :=
  P.unp.scope (p.run P P.unp.toArith)

end BI
