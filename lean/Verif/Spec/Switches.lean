import Verif.Spec.Client
/-!
# Counting the writes to the rounding mode

doc/rounding.htm 422-520: "the objective is to diminish the number of rounding mode switches". A rounding control with a
counter, and how many writes each call may make.
-/

namespace BI
variable {T : Type}

/-- The rounding control `c` with a counter beside the control word: each write (`set_rounding_mode`, `upward`, `downward`,
`to_nearest`, `toward_zero`) adds one. Reading is free. -/
def Ctl.counting (c : Ctl) : Ctl where
  W := c.W × Nat
  Saved := c.Saved
  decode w := c.decode w.1
  get w := c.get w.1
  set v w := (c.set v w.1, w.2 + 1)
  upward w := (c.upward w.1, w.2 + 1)
  downward w := (c.downward w.1, w.2 + 1)
  toNearest w := (c.toNearest w.1, w.2 + 1)
  towardZero w := (c.towardZero w.1, w.2 + 1)

/-- What the parts of a rounding policy cost: a rounding object from construction to destruction, an operation of the
arithmetic (and an upper bound of a function), the midpoint, the lower bound of a square root, the lower bound of a
function of the mathematical library. -/
structure Price where
  object : Nat
  op : Nat
  mid : Nat
  root : Nat
  fn : Fn → Nat

/-- `save_state<rounded_transc_opp<...>>`: the mode is set when the object is created and when it is destroyed; only the
midpoint, square roots downward and those functions that have no symmetry switch, and switch back. -/
def Price.opp : Price := ⟨2, 0, 2, 2, fun
  | .exp | .log | .cos | .acos | .cosh | .asinh | .atanh => 2
  | .sin | .tan | .asin | .atan | .sinh | .tanh | .acosh => 0⟩

/-- `save_state<rounded_transc_std<...>>`: the mode is set for each operation, and when the object is destroyed. -/
def Price.std : Price := ⟨1, 1, 1, 1, fun _ => 1⟩

/-- Exact arithmetic. -/
def Price.free : Price := ⟨0, 0, 0, 0, fun _ => 0⟩

/-- The unprotected type: objects cost nothing. -/
def Price.unprot (p : Price) : Price := { p with object := 0 }

/-- Two powers by repeated squaring: at most two products for each binary digit of the exponent after the first. -/
def Price.power (p : Price) (k : Int) : Nat :=
  p.object + 4 * k.natAbs.log2 * p.op + if k < 0 then p.object + 2 * p.op else 0

/-- One turn of Newton's method in `nth_root`, on the unprotected type. -/
def Price.turn (p : Price) (k : Int) : Nat :=
  p.mid + p.unprot.power k + p.unprot.power (k - 1) + 8 * p.op

/-- The number of writes a call makes at most. -/
def Price.call (p : Price) {α : Type} : Call T α → Nat
  | .addII _ _ | .addTI _ _ | .addIT _ _ | .subII _ _ | .subTI _ _ | .subIT _ _ => p.object + 2 * p.op
  | .addTT _ _ | .subTT _ _ | .mulTT _ _ | .divTT _ _ => p.object + 2 * p.op
  | .addIInt _ _ | .addIntI _ _ | .subIInt _ _ | .subIntI _ _ => p.object + 2 * p.op
  | .mulTI _ _ | .mulIT _ _ | .mulIInt _ _ | .mulIntI _ _ => p.object + 2 * p.op
  | .mulII _ _ => p.object + 4 * p.op
  | .divII _ _ | .divTI _ _ | .divIT _ _ | .divIInt _ _ | .divIntI _ _ => p.object + 2 * p.op
  | .fmodII _ _ | .fmodIT _ _ | .fmodTI _ _ => p.object + 6 * p.op
  | .divisionPart1 _ _ => p.object + 2 * p.op
  | .divisionPart2 _ _ _ => p.object + p.op
  | .multInv _ | .square _ | .widen _ _ => p.object + 2 * p.op
  | .pow _ k => p.power k
  | .sqrt _ => p.object + p.root + p.op
  | .nthRoot _ fuel _ k => 2 * (fuel * p.turn k + 2 * p.op)
  | .width _ => p.object + p.op
  | .median _ | .bisect _ => p.object + p.mid
  | .exp _ => p.object + p.fn .exp + p.op
  | .log _ => p.object + p.fn .log + p.op
  | .cos _ fuel _ => p.object + fuel * (9 * p.op) + p.fn .cos + 2 * p.op
  | .sin _ fuel _ => p.object + 2 * p.op + fuel * (9 * p.op) + p.fn .cos + 2 * p.op
  | .tan _ _ => p.object + 8 * p.op + p.fn .tan + p.op
  | .asin _ _ => p.object + p.fn .asin + p.op
  | .acos _ _ => p.object + p.fn .acos + p.op
  | .atan _ => p.object + p.fn .atan + p.op
  | .sinh _ => p.object + p.fn .sinh + p.op
  | .cosh _ => p.object + p.fn .cosh + p.op
  | .tanh _ => p.object + p.fn .tanh + p.op
  | .asinh _ => p.object + p.fn .asinh + p.op
  | .acosh _ => p.object + p.fn .acosh + p.op
  | .atanh _ => p.object + p.fn .atanh + p.op
  | .ctorSrc _ | .ctorSrc2 _ _ _ | .ctorItv _ _ _ => p.object + 2 * p.op
  | .chk _ => 0

/-- Inside a region with the `opp` policy the call leaves the mode alone. -/
def Call.Steady {α : Type} : Call T α → Prop
  | .sqrt _ | .median _ | .bisect _ | .nthRoot _ _ _ _ => False
  | .exp _ | .log _ | .cos _ _ _ | .sin _ _ _ | .acos _ _ | .cosh _ | .asinh _ | .atanh _ => False
  | _ => True

/-- Started in state `s` the computation writes the rounding mode `n` times, whether it returns or throws. -/
def Writes {c : Ctl} {α : Type} (a : M c.counting.W α) (s : St c.counting.W) (n : Nat) : Prop :=
  (a s).2.cw.2 = s.cw.2 + n

/-- The sum of several intervals, from left to right. -/
def sumProg : List (Itv T) → Itv T → Prog T (Itv T)
  | [], x => .ret x
  | y :: ys, x => .call (.addII x y) fun z => sumProg ys z

end BI
