import Verif.Model.Checking
/-! # Rounding policies (rounding.hpp, rounded_arith.hpp, rounded_transc.hpp, policies.hpp) -/

namespace BI

/-- A rounding control: what `get_rounding_mode`, `set_rounding_mode`, `upward`, ... do to the control word, and which
direction the arithmetic uses for a control word. `Saved` is the type `rounding_mode`.
Interface: rounding.hpp 21-32. -/
structure Ctl where
  W : Type
  Saved : Type
  decode : W → RMode
  get : W → Saved
  set : Saved → W → W
  upward : W → W
  downward : W → W
  toNearest : W → W
  towardZero : W → W

/-- The operations of a rounding object (arithmetic, rounded_arith.hpp 26-114, and transcendental,
rounded_transc.hpp 21-134). -/
structure Arith (m : Type → Type) (T : Type) where
  convDown : Src T → m T
  convUp : Src T → m T
  addDown : T → T → m T
  addUp : T → T → m T
  subDown : T → T → m T
  subUp : T → T → m T
  mulDown : T → T → m T
  mulUp : T → T → m T
  divDown : T → T → m T
  divUp : T → T → m T
  median : T → T → m T
  sqrtDown : T → m T
  sqrtUp : T → m T
  intDown : T → m T
  intUp : T → m T
  fnDown : Fn → T → m T
  fnUp : Fn → T → m T

/-- Rounding object type: its operations, and what surrounds its lifetime (rounding.hpp 67-91). -/
structure Rounding (m : Type → Type) (T : Type) extends Arith m T where
  scope : {α : Type} → m α → m α

/-- Policies of an interval type (policies.hpp 23-28): rounding, the associated unprotected rounding, checking.
`cur` evaluates an expression of the base type that the library computes outside of any rounding object, hence in
whatever direction is in force. -/
structure Policies (m : Type → Type) (T : Type) where
  rnd : Rounding m T
  unp : Rounding m T
  chk : Checking T
  cur : {α : Type} → (RMode → Option α) → m α

/-- `unprotect`, policies.hpp 59-68 -/
def Policies.unprot {m : Type → Type} {T : Type} (P : Policies m T) : Policies m T :=
  ⟨P.unp, P.unp, P.chk, P.cur⟩

section
variable (c : Ctl) {T : Type} [Num T]

/-- Evaluate an expression of the base type in the direction in force: the argument of `force_rounding`,
rounded_arith.hpp 52-54, 91. -/
def evalIn {α : Type} (f : RMode → Option α) : M c.W α := fun s => (ofOpt (f (c.decode s.cw)), s)

/-- `(x + y) / 2`, rounded_arith.hpp 39, 66, 103 -/
def halfSum (r : RMode) (x y : T) : Option T := (Num.add r x y).bind fun s => Num.div r s (Num.lit 2)

/-- rounded_transc.hpp 21-46 (`rounded_transc_exact`): no switching. -/
def transcExact (lib : Lib T) : (Fn → T → M c.W T) × (Fn → T → M c.W T) :=
  (fun f x => evalIn c (fun r => lib f r x), fun f x => evalIn c (fun r => lib f r x))

/-- rounded_transc.hpp 48-81 (`rounded_transc_std`). -/
def transcStd (lib : Lib T) : (Fn → T → M c.W T) × (Fn → T → M c.W T) :=
  (fun f x => do M.modify c.downward; evalIn c (fun r => lib f r x),
   fun f x => do M.modify c.upward; evalIn c (fun r => lib f r x))

/-- The functions for which `rounded_transc_opp` writes `-force_rounding(-f(x))`: rounded_transc.hpp 107-112 and 132. -/
def Fn.negForm : Fn → Bool
  | .sin | .tan | .asin | .atan | .sinh | .tanh | .acosh => true
  | _ => false

/-- rounded_transc.hpp 83-134 (`rounded_transc_opp`). Note that for the functions of `negForm` the call `f(x)` itself
is made in upward mode: the two negations only surround `force_rounding`. -/
def transcOpp (lib : Lib T) : (Fn → T → M c.W T) × (Fn → T → M c.W T) :=
  (fun f x =>
     if f.negForm then do
       let v ← evalIn c (fun r => lib f r x)
       let nv ← negM v
       negM nv
     else do
       M.modify c.downward
       let y ← evalIn c (fun r => lib f r x)
       M.modify c.upward
       pure y,
   fun f x => evalIn c (fun r => lib f r x))

/-- rounded_arith.hpp 26-48 (`rounded_arith_exact`). -/
def arithExact (tr : (Fn → T → M c.W T) × (Fn → T → M c.W T)) : Arith (M c.W) T where
  convDown v := evalIn c v.conv
  convUp v := evalIn c v.conv
  addDown x y := evalIn c (fun r => Num.add r x y)
  addUp x y := evalIn c (fun r => Num.add r x y)
  subDown x y := evalIn c (fun r => Num.sub r x y)
  subUp x y := evalIn c (fun r => Num.sub r x y)
  mulDown x y := evalIn c (fun r => Num.mul r x y)
  mulUp x y := evalIn c (fun r => Num.mul r x y)
  divDown x y := evalIn c (fun r => Num.div r x y)
  divUp x y := evalIn c (fun r => Num.div r x y)
  median x y := evalIn c (fun r => halfSum r x y)
  sqrtDown x := evalIn c (fun r => Num.sqrt r x)
  sqrtUp x := evalIn c (fun r => Num.sqrt r x)
  intDown x := lift (ofOpt (Num.floor x))
  intUp x := lift (ofOpt (Num.ceil x))
  fnDown := tr.1
  fnUp := tr.2

/-- `this->downward(); return force_rounding(EXPR)`, rounded_arith.hpp 52 -/
def dn {α : Type} (f : RMode → Option α) : M c.W α := do M.modify c.downward; evalIn c f
/-- `this->upward(); return force_rounding(EXPR)`, rounded_arith.hpp 54 -/
def upw {α : Type} (f : RMode → Option α) : M c.W α := do M.modify c.upward; evalIn c f
/-- `this->to_nearest(); return force_rounding(EXPR)`, rounded_arith.hpp 53 -/
def nr {α : Type} (f : RMode → Option α) : M c.W α := do M.modify c.toNearest; evalIn c f

/-- rounded_arith.hpp 50-76 (`rounded_arith_std`). -/
def arithStd (tr : (Fn → T → M c.W T) × (Fn → T → M c.W T)) : Arith (M c.W) T where
  convDown v := dn c v.conv
  convUp v := upw c v.conv
  addDown x y := dn c (fun r => Num.add r x y)
  subDown x y := dn c (fun r => Num.sub r x y)
  mulDown x y := dn c (fun r => Num.mul r x y)
  divDown x y := dn c (fun r => Num.div r x y)
  addUp x y := upw c (fun r => Num.add r x y)
  subUp x y := upw c (fun r => Num.sub r x y)
  mulUp x y := upw c (fun r => Num.mul r x y)
  divUp x y := upw c (fun r => Num.div r x y)
  median x y := nr c (fun r => halfSum r x y)
  sqrtDown x := dn c (fun r => Num.sqrt r x)
  sqrtUp x := upw c (fun r => Num.sqrt r x)
  intDown x := dn c (fun r => Num.rint r x)
  intUp x := upw c (fun r => Num.rint r x)
  fnDown := tr.1
  fnUp := tr.2

/-- `BOOST_UP_NEG(EXPR)`: `return -this->force_rounding(EXPR)`, rounded_arith.hpp 92 -/
def upNeg (f : RMode → Option T) : M c.W T := do
  let r ← evalIn c f
  negM r
/-- `BOOST_DN(EXPR)` of the opp policy: switch down, evaluate, switch back up, rounded_arith.hpp 81-85 -/
def dnUp {α : Type} (f : RMode → Option α) : M c.W α := do
  M.modify c.downward
  let r ← evalIn c f
  M.modify c.upward
  pure r
/-- `BOOST_NR(EXPR)` of the opp policy, rounded_arith.hpp 86-90 -/
def nrUp {α : Type} (f : RMode → Option α) : M c.W α := do
  M.modify c.toNearest
  let r ← evalIn c f
  M.modify c.upward
  pure r

/-- rounded_arith.hpp 78-114 (`rounded_arith_opp`). -/
def arithOpp (tr : (Fn → T → M c.W T) × (Fn → T → M c.W T)) : Arith (M c.W) T where
  convDown v := upNeg c v.negConv
  convUp v := evalIn c v.conv
  addDown x y := upNeg c (fun r => (Num.neg x).bind fun nx => Num.sub r nx y)
  subDown x y := upNeg c (fun r => Num.sub r y x)
  mulDown x y := upNeg c (fun r => (Num.neg y).bind fun ny => Num.mul r x ny)
  divDown x y := upNeg c (fun r => (Num.neg y).bind fun ny => Num.div r x ny)
  addUp x y := evalIn c (fun r => Num.add r x y)
  subUp x y := evalIn c (fun r => Num.sub r x y)
  mulUp x y := evalIn c (fun r => Num.mul r x y)
  divUp x y := evalIn c (fun r => Num.div r x y)
  median x y := nrUp c (fun r => halfSum r x y)
  sqrtDown x := dnUp c (fun r => Num.sqrt r x)
  sqrtUp x := evalIn c (fun r => Num.sqrt r x)
  intDown x := upNeg c (fun r => (Num.neg x).bind fun nx => Num.rint r nx)
  intUp x := evalIn c (fun r => Num.rint r x)
  fnDown := tr.1
  fnUp := tr.2

/-- rounding.hpp 75-85 (`save_state`): the constructor saves the mode and runs `init`, the destructor restores it, on
normal and on exceptional exit. -/
def saveState (init : c.W → c.W) (A : Arith (M c.W) T) : Rounding (M c.W) T :=
  { A with
    scope := fun body s =>
      let saved := c.get s.cw
      let r := body { s with cw := init s.cw }
      (r.1, { r.2 with cw := c.set saved r.2.cw }) }

/-- rounding.hpp 87-91 (`save_state_nothing`) and 67-71 (`save_state_unprotected`): no effect on construction and
destruction. -/
def noState (A : Arith (M c.W) T) : Rounding (M c.W) T := { A with scope := id }

/-- The arithmetic part chosen, rounding.hpp 40-59. -/
inductive RKind where
  | exact | std | opp
  deriving DecidableEq, Repr

/-- `rounded_transc_K<T, rounded_arith_K<T, c>>`, rounding.hpp 40-59 -/
def arithOf (k : RKind) (lib : Lib T) : Arith (M c.W) T :=
  match k with
  | .exact => arithExact c (transcExact c lib)
  | .std => arithStd c (transcStd c lib)
  | .opp => arithOpp c (transcOpp c lib)

/-- The `init` member of each kind: rounded_arith.hpp 28, 55, 80. -/
def initOf (k : RKind) : c.W → c.W :=
  match k with
  | .exact => id
  | .std => id
  | .opp => c.upward

/-- Policies with rounding `save_state<rounded_transc_K<...>>` (hw_rounding.hpp 54-67 for `opp`). -/
def protPolicies (k : RKind) (lib : Lib T) (chk : Checking T) : Policies (M c.W) T where
  rnd := saveState c (initOf c k) (arithOf c k lib)
  unp := noState c (arithOf c k lib)
  chk := chk
  cur := evalIn c

/-- Policies with rounding `save_state_nothing<rounded_transc_K<...>>` (rounding.hpp 93-95 for `exact`). -/
def barePolicies (k : RKind) (lib : Lib T) (chk : Checking T) : Policies (M c.W) T where
  rnd := noState c (arithOf c k lib)
  unp := noState c (arithOf c k lib)
  chk := chk
  cur := evalIn c

/-- The policies the library selects by default: a state-saving rounding object for floating-point types
(hw_rounding.hpp 54-67), none for all other types (rounding.hpp 93-95). -/
def libPolicies (k : RKind) (lib : Lib T) (chk : Checking T) : Policies (M c.W) T :=
  match k with
  | .exact => barePolicies c .exact lib chk
  | .std => protPolicies c .std lib chk
  | .opp => protPolicies c .opp lib chk

end

section
variable {m : Type → Type} [Eff m] {T : Type}

/-- `I(a, b, true)` where both arguments are calls of rounding operations: unspecified order.
The constructor is interval.hpp 96; for instance arith.hpp 122. -/
def mk2 (a b : m T) : m (Itv T) := do
  let p ← pair a b
  pure ⟨p.1, p.2⟩
end

end BI
