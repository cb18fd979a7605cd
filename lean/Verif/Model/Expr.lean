import Verif.Model.Transc
/-!
# Expressions

Client code that evaluates one formula: all operators and functions of arith.hpp, arith2.hpp, utility.hpp and transc.hpp
that map intervals and numbers to intervals point by point. The two operands of a C++ operator are evaluated in an unspecified
order (`pair`).
-/

namespace BI

/-- Functions of two arguments; each has the overloads interval-interval, number-interval and interval-number
(cited at `BinOp.II`, `BinOp.TI`, `BinOp.IT`). -/
inductive BinOp where
  | add | sub | mul | div | min | max | hull
  deriving DecidableEq, Repr

/-- Functions of one argument (cited at `UnOp.I`). -/
inductive UnOp where
  | pos | neg | abs | square | sqrt | inv
  deriving DecidableEq, Repr

/-- Expressions in the variables `0, 1, ...` and constants of type `T`: formulas a program writes with
the functions of the library; not library code. -/
inductive Expr (T : Type) where
  | var (i : Nat)
  | num (t : T)
  | un (o : UnOp) (e : Expr T)
  | pow (e : Expr T) (k : Int)
  | bin (o : BinOp) (e₁ e₂ : Expr T)
  | binL (o : BinOp) (t : T) (e : Expr T)
  | binR (o : BinOp) (e : Expr T) (t : T)
  | inter (e₁ e₂ : Expr T)
  | fn (f : Fn) (e : Expr T)

section
variable {m : Type → Type} [Eff m] {T : Type} [Num T]

/-- arith.hpp 114-123, 139-148, 170-223, 247-266; utility.hpp 177-192, 270-279, 301-310 -/
def BinOp.II (P : Policies m T) : BinOp → Itv T → Itv T → m (Itv T)
  | .add, x, y => addII P x y
  | .sub, x, y => subII P x y
  | .mul, x, y => mulII P x y
  | .div, x, y => divII P x y
  | .min, x, y => lift (minII P.chk x y)
  | .max, x, y => lift (maxII P.chk x y)
  | .hull, x, y => lift (hullII P.chk x y)

/-- arith.hpp 125-133, 150-158, 225-241, 268-286; utility.hpp 210-224, 291-299, 322-330 -/
def BinOp.TI (P : Policies m T) : BinOp → T → Itv T → m (Itv T)
  | .add, x, y => addTI P x y
  | .sub, x, y => subTI P x y
  | .mul, x, y => mulTI P x y
  | .div, x, y => divTI P x y
  | .min, x, y => lift (minTI P.chk x y)
  | .max, x, y => lift (maxTI P.chk x y)
  | .hull, x, y => lift (hullTI P.chk x y)

/-- arith.hpp 135-137, 160-168, 243-245, 288-300; utility.hpp 194-208, 281-289, 312-320 -/
def BinOp.IT (P : Policies m T) : BinOp → Itv T → T → m (Itv T)
  | .add, x, y => addIT P x y
  | .sub, x, y => subIT P x y
  | .mul, x, y => mulIT P x y
  | .div, x, y => divIT P x y
  | .min, x, y => lift (minIT P.chk x y)
  | .max, x, y => lift (maxIT P.chk x y)
  | .hull, x, y => lift (hullIT P.chk x y)

/-- arith.hpp 28-40; utility.hpp 258-268; arith2.hpp 100-122, 197-223 -/
def UnOp.I (P : Policies m T) : UnOp → Itv T → m (Itv T)
  | .pos, x => pure (plusI x)
  | .neg, x => lift (negI P.chk x)
  | .abs, x => lift (absI P.chk x)
  | .square, x => squareI P x
  | .sqrt, x => sqrtI P x
  | .inv, x => multInv P x

/-- Evaluation with intervals; `ρ` gives the variables, `K` are the constants of `T`, `fuel` limits the nesting of the
calls of `cos`. The overloads are those cited at `BinOp.II`, `BinOp.TI`, `BinOp.IT`, `UnOp.I`. -/
def Expr.eval (K : PiConst T) (fuel : Nat) (P : Policies m T) (ρ : Nat → Itv T) : Expr T → m (Itv T)
  | .var i => pure (ρ i)
  | .num t => lift (ctorT P.chk t)
  | .un o e => do
    let x ← e.eval K fuel P ρ
    o.I P x
  | .pow e k => do
    let x ← e.eval K fuel P ρ
    powI P x k
  | .bin o e₁ e₂ => do
    let p ← pair (e₁.eval K fuel P ρ) (e₂.eval K fuel P ρ)
    o.II P p.1 p.2
  | .binL o t e => do
    let x ← e.eval K fuel P ρ
    o.TI P t x
  | .binR o e t => do
    let x ← e.eval K fuel P ρ
    o.IT P x t
  | .inter e₁ e₂ => do
    let p ← pair (e₁.eval K fuel P ρ) (e₂.eval K fuel P ρ)
    lift (intersect P.chk p.1 p.2)
  | .fn f e => do
    let x ← e.eval K fuel P ρ
    f.I K fuel P x
end

section
variable {T : Type} [Num T]

/-- The operation on plain numbers, as `f_T` of test/test_float.cpp 66-83 (`std::abs`, `std::sqrt`) -/
def UnOp.plain (r : RMode) : UnOp → T → Option T
  | .pos, a => some a
  | .neg, a => Num.neg a
  | .abs, a => if Num.lt a (Num.lit 0) then Num.neg a else some a
  | .square, a => Num.mul r a a
  | .sqrt, a => Num.sqrt r a
  | .inv, a => Num.div r (Num.lit 1) a

/-- The operation on plain numbers (`std::min`, `std::max`); there is no such hull. The counterpart of
`UnOp.plain` for the operators of test/test_float.cpp 93-108 (where `f_TT` returns an interval); not library code. -/
def BinOp.plain (r : RMode) : BinOp → T → T → Option T
  | .add, a, b => Num.add r a b
  | .sub, a, b => Num.sub r a b
  | .mul, a, b => Num.mul r a b
  | .div, a, b => Num.div r a b
  | .min, a, b => some (stdMin a b)
  | .max, a, b => some (stdMax a b)
  | .hull, _, _ => none
end

end BI
