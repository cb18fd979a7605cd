import Mathlib.Order.Lattice
import Mathlib.Order.MinMax
import Verif.Spec.Env
import Verif.Model.Expr
/-!
# Requirements on numbers (doc/numbers.htm)

An arbitrary ordered domain of ideal results instead of the real numbers.
-/

namespace BI

/-- Operations on an ordered set, and the elements one may divide by. -/
structure IdealOps (D : Type) where
  zero : D
  one : D
  neg : D → D
  add : D → D → D
  sub : D → D → D
  mul : D → D → D
  div : D → D → D
  divisor : D → Prop

section
variable {D : Type} [LinearOrder D] (O : IdealOps D)

/-- The order properties listed in doc/numbers.htm, Mathematical properties. -/
structure IdealOps.Listed : Prop where
  neg_nonpos : ∀ x, O.zero ≤ x → O.neg x ≤ O.zero
  neg_anti : ∀ x y, x ≤ y → O.neg y ≤ O.neg x
  add_mono : ∀ x y z, x ≤ y → O.add x z ≤ O.add y z
  mul_mono : ∀ x y z, x ≤ y → O.zero ≤ z → O.mul x z ≤ O.mul y z
  inv_anti : ∀ x y, O.zero < x → x ≤ y → O.zero < O.div O.one y ∧ O.div O.one y ≤ O.div O.one x

/-- Identities which the page does not mention: the operations are commutative and compatible with the sign, subtraction and
division are what they are called. -/
structure IdealOps.Silent : Prop where
  add_comm : ∀ x y, O.add x y = O.add y x
  mul_comm : ∀ x y, O.mul x y = O.mul y x
  neg_neg : ∀ x, O.neg (O.neg x) = x
  neg_zero : O.neg O.zero = O.zero
  sub_eq : ∀ x y, O.sub x y = O.add x (O.neg y)
  neg_mul : ∀ x y, O.mul (O.neg x) y = O.neg (O.mul x y)
  div_eq : ∀ x y, y ≠ O.zero → O.div x y = O.mul x (O.div O.one y)
  inv_neg : ∀ y, y ≠ O.zero → O.div O.one (O.neg y) = O.neg (O.div O.one y)
  divisor : ∀ y, O.divisor y ↔ y ≠ O.zero

/-- What the operations have to respect: each is monotone in each argument, with the sense depending on the sign of the other
one. -/
structure IdealOps.Monotone : Prop where
  neg_anti : ∀ x y, x ≤ y → O.neg y ≤ O.neg x
  neg_zero : O.neg O.zero = O.zero
  add_mono : ∀ x y z w, x ≤ y → z ≤ w → O.add x z ≤ O.add y w
  add_comm : ∀ x y, O.add x y = O.add y x
  sub_mono : ∀ x y z w, x ≤ y → z ≤ w → O.sub x w ≤ O.sub y z
  mul_right : ∀ x y z, x ≤ y → O.zero ≤ z → O.mul x z ≤ O.mul y z
  mul_right' : ∀ x y z, x ≤ y → z ≤ O.zero → O.mul y z ≤ O.mul x z
  mul_comm : ∀ x y, O.mul x y = O.mul y x
  mul_zero : ∀ x, O.mul x O.zero = O.zero
  sq_neg : ∀ x, O.mul (O.neg x) (O.neg x) = O.mul x x
  zero_one : O.zero ≤ O.one
  not_zero : ¬ O.divisor O.zero
  zero_div : ∀ z, O.divisor z → O.div O.zero z = O.zero
  div_mono : ∀ x y z, O.divisor z → x ≤ y → O.zero ≤ z → O.div x z ≤ O.div y z
  div_mono' : ∀ x y z, O.divisor z → x ≤ y → z ≤ O.zero → O.div y z ≤ O.div x z
  div_anti : ∀ x y z, O.divisor y → O.divisor z → y ≤ z → (O.zero ≤ y ∨ z ≤ O.zero) → O.zero ≤ x → O.div x z ≤ O.div x y
  div_anti' : ∀ x y z, O.divisor y → O.divisor z → y ≤ z → (O.zero ≤ y ∨ z ≤ O.zero) → x ≤ O.zero → O.div x y ≤ O.div x z

/-- What powers need besides. -/
structure IdealOps.Powers : Prop where
  mul_assoc : ∀ x y z, O.mul (O.mul x y) z = O.mul x (O.mul y z)
  one_mul : ∀ x, O.mul O.one x = x
  neg_mul : ∀ x y, O.mul (O.neg x) y = O.neg (O.mul x y)
  neg_neg : ∀ x, O.neg (O.neg x) = x

/-- The `n`-fold product. -/
def IdealOps.npow (x : D) : Nat → D
  | 0 => O.one
  | n + 1 => O.mul (npow x n) x
end

section
variable {T : Type} [Num T] (V : Env T) {D : Type} [LinearOrder D] (O : IdealOps D) (val : T → D)

/-- Whenever the call returns, the result has the property. -/
def Env.Gives {α : Type} (op : M V.ctl.W α) (Q : α → Prop) : Prop := ∀ s : V.State, V.Valid s → ∀ c, (op s).1 = .ok c → Q c

/-- `T` has the order of `D`, the small constants, an exact unary minus, and no invalid numbers; infinities of `T` bound `D`.
(doc/numbers.htm, Ordering, Numeric limits, Operators and conversions) -/
structure Represents : Prop where
  le_iff : ∀ a b : T, Num.le a b = true ↔ val a ≤ val b
  lt_iff : ∀ a b : T, Num.lt a b = true ↔ val a < val b
  eq_iff : ∀ a b : T, Num.eq a b = true ↔ val a = val b
  zero : val (Num.lit 0) = O.zero
  one : val (Num.lit 1) = O.one
  neg : ∀ a b : T, Num.neg a = some b → val b = O.neg (val a)
  noNan : Num.hasNaN T = false
  inf : Num.hasInf T = true → ∀ d, d ≤ val Num.infinity ∧ O.neg (val Num.infinity) ≤ d

/-- `f_down(x,y) <= f(x,y) <= f_up(x,y)` (doc/numbers.htm, Rounding) for the functions of the rounding object. -/
structure RoundsAround : Prop where
  addDown : ∀ a b, V.Gives (V.P.rnd.scope (V.P.rnd.addDown a b)) fun c => val c ≤ O.add (val a) (val b)
  addUp : ∀ a b, V.Gives (V.P.rnd.scope (V.P.rnd.addUp a b)) fun c => O.add (val a) (val b) ≤ val c
  subDown : ∀ a b, V.Gives (V.P.rnd.scope (V.P.rnd.subDown a b)) fun c => val c ≤ O.sub (val a) (val b)
  subUp : ∀ a b, V.Gives (V.P.rnd.scope (V.P.rnd.subUp a b)) fun c => O.sub (val a) (val b) ≤ val c
  mulDown : ∀ a b, V.Gives (V.P.rnd.scope (V.P.rnd.mulDown a b)) fun c => val c ≤ O.mul (val a) (val b)
  mulUp : ∀ a b, V.Gives (V.P.rnd.scope (V.P.rnd.mulUp a b)) fun c => O.mul (val a) (val b) ≤ val c
  divDown : ∀ a b, V.Gives (V.P.rnd.scope (V.P.rnd.divDown a b)) fun c => O.divisor (val b) ∧ val c ≤ O.div (val a) (val b)
  divUp : ∀ a b, V.Gives (V.P.rnd.scope (V.P.rnd.divUp a b)) fun c => O.divisor (val b) ∧ O.div (val a) (val b) ≤ val c

/-- Products of numbers that are not negative are not rounded to negative numbers. -/
def KeepsSign : Prop := ∀ a b, O.zero ≤ val a → O.zero ≤ val b → V.Gives (V.P.rnd.scope (V.P.rnd.mulDown a b)) fun c => O.zero ≤ val c

/-- A power occurs in the formula. -/
def Expr.usesPow : Expr T → Bool
  | .var _ | .num _ => false
  | .un _ e | .binL _ _ e | .binR _ e _ | .fn _ e => e.usesPow
  | .bin _ e₁ e₂ | .inter e₁ e₂ => e₁.usesPow || e₂.usesPow
  | .pow _ _ => true

/-- `d` is in the interval. -/
def Itv.Holds (val : T → D) (x : Itv T) (d : D) : Prop := val x.lower ≤ d ∧ d ≤ val x.upper

/-- The ideal operations. -/
def UnOp.Ideal : UnOp → D → D → Prop
  | .pos, a, d => d = a
  | .neg, a, d => d = O.neg a
  | .abs, a, d => (O.zero ≤ a ∧ d = a) ∨ (a ≤ O.zero ∧ d = O.neg a)
  | .square, a, d => d = O.mul a a
  | .inv, a, d => O.divisor a ∧ d = O.div O.one a
  | .sqrt, _, _ => False

def BinOp.Ideal : BinOp → D → D → D → Prop
  | .add, a, b, d => d = O.add a b
  | .sub, a, b, d => d = O.sub a b
  | .mul, a, b, d => d = O.mul a b
  | .div, a, b, d => O.divisor b ∧ d = O.div a b
  | .min, a, b, d => d = Min.min a b
  | .max, a, b, d => d = Max.max a b
  | .hull, a, b, d => Min.min a b ≤ d ∧ d ≤ Max.max a b

def powIdeal (a : D) (k : Int) (d : D) : Prop :=
  (0 < k → d = O.npow a k.toNat) ∧ (k = 0 → a ≠ O.zero ∧ d = O.one) ∧
    (k < 0 → O.divisor (O.npow a (-k).toNat) ∧ d = O.div O.one (O.npow a (-k).toNat))

/-- `d` is a value of the formula where variable `i` is `δ i`. -/
def Expr.Ideal (δ : Nat → D) : Expr T → D → Prop
  | .var i, d => d = δ i
  | .num t, d => d = val t
  | .un o e, d => ∃ a, e.Ideal δ a ∧ o.Ideal O a d
  | .pow e k, d => ∃ a, e.Ideal δ a ∧ powIdeal O a k d
  | .bin o e₁ e₂, d => ∃ a b, e₁.Ideal δ a ∧ e₂.Ideal δ b ∧ o.Ideal O a b d
  | .binL o t e, d => ∃ b, e.Ideal δ b ∧ o.Ideal O (val t) b d
  | .binR o e t, d => ∃ a, e.Ideal δ a ∧ o.Ideal O a (val t) d
  | .inter e₁ e₂, d => e₁.Ideal δ d ∧ e₂.Ideal δ d
  | .fn _ _, _ => False
end

end BI
