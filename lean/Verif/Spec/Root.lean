import Verif.Spec.Env
/-! # What `nth_root` needs to know about the base type -/

namespace BI
variable (T : Type) [Num T] [Val T]

/-- The midpoint of `[l, u]` is computed and lies in `[l, u]`, provided that the sum of the bounds is hardly larger than
some number of the type. -/
def MidOk : Prop := ∀ (l u t : T) (a b c : ℝ), val l = some (a : EReal) → val u = some (b : EReal) →
  val t = some (c : EReal) → 1 ≤ a → a ≤ b → b ≤ c → a ^ 2 ≤ c →
  ∃ m, ∃ z : ℝ, halfSum .near l u = some m ∧ val m = some (z : EReal) ∧ a ≤ z ∧ z ≤ b

/-- Between two real numbers there are finitely many values of the type. -/
def Discrete : Prop := ∀ a b : ℝ, {r : ℝ | a ≤ r ∧ r ≤ b ∧ Representable T r}.Finite

/-- `κ` may stand for the index `n` in the iteration: it is equal to `n`, or close to it while the values of the type are
so far apart that `n` times their relative distance is at least 1. -/
def IdxOk (n : ℕ) (κ : ℝ) : Prop := κ = n ∨ 16 ≤ n ∧ 7 / 8 * n ≤ κ ∧ κ ≤ 9 / 8 * n ∧ ∃ η : ℝ, 0 < η ∧ η ≤ 1 ∧ 1 ≤ n * η ∧
  ∀ a b : ℝ, 0 < a → a < b → Representable T (a : EReal) → Representable T (b : EReal) → a * (1 + η) ≤ b

/-- However the index is rounded when it is converted, the result may stand for it. -/
def IdxFor (n : ℕ) : Prop := ∀ r, ∃ (t : T) (κ : ℝ), Num.ofInt r (n : ℤ) = some t ∧ val t = some (κ : EReal) ∧ IdxOk T n κ

variable {T}

/-- `z` contains the `n`-th roots of the points of `X`: for odd `n` of all of them, for even `n` the non-negative roots of
the non-negative points. -/
def RootOut (n : ℕ) (X : Set ℝ) (z : Itv T) : Prop := ∀ s : ℝ, (Odd n ∨ 0 ≤ s) → s ^ n ∈ X → s ∈ γ z

/-- From every state in which the rounding direction is the one the library expects inside a rounding object (upward for
the policies that do not switch, any otherwise), the call returns `Q`, and leaves such a state. -/
def Env.ReturnsInside (V : Env T) {α : Type} (op : M V.ctl.W α) (Q : α → Prop) : Prop :=
  ∀ s : V.State, V.Valid s → (V.kind = .opp → V.ctl.decode s.cw = .up) →
    ∃ z, (op s).1 = .ok z ∧ Q z ∧ V.laws.same s.cw (op s).2.cw ∧
      V.Valid (op s).2 ∧ (V.kind = .opp → V.ctl.decode (op s).2.cw = .up)

end BI
