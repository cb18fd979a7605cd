import Verif.Model.Examples
import Verif.Model.Float
import Verif.Spec.Root
import Mathlib.Analysis.Calculus.Deriv.Basic
/-! # What the example programs are asked to do -/

namespace BI
open Set
variable {T : Type} [Num T] [Val T]

/-- The function given to the program encloses `F`. -/
def Encloses (V : Env T) (g : Itv T → M V.ctl.W (Itv T)) (F : ℝ → ℝ) : Prop :=
  ∀ x, (γ x).Nonempty → V.ReturnsInside (g x) fun y => ∀ t ∈ γ x, F t ∈ γ y

/-- The data of newton-raphson.cpp: enclosures of a function and of its derivative on `[a, b]`, and a finite width. -/
structure NewtonOk (V : Env T) (N : Newton (M V.ctl.W) T) (F F' : ℝ → ℝ) (a b mw : ℝ) : Prop where
  f : Encloses V N.f F
  fd : Encloses V N.fd F'
  deriv : ∀ t ∈ Icc a b, HasDerivAt F (F' t) t
  width : val N.maxWidth = some (mw : EReal)

/-- Every zero of `F` in `X` lies in an interval of the list, and the intervals are parts of `[a, b]` narrower than `mw`. -/
def Isolates (F : ℝ → ℝ) (X : Set ℝ) (a b mw : ℝ) (res : List (Itv T)) : Prop :=
  (∀ r ∈ X, F r = 0 → ∃ z ∈ res, r ∈ γ z) ∧
  ∀ z ∈ res, (γ z).Nonempty ∧ γ z ⊆ Icc a b ∧ ∀ r ∈ γ z, ∀ s ∈ γ z, s - r < mw

/-- The width `e` exceeds four steps of the numbers in `[a, b]` (`2 ^ g` is a step between numbers up to `2 ^ (g + p)`). -/
def Resolves (f : Fmt) (a b e : ℝ) : Prop :=
  ∃ g : ℤ, f.emin ≤ g ∧ |a| ≤ 2 ^ (g + f.p) ∧ |b| ≤ 2 ^ (g + f.p) ∧ (2 : ℝ) ^ (g + 2) < e

/-- On intervals of `[a, b]` narrower than `d`, the values of the function exclude zero or those of the derivative do. -/
def Separates (V : Env T) (N : Newton (M V.ctl.W) T) (a b d : ℝ) : Prop :=
  ∀ l u : ℝ, a ≤ l → l ≤ u → u ≤ b → u - l < d →
    (∀ z : Itv T, val z.lower = some (l : EReal) → val z.upper = some (u : EReal) → V.ReturnsInside (N.f z) fun y => (0 : ℝ) ∉ γ y) ∨
    ∀ z : Itv T, val z.lower = some (l : EReal) → val z.upper = some (u : EReal) → V.ReturnsInside (N.fd z) fun y => (0 : ℝ) ∉ γ y

end BI
