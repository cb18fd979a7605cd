import Mathlib.Analysis.Real.Sqrt
import Mathlib.Data.EReal.Inv
import Verif.Model.Base
/-!
# What numbers and intervals denote

The specification side. A number denotes an extended real, or nothing (NaN); an interval denotes the set of the real
numbers between its bounds.
-/

namespace BI

/-- Denotation of numbers; `none` for NaN. -/
class Val (T : Type) where
  val : T → Option EReal

export Val (val)

section
variable {T : Type} [Val T]

/-- The set of real numbers denoted by an interval. -/
def γ (x : Itv T) : Set ℝ :=
  {r | ∃ l u : EReal, val x.lower = some l ∧ val x.upper = some u ∧ l ≤ (r : EReal) ∧ (r : EReal) ≤ u}

/-- An empty interval as the library represents it: a bound is NaN, or the bounds are in the wrong order. (The intervals
`[+oo, +oo]` and `[-oo, -oo]` contain no real number either, but are not empty for the library.) -/
def Void (x : Itv T) : Prop := ∀ l u, val x.lower = some l → val x.upper = some u → u < l

theorem Void.gamma {x : Itv T} (h : Void x) : γ x = ∅ := by
  ext r
  simp only [Set.mem_empty_iff_false, iff_false]
  rintro ⟨l, u, h1, h2, h3, h4⟩
  exact absurd (h3.trans h4) (not_le.2 (h l u h1 h2))

/-- `e` is the value of some number of type `T`. -/
def Representable (T : Type) [Val T] (e : EReal) : Prop := ∃ a : T, val a = some e

/-- `z` is the largest representable value that is not above `e`. -/
def IsRoundDown (T : Type) [Val T] (z e : EReal) : Prop :=
  Representable T z ∧ z ≤ e ∧ ∀ w, Representable T w → w ≤ e → w ≤ z

/-- `z` is the smallest representable value that is not below `e`. -/
def IsRoundUp (T : Type) [Val T] (z e : EReal) : Prop :=
  Representable T z ∧ e ≤ z ∧ ∀ w, Representable T w → e ≤ w → z ≤ w

/-- `z` is the smallest interval with representable bounds that contains the set `S`. -/
def SmallestEnclosure (z : Itv T) (S : Set ℝ) : Prop :=
  S ⊆ γ z ∧ ∀ z' : Itv T, S ⊆ γ z' → γ z ⊆ γ z' ∧
    ∀ l u l' u', val z.lower = some l → val z.upper = some u → val z'.lower = some l' → val z'.upper = some u' →
      l' ≤ l ∧ u ≤ u'

end

/-! Operands for which an operation makes sense on the extended line (those on which IEEE arithmetic does not answer
with NaN, and, for the division, the divisor is not zero). -/

def AddOk (x y : EReal) : Prop := (x ≠ ⊤ ∨ y ≠ ⊥) ∧ (x ≠ ⊥ ∨ y ≠ ⊤)
def SubOk (x y : EReal) : Prop := (x ≠ ⊤ ∨ y ≠ ⊤) ∧ (x ≠ ⊥ ∨ y ≠ ⊥)
def MulOk (x y : EReal) : Prop := (x ≠ 0 ∨ (y ≠ ⊥ ∧ y ≠ ⊤)) ∧ (y ≠ 0 ∨ (x ≠ ⊥ ∧ x ≠ ⊤))
def DivOk (x y : EReal) : Prop := y ≠ 0 ∧ ((x ≠ ⊥ ∧ x ≠ ⊤) ∨ (y ≠ ⊥ ∧ y ≠ ⊤))

/-- Square root extended to infinity. -/
noncomputable def esqrt : EReal → EReal
  | ⊤ => ⊤
  | ⊥ => 0
  | (r : ℝ) => (Real.sqrt r : ℝ)

end BI
