import Verif.Spec.Sem
import Verif.Model.Float
/-!
How far a computed bound may be from the exact one.
-/

namespace BI
open Set

/-- Relative distance of neighbouring numbers. -/
noncomputable def eps (f : Fmt) : ℝ := (2 : ℝ) ^ (1 - (f.p : ℤ))

/-- Smallest normal number. -/
noncomputable def normal (f : Fmt) : ℝ := (2 : ℝ) ^ (f.emin + f.p - 1)

/-- One unit in the last place at the magnitude of `a`, from above: relatively `2^(1-p)`, at least the distance of
subnormal numbers. -/
noncomputable def unit (f : Fmt) (a : ℝ) : ℝ := max ((2 : ℝ) ^ (1 - (f.p : ℤ)) * |a|) ((2 : ℝ) ^ f.emin)

/-- The interval contains `S`, each finite bound of `S` within the range of the format is missed by less than one unit in
the last place, and not at all if it is a number of the format. -/
def WithinUnit {f : Fmt} (z : Itv (Fl f)) (S : Set ℝ) : Prop :=
  S ⊆ γ z ∧
  (∀ a : ℝ, IsGLB S a → |a| ≤ (maxFin f : ℝ) → ∃ l : ℝ, val z.lower = some (l : EReal) ∧ l ≤ a ∧ a - l < unit f a ∧
    (Representable (Fl f) (a : EReal) → l = a)) ∧
  ∀ b : ℝ, IsLUB S b → |b| ≤ (maxFin f : ℝ) → ∃ u : ℝ, val z.upper = some (u : EReal) ∧ b ≤ u ∧ u - b < unit f b ∧
    (Representable (Fl f) (b : EReal) → u = b)

/-- The interval contains `S` and misses each finite bound of `S` by at most the relative error of `k` roundings. -/
def WithinRel {f : Fmt} (k : ℕ) (z : Itv (Fl f)) (S : Set ℝ) : Prop :=
  S ⊆ γ z ∧
  (∀ a : ℝ, IsGLB S a → ∃ l : ℝ, val z.lower = some (l : EReal) ∧ l ≤ a ∧ a - l ≤ ((1 + eps f) ^ k - 1) * |a|) ∧
  ∀ b : ℝ, IsLUB S b → ∃ u : ℝ, val z.upper = some (u : EReal) ∧ b ≤ u ∧ u - b ≤ ((1 + eps f) ^ k - 1) * |b|

/-- The powers of `X` up to `X ^ n`, with a margin for rounding, neither overflow nor underflow. -/
def PowSafe (f : Fmt) (n : ℕ) (X : ℝ) : Prop :=
  X = 0 ∨ ∀ e, 0 < e → e ≤ n → normal f ≤ X ^ e * (1 - eps f) ^ (e - 1) ∧ X ^ e * (1 + eps f) ^ (e - 1) ≤ maxFin f

/-- The relative error of `k` roundings. -/
noncomputable def relErr (f : Fmt) (k : ℕ) : ℝ := (1 + eps f) ^ k - 1

/-- The interval contains `S` and misses each finite bound of `S` by at most the relative error `d`. -/
def WithinPart {f : Fmt} (d : ℝ) (z : Itv (Fl f)) (S : Set ℝ) : Prop :=
  S ⊆ γ z ∧
  (∀ a : ℝ, IsGLB S a → ∃ l : ℝ, val z.lower = some (l : EReal) ∧ l ≤ a ∧ a - l ≤ d * |a|) ∧
  ∀ b : ℝ, IsLUB S b → ∃ u : ℝ, val z.upper = some (u : EReal) ∧ b ≤ u ∧ u - b ≤ d * |b|

/-- The inverse of a number that differs from `X` by `k` roundings neither overflows nor underflows. -/
def InvSafe (f : Fmt) (k : ℕ) (X : ℝ) : Prop :=
  normal f * (X * (1 + relErr f k)) ≤ 1 ∧ 1 ≤ maxFin f * (X * (1 - relErr f k))

end BI
