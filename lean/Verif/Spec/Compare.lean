import Verif.Spec.Sem
import Verif.Model.Compare
/-! # Relations between sets of real numbers -/

namespace BI

/-- The relation on real numbers. -/
def Rel.holds : Rel → ℝ → ℝ → Prop
  | .lt, p, q => p < q
  | .le, p, q => p ≤ q
  | .gt, p, q => p > q
  | .ge, p, q => p ≥ q
  | .eq, p, q => p = q
  | .ne, p, q => p ≠ q

/-- The complementary relation. -/
def Rel.dual : Rel → Rel
  | .lt => .ge
  | .le => .gt
  | .gt => .le
  | .ge => .lt
  | .eq => .ne
  | .ne => .eq

/-- The relation holds for every pair of points. -/
def Always (r : Rel) (X Y : Set ℝ) : Prop := ∀ p ∈ X, ∀ q ∈ Y, r.holds p q

/-- The relation holds for some pair of points. -/
def Sometimes (r : Rel) (X Y : Set ℝ) : Prop := ∃ p ∈ X, ∃ q ∈ Y, r.holds p q

end BI
