import Verif.Spec.SingleUse
/-! # Expressions with one value at each point -/

namespace BI

/-- The expression does not call `hull`, the only function with more than one value at a point. -/
def Expr.crisp {T : Type} : Expr T → Bool
  | .var _ | .num _ => true
  | .un _ e | .pow e _ | .fn _ e => e.crisp
  | .binL o _ e | .binR o e _ => o != .hull && e.crisp
  | .bin o e₁ e₂ => o != .hull && e₁.crisp && e₂.crisp
  | .inter e₁ e₂ => e₁.crisp && e₂.crisp

/-- Every variable is known up to `w`. -/
def Narrow {T : Type} [Val T] (x : ℕ → Itv T) (w : ℝ) : Prop := ∀ i, ∀ a ∈ γ (x i), ∀ b ∈ γ (x i), |a - b| ≤ w

end BI
