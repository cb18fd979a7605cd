import Verif.Spec.Expr
/-! # The same configuration with another checking policy (used by C80) -/

namespace BI
variable {T : Type} [Num T]

/-- The configuration with the checking policy `c`, in a build with or without assertions. -/
def Env.recheck (V : Env T) (c : ChkSpec) (ndebug : Bool) : Env T := { V with checks := c, ndebug := ndebug }

/-- No `hull` occurs in the formula. -/
def Expr.hullFree : Expr T → Bool
  | .var _ => true
  | .num _ => true
  | .un _ e => e.hullFree
  | .pow e _ => e.hullFree
  | .bin o e₁ e₂ => o != .hull && e₁.hullFree && e₂.hullFree
  | .binL o _ e => o != .hull && e.hullFree
  | .binR o e _ => o != .hull && e.hullFree
  | .inter e₁ e₂ => e₁.hullFree && e₂.hullFree
  | .fn _ e => e.hullFree

end BI
