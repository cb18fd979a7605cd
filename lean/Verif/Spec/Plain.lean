import Verif.Spec.Expr
import Verif.Model.Float
/-! # Arithmetic in one rounding mode -/

namespace BI

/-- Real numbers `s` and their roundings `c` in the mode `m`, when these are finite. -/
def RoundsTo (f : Fmt) (m : RMode) (s c : ℝ) : Prop := val (rnd f m false s) = some (c : EReal)

/-- An expression without powers and functions of the C++ library. -/
def Expr.arithOnly {T : Type} : Expr T → Bool
  | .var _ | .num _ => true
  | .un _ e | .binL _ _ e | .binR _ e _ => e.arithOnly
  | .bin _ e₁ e₂ | .inter e₁ e₂ => e₁.arithOnly && e₂.arithOnly
  | .pow _ _ | .fn _ _ => false

/-- An expression without powers, hulls and functions of the C++ library. -/
def Expr.oneValued {T : Type} : Expr T → Bool
  | .var _ | .num _ => true
  | .un _ e => e.oneValued
  | .binL o _ e | .binR o e _ => o != .hull && e.oneValued
  | .bin o e₁ e₂ => o != .hull && e₁.oneValued && e₂.oneValued
  | .inter e₁ e₂ => e₁.oneValued && e₂.oneValued
  | .pow _ _ | .fn _ _ => false

end BI
