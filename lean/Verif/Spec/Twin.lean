import Verif.Spec.Expr
/-! # Formulas whose results are determined by their operands -/

namespace BI
variable {T : Type} [Num T] [Val T] (V : Env T) (K : PiConst T) (inf : Prop)

/-- As `Expr.Sharp`, but `sin`, `cos` and `tan` are allowed: a correctly rounded square root for `sqrt`, a correctly rounded
library and the best constants for the elementary functions, `inf` for operations with unbounded results. -/
def Expr.Exacting : Expr T → Prop
  | .var _ | .num _ => True
  | .un o e => (o = .inv → inf) ∧ (o = .sqrt → V.SqrtOk (IsRoundDown T) (IsRoundUp T)) ∧ e.Exacting
  | .pow e k => k ≠ -2147483648 ∧ (k < 0 → inf) ∧ e.Exacting
  | .bin o e₁ e₂ => (o = .div → inf) ∧ e₁.Exacting ∧ e₂.Exacting
  | .binL o _ e => (o = .div → inf) ∧ e.Exacting
  | .binR _ e _ => e.Exacting
  | .inter e₁ e₂ => e₁.Exacting ∧ e₂.Exacting
  | .fn f e => (Neighbours K ∧ V.FnOk (IsRoundDown T) (IsRoundUp T) f.uses ∧ (f.unbounded = true → inf) ∧
      (f.simple = false → V.IntOk ∧ IeeeBase T)) ∧ e.Exacting

end BI
