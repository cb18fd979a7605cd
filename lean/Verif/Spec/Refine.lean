import Verif.Spec.Expr
/-! # The same formula with numbers of two types -/

namespace BI

/-- The formula with each constant `t` replaced by `φ t`. -/
def Expr.conv {T U : Type} (φ : T → U) : Expr T → Expr U
  | .var i => .var i
  | .num t => .num (φ t)
  | .un o e => .un o (e.conv φ)
  | .pow e k => .pow (e.conv φ) k
  | .bin o e₁ e₂ => .bin o (e₁.conv φ) (e₂.conv φ)
  | .binL o t e => .binL o (φ t) (e.conv φ)
  | .binR o e t => .binR o (e.conv φ) (φ t)
  | .inter e₁ e₂ => .inter (e₁.conv φ) (e₂.conv φ)
  | .fn f e => .fn f (e.conv φ)

/-- A conversion that changes no value, as that of `float` to `double`. -/
def Lossless {T U : Type} [Val T] [Val U] (φ : T → U) : Prop := ∀ t, val (φ t) = val t

end BI
