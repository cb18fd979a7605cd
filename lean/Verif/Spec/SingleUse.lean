import Verif.Spec.Expr
/-! # Occurrences of variables in expressions -/

namespace BI

/-- The variables of an expression, each as often as it occurs. -/
def Expr.vars {T : Type} : Expr T → List ℕ
  | .var i => [i]
  | .num _ => []
  | .un _ e | .pow e _ | .binL _ _ e | .binR _ e _ | .fn _ e => e.vars
  | .bin _ e₁ e₂ | .inter e₁ e₂ => e₁.vars ++ e₂.vars

/-- The expression with the variable `σ i` for the variable `i`. -/
def Expr.rename {T : Type} (σ : ℕ → ℕ) : Expr T → Expr T
  | .var i => .var (σ i)
  | .num c => .num c
  | .un o e => .un o (e.rename σ)
  | .pow e k => .pow (e.rename σ) k
  | .bin o e₁ e₂ => .bin o (e₁.rename σ) (e₂.rename σ)
  | .binL o c e => .binL o c (e.rename σ)
  | .binR o e c => .binR o (e.rename σ) c
  | .inter e₁ e₂ => .inter (e₁.rename σ) (e₂.rename σ)
  | .fn f e => .fn f (e.rename σ)

/-- No square roots and no functions of the C++ library, and no power with the exponent `INT_MIN`. -/
def Expr.rational {T : Type} : Expr T → Bool
  | .var _ | .num _ => true
  | .un o e => o != .sqrt && e.rational
  | .pow e k => k != -2147483648 && e.rational
  | .binL _ _ e | .binR _ e _ => e.rational
  | .bin _ e₁ e₂ | .inter e₁ e₂ => e₁.rational && e₂.rational
  | .fn _ _ => false

/-- No step of the evaluation at the point `v` is undefined (a division by zero, a power `0 ^ k` with `k ≤ 0`). -/
def Expr.Defined {T : Type} [Val T] (v : ℕ → ℝ) : Expr T → Prop
  | .var _ | .num _ => True
  | .un o e => e.Defined v ∧ ∀ a, e.Value v a → ∃ r, o.Rel a r
  | .pow e k => e.Defined v ∧ ∀ a, e.Value v a → a ≠ 0 ∨ 0 < k
  | .bin o e₁ e₂ => e₁.Defined v ∧ e₂.Defined v ∧ ∀ a b, e₁.Value v a → e₂.Value v b → ∃ r, o.Rel a b r
  | .binL o t e => e.Defined v ∧ ∀ a b, val t = some ((a : ℝ) : EReal) → e.Value v b → ∃ r, o.Rel a b r
  | .binR o e t => e.Defined v ∧ ∀ a b, e.Value v a → val t = some ((b : ℝ) : EReal) → ∃ r, o.Rel a b r
  | .inter e₁ e₂ => e₁.Defined v ∧ e₂.Defined v
  | .fn f e => e.Defined v ∧ ∀ a, e.Value v a → a ∈ f.dom

/-- The values of an expression at the points of a box. -/
def Expr.range {T : Type} [Val T] (e : Expr T) (x : ℕ → Itv T) : Set ℝ := {r | ∃ v, (∀ i, v i ∈ γ (x i)) ∧ e.Value v r}

end BI
