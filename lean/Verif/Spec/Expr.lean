import Verif.Model.Expr
import Verif.Spec.Elem
/-! # What expressions mean for real numbers -/

namespace BI

/-- `r` is a value of `a o b`. The hull of two numbers may take any value between them. -/
def BinOp.Rel : BinOp → ℝ → ℝ → ℝ → Prop
  | .add, a, b, r => r = a + b
  | .sub, a, b, r => r = a - b
  | .mul, a, b, r => r = a * b
  | .div, a, b, r => b ≠ 0 ∧ r = a / b
  | .min, a, b, r => r = Min.min a b
  | .max, a, b, r => r = Max.max a b
  | .hull, a, b, r => Min.min a b ≤ r ∧ r ≤ Max.max a b

/-- `r` is the value of `o a`. -/
def UnOp.Rel : UnOp → ℝ → ℝ → Prop
  | .pos, a, r => r = a
  | .neg, a, r => r = -a
  | .abs, a, r => r = |a|
  | .square, a, r => r = a ^ 2
  | .sqrt, a, r => 0 ≤ a ∧ r = Real.sqrt a
  | .inv, a, r => a ≠ 0 ∧ r = a⁻¹

/-- `r` is a value of the expression at the point `ρ`; there is none where the expression is not defined. -/
def Expr.Value {T : Type} [Val T] (ρ : ℕ → ℝ) : Expr T → ℝ → Prop
  | .var i, r => r = ρ i
  | .num t, r => val t = some (r : EReal)
  | .un o e, r => ∃ a, e.Value ρ a ∧ o.Rel a r
  | .pow e k, r => ∃ a, e.Value ρ a ∧ (a ≠ 0 ∨ 0 < k) ∧ r = a ^ k
  | .bin o e₁ e₂, r => ∃ a b, e₁.Value ρ a ∧ e₂.Value ρ b ∧ o.Rel a b r
  | .binL o t e, r => ∃ a b, val t = some ((a : ℝ) : EReal) ∧ e.Value ρ b ∧ o.Rel a b r
  | .binR o e t, r => ∃ a b, e.Value ρ a ∧ val t = some ((b : ℝ) : EReal) ∧ o.Rel a b r
  | .inter e₁ e₂, r => e₁.Value ρ r ∧ e₂.Value ρ r
  | .fn f e, r => ∃ a, e.Value ρ a ∧ a ∈ f.dom ∧ r = f.real a

/-- `r` is a value of the expression at the point `ρ` if the result `s` of each operation is replaced by some number that
`R` relates to it, for instance because it is rounded. -/
def Expr.Rounded {T : Type} [Val T] (R : ℝ → ℝ → Prop) (ρ : ℕ → ℝ) : Expr T → ℝ → Prop
  | .var i, r => r = ρ i
  | .num t, r => val t = some (r : EReal)
  | .un o e, r => ∃ a s, e.Rounded R ρ a ∧ o.Rel a s ∧ R s r
  | .pow e k, r => ∃ a, e.Rounded R ρ a ∧ (a ≠ 0 ∨ 0 < k) ∧ R (a ^ k) r
  | .bin o e₁ e₂, r => ∃ a b s, e₁.Rounded R ρ a ∧ e₂.Rounded R ρ b ∧ o.Rel a b s ∧ R s r
  | .binL o t e, r => ∃ a b s, val t = some ((a : ℝ) : EReal) ∧ e.Rounded R ρ b ∧ o.Rel a b s ∧ R s r
  | .binR o e t, r => ∃ a b s, e.Rounded R ρ a ∧ val t = some ((b : ℝ) : EReal) ∧ o.Rel a b s ∧ R s r
  | .inter e₁ e₂, r => ∃ s, e₁.Rounded R ρ s ∧ e₂.Rounded R ρ s ∧ R s r
  | .fn f e, r => ∃ a, e.Rounded R ρ a ∧ a ∈ f.dom ∧ R (f.real a) r

/-- `c` is what a rounding in any direction may make of `e`: no number of the type lies strictly between them, and `c = e`
if `e` is one. -/
def Faithful (T : Type) [Val T] (e c : ℝ) : Prop :=
  ∀ w : EReal, Representable T w → (w ≤ (e : EReal) → w ≤ (c : EReal)) ∧ ((e : EReal) ≤ w → (c : EReal) ≤ w)

/-- `t` denotes a real number. -/
def Finite {T : Type} [Val T] (t : T) : Prop := ∃ r : ℝ, val t = some (r : EReal)

/-- Evaluation with plain numbers: each operation rounds in a mode of its own, and each intermediate result is finite.
Powers, intersections and the functions of the C++ library are left out. -/
def Expr.Machine {T : Type} [Num T] [Val T] (ρ : ℕ → T) : Expr T → T → Prop
  | .var i, t => t = ρ i ∧ Finite t
  | .num c, t => t = c ∧ Finite t
  | .un o e, t => ∃ a r, e.Machine ρ a ∧ o.plain r a = some t ∧ Finite t
  | .bin o e₁ e₂, t => ∃ a b r, e₁.Machine ρ a ∧ e₂.Machine ρ b ∧ o.plain r a b = some t ∧ Finite t
  | .binL o a e, t => ∃ b r, Finite a ∧ e.Machine ρ b ∧ o.plain r a b = some t ∧ Finite t
  | .binR o e b, t => ∃ a r, Finite b ∧ e.Machine ρ a ∧ o.plain r a b = some t ∧ Finite t
  | .pow _ _, _ | .inter _ _, _ | .fn _ _, _ => False

/-- Evaluation with plain numbers where all operations round in the mode `m`, with finite intermediate results. -/
def Expr.MachineIn {T : Type} [Num T] [Val T] (m : RMode) (ρ : ℕ → T) : Expr T → T → Prop
  | .var i, t => t = ρ i ∧ Finite t
  | .num c, t => t = c ∧ Finite t
  | .un o e, t => ∃ a, e.MachineIn m ρ a ∧ o.plain m a = some t ∧ Finite t
  | .bin o e₁ e₂, t => ∃ a b, e₁.MachineIn m ρ a ∧ e₂.MachineIn m ρ b ∧ o.plain m a b = some t ∧ Finite t
  | .binL o a e, t => ∃ b, Finite a ∧ e.MachineIn m ρ b ∧ o.plain m a b = some t ∧ Finite t
  | .binR o e b, t => ∃ a, Finite b ∧ e.MachineIn m ρ a ∧ o.plain m a b = some t ∧ Finite t
  | .pow _ _, _ | .inter _ _, _ | .fn _ _, _ => False

/-- The library function that `f` calls: `sin` calls the cosine. -/
def Fn.uses : Fn → Fn
  | .sin => .cos
  | f => f

section
variable {T : Type} [Num T] [Val T] (V : Env T) (K : PiConst T) (inf : Prop)

/-- What an elementary function asks of the configuration: constants that bracket `π`, a library function that is rounded
in the directions asked for, and for `sin`, `cos` and `tan` the properties of the base type that the reduction of the
argument relies on. -/
def Env.ElemOk (f : Fn) : Prop :=
  Brackets K ∧ V.FnOk LeB GeB f.uses ∧ (f.unbounded = true → inf) ∧
    (f.simple = false → V.Tight ∧ V.IntOk ∧ IeeeBase T ∧ PiPos K)

/-- What the operations in an expression ask of the configuration: `inf` for operations with unbounded results, a rounded
square root for `sqrt`, rounding that does not cross zero for `pow` (and `-k` must not overflow). -/
def Expr.Supported : Expr T → Prop
  | .var _ | .num _ => True
  | .un o e => (o = .inv → inf) ∧ (o = .sqrt → V.SqrtOk LeB GeB) ∧ e.Supported
  | .pow e k => V.Signed ∧ k ≠ -2147483648 ∧ (k < 0 → inf) ∧ e.Supported
  | .bin o e₁ e₂ => (o = .div → inf) ∧ e₁.Supported ∧ e₂.Supported
  | .binL o _ e => (o = .div → inf) ∧ e.Supported
  | .binR _ e _ => e.Supported
  | .inter e₁ e₂ => e₁.Supported ∧ e₂.Supported
  | .fn f e => V.ElemOk K inf f ∧ e.Supported

/-- The operations in the expression have results that are as narrow as the base type allows: a correctly rounded square
root for `sqrt`, a correctly rounded library and the best constants for the elementary functions, `sin`, `cos` and `tan`
excepted; `inf` for operations with unbounded results. -/
def Expr.Sharp : Expr T → Prop
  | .var _ | .num _ => True
  | .un o e => (o = .inv → inf) ∧ (o = .sqrt → V.SqrtOk (IsRoundDown T) (IsRoundUp T)) ∧ e.Sharp
  | .pow e k => k ≠ -2147483648 ∧ (k < 0 → inf) ∧ e.Sharp
  | .bin o e₁ e₂ => (o = .div → inf) ∧ e₁.Sharp ∧ e₂.Sharp
  | .binL o _ e => (o = .div → inf) ∧ e.Sharp
  | .binR _ e _ => e.Sharp
  | .inter e₁ e₂ => e₁.Sharp ∧ e₂.Sharp
  | .fn f e => (Neighbours K ∧ V.FnOk (IsRoundDown T) (IsRoundUp T) f ∧ (f.unbounded = true → inf) ∧ f.simple = true) ∧ e.Sharp
end

/-- The expression calls `sin` or `cos`, whose number of nested calls depends on the argument. -/
def Expr.nests {T : Type} : Expr T → Bool
  | .var _ | .num _ => false
  | .un _ e => e.nests
  | .pow e _ => e.nests
  | .bin _ e₁ e₂ => e₁.nests || e₂.nests
  | .binL _ _ e => e.nests
  | .binR _ e _ => e.nests
  | .inter e₁ e₂ => e₁.nests || e₂.nests
  | .fn f e => f.uses == .cos || e.nests

end BI
