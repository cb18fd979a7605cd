import Verif.Model.Conv
/-! # Computing in registers that are wider than the base type -/

namespace BI

/-- Every number of the format `f` is one of the format `g`. -/
def Nested (f g : Fmt) : Prop := ∀ q, Rep f q → Rep g q

/-- The two directed modes. -/
def RMode.Directed (r : RMode) : Prop := r = .down ∨ r = .up

/-- Registers of the same precision as the base type, with at least its range of exponents. -/
structure SamePrec (f g : Fmt) : Prop where
  prec : f.p = g.p
  low : g.emin ≤ f.emin
  high : f.emax ≤ g.emax

/-- No overflow and no underflow: the number does not exceed the largest one of the format, and it is in the range of
the normal numbers or a multiple of the smallest positive one. -/
def Fits (f : Fmt) (a : ℝ) : Prop :=
  |a| ≤ maxFin f ∧ ((2 : ℝ) ^ (f.emin + f.p - 1) ≤ |a| ∨ ∃ n : ℤ, a = n * (2 : ℝ) ^ f.emin)

end BI
