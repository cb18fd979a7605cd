import Verif.Model.Utility
import Verif.Model.Float
/-!
# Conversions

The remaining constructors of interval.hpp, and the values of other arithmetic types from which intervals are
constructed: signed and unsigned integers (with the wrap-around of unsigned negation), and floating-point numbers of
another format.
-/

namespace BI

section
variable {T : Type} [Num T]

/-- Copy constructor, interval.hpp 175-177 -/
def ctorCopy (r : Itv T) : Itv T := ⟨r.lower, r.upper⟩

/-- interval.hpp 179-184: from an interval over the same base type with other policies, whose checking is `C1`. -/
def ctorPol (C C1 : Checking T) (r : Itv T) : Res (Itv T) := do
  if ← C1.isEmpty r.lower r.upper then emptyI C else pure ⟨r.lower, r.upper⟩

/-- A signed integer of `w` bits. The negation in `conv_down` (rounded_arith.hpp 93) overflows on the least integer:
undefined behaviour, represented by the absence of a result. -/
def srcInt (w : ℕ) (n : Int) : Src T where
  conv r := Num.ofInt r n
  negConv r := if n = -2 ^ (w - 1) then none else Num.ofInt r (-n)

/-- An unsigned integer of `w` bits. The negation in `conv_down` (rounded_arith.hpp 93) is modulo `2^w`. -/
def srcUnsigned (w : ℕ) (n : Int) : Src T where
  conv r := Num.ofInt r n
  negConv r := Num.ofInt r ((-n) % 2 ^ w)
end

/-- Conversion of a floating-point number to the format `g` (IEEE 754 `convertFormat`). -/
def Fl.convert {f : Fmt} (g : Fmt) (r : RMode) : Fl f → Fl g
  | .nan => .nan
  | .inf s => .inf s
  | .zero s => .zero s
  | .nz q _ => rnd g r (decide (q < 0)) q

/-- A floating-point number of another format (rounded_arith.hpp 56-57, 93-94 with `U` another built-in type). -/
def srcFl {f g : Fmt} (a : Fl f) : Src (Fl g) where
  conv r := some (a.convert g r)
  negConv r := some (a.neg.convert g r)

/-- `n <= m` in C++ where `n` is an `int` and `m` an `unsigned`, both of `w` bits: `n` is converted to `unsigned`.
The test `l <= u` of interval.hpp 159. -/
def leIntUnsigned (w : ℕ) (n m : Int) : Bool := decide (n % 2 ^ w ≤ m)

end BI
