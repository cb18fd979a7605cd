import Verif.Model.Conv
/-!
# The floating-point model against a floating-point unit

Generated by tools/mkhw.py. Each row holds an operation, two operands and the result that an x86-64 processor gave for them
in the stated rounding direction: SSE for `float` and `double`, x87 for `long double`. The model has to give the same
results. These are tests of the model of the hardware, not proofs of properties.
-/

namespace BI.Suite.Hardware

/-- A number: mantissa and exponent; `(0, 2)` is NaN, `(0, 1)` is -0, `(±1, 99999)` are the infinities. -/
abbrev Code := Int × Int
/-- Operation, operands, result. -/
abbrev Row := Nat × Code × Code × Code

def dec (f : Fmt) : Code → Fl f
  | (0, 2) => .nan
  | (0, 1) => .zero true
  | (1, 99999) => .inf false
  | (-1, 99999) => .inf true
  | (m, e) => rnd f .near false ((m : ℚ) * 2 ^ e)

def bit (f : Fmt) (b : Bool) : Fl f := if b then Fl.ofInt .near 1 else .zero false

def run (f : Fmt) (r : RMode) (a b : Fl f) : Nat → Fl f
  | 0 => a.add r b
  | 1 => a.sub r b
  | 2 => a.mul r b
  | 3 => a.div r b
  | 4 => a.sqrt r
  | 5 => a.rint r
  | 6 => a.rint .down
  | 7 => a.rint .up
  | 8 => bit f (a.lt b)
  | 9 => bit f (a.le b)
  | _ => bit f (a.eq b)

def arith (f : Fmt) (r : RMode) (x : Row) : Bool :=
  decide (run f r (dec f x.2.1) (dec f x.2.2.1) x.1 = dec f x.2.2.2)

/-- Conversion from the format `g` to the format `f`. -/
def conv (g f : Fmt) (r : RMode) (x : Row) : Bool :=
  decide ((dec g x.2.1).convert f r = dec f x.2.2.2)

/-- Conversion of an integer. -/
def ofInt (f : Fmt) (r : RMode) (x : Row) : Bool :=
  decide ((Fl.ofInt r x.2.1.1 : Fl f) = dec f x.2.2.2)

