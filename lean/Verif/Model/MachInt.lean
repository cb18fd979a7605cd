import Mathlib.Algebra.Order.Ring.Int
import Verif.Model.Rounding
import Verif.Spec.Sem
/-!
# Built-in integers as a base type

`MInt w`: a signed type of `w + 4` bits that is not promoted (`int`, `long`): overflow and division by zero are undefined
behaviour. In `Num`, `none` says that the operation has no defined result; outcome `Err.base` of a call is undefined
behaviour of the program for these types.

`WInt lo w`: a type of `w` bits starting at `lo` whose results are reduced modulo `2^w`: unsigned types (`lo = 0`), and
`signed char`, `short` (`lo = -2^(w-1)`), whose operands are promoted to `int` and whose results are converted back
(implementation-defined before C++20; gcc, clang and msvc reduce modulo `2^w`).

`std::floor`, `std::ceil` and `std::sqrt` of an integer go through `double`; only the first two are modelled, as the
identity.
-/

namespace BI

/-- Signed integers of `w + 4` bits (a built-in type, as in test/integer.cpp; not library code). -/
structure MInt (w : Nat) where
  z : Int
  lo : -(2 ^ (w + 3)) ≤ z
  hi : z < 2 ^ (w + 3)
  deriving DecidableEq

/-- The value, if it is in range; otherwise the operation overflows (not library code). -/
def MInt.fit (w : Nat) (z : Int) : Option (MInt w) :=
  if h : -(2 ^ (w + 3)) ≤ z ∧ z < 2 ^ (w + 3) then some ⟨z, h.1, h.2⟩ else none

/-- Zero (not library code). -/
def MInt.zero (w : Nat) : MInt w := ⟨0, by simp, by positivity⟩

/-- Built-in operators; `/` truncates ([expr.mul]). `numeric_limits<int>::infinity()` and `quiet_NaN()` are `0`. -/
instance (w : Nat) : Num (MInt w) where
  lt a b := decide (a.z < b.z)
  le a b := decide (a.z ≤ b.z)
  eq a b := decide (a.z = b.z)
  lit n := (MInt.fit w n).getD (MInt.zero w)
  ofInt _ n := MInt.fit w n
  neg a := MInt.fit w (-a.z)
  add _ a b := MInt.fit w (a.z + b.z)
  sub _ a b := MInt.fit w (a.z - b.z)
  mul _ a b := MInt.fit w (a.z * b.z)
  div _ a b := if b.z = 0 then none else MInt.fit w (a.z.tdiv b.z)
  sqrt _ _ := none
  rint _ a := some a
  floor a := some a
  ceil a := some a
  hasInf := false
  hasNaN := false
  infinity := MInt.zero w
  nan := MInt.zero w

/-- What an integer denotes. -/
instance (w : Nat) : Val (MInt w) where
  val a := some ((a.z : ℝ) : EReal)

/-- Integers of `w` bits starting at `lo`, reduced modulo `2^w` (not library code). -/
structure WInt (lo : Int) (w : Nat) where
  z : Int
  deriving DecidableEq

/-- Reduction modulo `2^w` (not library code). -/
def WInt.wrap (lo : Int) (w : Nat) (z : Int) : WInt lo w := ⟨(z - lo) % 2 ^ w + lo⟩

/-- The operators, computed in `int` or modulo `2^w` and converted back (not library code). -/
instance (lo : Int) (w : Nat) : Num (WInt lo w) where
  lt a b := decide (a.z < b.z)
  le a b := decide (a.z ≤ b.z)
  eq a b := decide (a.z = b.z)
  lit n := WInt.wrap lo w n
  ofInt _ n := some (WInt.wrap lo w n)
  neg a := some (WInt.wrap lo w (-a.z))
  add _ a b := some (WInt.wrap lo w (a.z + b.z))
  sub _ a b := some (WInt.wrap lo w (a.z - b.z))
  mul _ a b := some (WInt.wrap lo w (a.z * b.z))
  div _ a b := if b.z = 0 then none else some (WInt.wrap lo w (a.z.tdiv b.z))
  sqrt _ _ := none
  rint _ a := some a
  floor a := some a
  ceil a := some a
  hasInf := false
  hasNaN := false
  infinity := ⟨0⟩
  nan := ⟨0⟩

/-- What an integer denotes. -/
instance (lo : Int) (w : Nat) : Val (WInt lo w) where
  val a := some ((a.z : ℝ) : EReal)

end BI
