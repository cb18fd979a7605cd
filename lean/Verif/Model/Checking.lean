import Verif.Model.Base
/-! # Checking policies (checking.hpp) and the tests built on them (detail/test_input.hpp) -/

namespace BI

/-- The static functions of a checking policy, checking.hpp 41-73. -/
structure Checking (T : Type) where
  posInf : Res T
  negInf : Res T
  nan : Res T
  isNan : T → Res Bool
  emptyLower : Res T
  emptyUpper : Res T
  isEmpty : T → T → Res Bool

/-- `assert(b)`; with `NDEBUG` it does nothing. Used in checking.hpp 43, 48, 53, 82. -/
def assertRes (ndebug : Bool) (b : Bool) : Res Unit :=
  if b || ndebug then .ok () else .error .assertion

section
variable (T : Type) [Num T]

/-- checking.hpp 38-74 -/
def chkBase (ndebug : Bool) : Checking T where
  posInf := do
    assertRes ndebug (Num.hasInf T)
    pure (Num.infinity)
  negInf := do
    assertRes ndebug (Num.hasInf T)
    ofOpt (Num.neg Num.infinity)
  nan := do
    assertRes ndebug (Num.hasNaN T)
    pure Num.nan
  isNan x := .ok (Num.hasNaN T && !Num.eq x x)
  emptyLower := .ok (if Num.hasNaN T then Num.nan else Num.lit 1)
  emptyUpper := .ok (if Num.hasNaN T then Num.nan else Num.lit 0)
  isEmpty l u := .ok (!Num.le l u)

variable {T}

/-- checking.hpp 76-99, with the default exception -/
def chkNoEmpty (ndebug : Bool) (C : Checking T) : Checking T :=
  { C with
    nan := do
      assertRes ndebug false
      C.nan
    emptyLower := .error .emptyCreated
    emptyUpper := .error .emptyCreated
    isEmpty := fun _ _ => .ok false }

/-- checking.hpp 101-108 -/
def chkNoNan (C : Checking T) : Checking T :=
  { C with isNan := fun _ => .ok false }

/-- checking.hpp 110-119, with the default exception -/
def chkCatchNan (C : Checking T) : Checking T :=
  { C with isNan := fun x => do
      if ← C.isNan x then .error .invalidNumber
      pure false }

end

/-- Every policy that can be composed from the classes of checking.hpp. -/
inductive ChkSpec where
  | base
  | noEmpty (c : ChkSpec)
  | noNan (c : ChkSpec)
  | catchNan (c : ChkSpec)
  deriving DecidableEq, Repr

/-- The checking policy denoted by a composition of the classes of checking.hpp 38-124. -/
def ChkSpec.eval (T : Type) [Num T] (ndebug : Bool) : ChkSpec → Checking T
  | .base => chkBase T ndebug
  | .noEmpty c => chkNoEmpty ndebug (c.eval T ndebug)
  | .noNan c => chkNoNan (c.eval T ndebug)
  | .catchNan c => chkCatchNan (c.eval T ndebug)

/-- `checking_strict`, checking.hpp 121-124; the default policy (policies.hpp). -/
def ChkSpec.strict : ChkSpec := .noNan (.noEmpty .base)

section
variable {T : Type}

/-- detail/test_input.hpp 33-37 -/
def testI (C : Checking T) (x : Itv T) : Res Bool := C.isEmpty x.lower x.upper

/-- detail/test_input.hpp 39-45 (the two operands may have different policies) -/
def testII (C1 C2 : Checking T) (x y : Itv T) : Res Bool := do
  if ← C1.isEmpty x.lower x.upper then pure true else C2.isEmpty y.lower y.upper

/-- detail/test_input.hpp 47-51 -/
def testTI (C : Checking T) (x : T) (y : Itv T) : Res Bool := do
  if ← C.isNan x then pure true else C.isEmpty y.lower y.upper

/-- detail/test_input.hpp 53-57 -/
def testIT (C : Checking T) (x : Itv T) (y : T) : Res Bool := do
  if ← C.isEmpty x.lower x.upper then pure true else C.isNan y

/-- detail/test_input.hpp 59-63 -/
def testT (C : Checking T) (x : T) : Res Bool := C.isNan x

/-- detail/test_input.hpp 65-69 -/
def testTT (C : Checking T) (x y : T) : Res Bool := do
  if ← C.isNan x then pure true else C.isNan y

/-- `interval::empty()`, interval.hpp 294-299 (both calls raise the same exception if any, so their order is
immaterial). -/
def emptyI (C : Checking T) : Res (Itv T) := do
  let l ← C.emptyLower
  let u ← C.emptyUpper
  pure ⟨l, u⟩

/-- `interval::whole()`, interval.hpp 301-305 -/
def wholeI (C : Checking T) : Res (Itv T) := do
  let l ← C.negInf
  let u ← C.posInf
  pure ⟨l, u⟩

/-- Conversion between intervals of the same base type and different policies, interval.hpp 179-184: `C1` is the
checking of the source, `C` of the destination. -/
def reItv (C1 C : Checking T) (r : Itv T) : Res (Itv T) := do
  if ← C1.isEmpty r.lower r.upper then emptyI C else pure r
end

end BI
