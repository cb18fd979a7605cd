import Verif.Model.Client
/-!
# The `Exception` arguments of the checking templates, checking.hpp 76-119

`checking_no_empty` and `checking_catch_nan` take a class whose objects are called when an empty interval is about to be
created, or an invalid number was seen. The call is the statement `Exception()();`: it throws, or it returns and what it
returned is dropped. `Res T` (and `Res Unit`) is the outcome of that call. Simplification: a function object that returns
has no other effect (it could set a flag of the program), and always behaves in the same way.

The compositions of Model/Checking.lean are those with the default arguments.
-/

namespace BI

/-- Policies composed from the classes of checking.hpp 38-119 with arbitrary function objects. -/
inductive ChkX (T : Type) where
  | base
  | noEmpty (h : Res T) (c : ChkX T)
  | noNan (c : ChkX T)
  | catchNan (h : Res Unit) (c : ChkX T)

/-- checking.hpp 76-99 -/
def chkNoEmptyX {T : Type} (ndebug : Bool) (h : Res T) (C : Checking T) : Checking T :=
  { C with
    nan := do
      assertRes ndebug false
      C.nan
    emptyLower := do
      let _ ← h
      C.emptyLower
    emptyUpper := do
      let _ ← h
      C.emptyUpper
    isEmpty := fun _ _ => .ok false }

/-- checking.hpp 110-119 -/
def chkCatchNanX {T : Type} (h : Res Unit) (C : Checking T) : Checking T :=
  { C with isNan := fun x => do
      if ← C.isNan x then h
      pure false }

/-- The policy denoted by a composition, checking.hpp 38-119. -/
def ChkX.eval (T : Type) [Num T] (ndebug : Bool) : ChkX T → Checking T
  | .base => chkBase T ndebug
  | .noEmpty h c => chkNoEmptyX ndebug h (c.eval T ndebug)
  | .noNan c => chkNoNan (c.eval T ndebug)
  | .catchNan h c => chkCatchNanX h (c.eval T ndebug)

/-- `exception_create_empty` and `exception_invalid_number`, checking.hpp 22-36, are the default arguments
(checking.hpp 77, 111). -/
def ChkSpec.toX (T : Type) : ChkSpec → ChkX T
  | .base => .base
  | .noEmpty c => .noEmpty (.error .emptyCreated) (c.toX T)
  | .noNan c => .noNan (c.toX T)
  | .catchNan c => .catchNan (.error .invalidNumber) (c.toX T)

/-- The same call in a program compiled with or without `NDEBUG`: `assert` in arith2.hpp 274. -/
def Call.ndebug {T : Type} (b : Bool) {α : Type} : Call T α → Call T α
  | .nthRoot _ fuel x k => .nthRoot b fuel x k
  | c => c

/-- The same program compiled with or without `NDEBUG` (arith2.hpp 274). -/
def Prog.ndebug {T : Type} (b : Bool) : {α : Type} → Prog T α → Prog T α
  | _, .ret a => .ret a
  | _, .fail e => .fail e
  | _, .call c k => .call (c.ndebug b) fun x => (k x).ndebug b
  | _, .region body k => .region (body.ndebug b) fun x => (k x).ndebug b

end BI
