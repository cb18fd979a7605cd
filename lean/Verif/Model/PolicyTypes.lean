import Verif.Model.Client
/-!
# Rounding classes and policy types (rounding.hpp, policies.hpp)

The rounding policy of an interval type is a stack of class templates, each derived from its parameter. What an object of
such a class does follows from the rules of the language: a member is looked up in the class, then in its base; the
constructor of the base runs before, its destructor after those of the derived class.
-/

namespace BI

/-- The class templates of rounding.hpp. -/
inductive RClass where
  /-- `rounding_control<T>`, rounding.hpp 21-32, and its specialisations for built-in types -/
  | control
  /-- `rounded_arith_exact`, `_std`, `_opp`, rounding.hpp 40-47 -/
  | arith (k : RKind) (base : RClass)
  /-- `rounded_transc_exact`, `_std`, `_opp`, rounding.hpp 52-59 -/
  | transc (k : RKind) (base : RClass)
  /-- `save_state`, rounding.hpp 75-85 -/
  | save (base : RClass)
  /-- `detail::save_state_unprotected`, rounding.hpp 67-71 -/
  | unprotected (base : RClass)
  /-- `save_state_nothing`, rounding.hpp 87-91 -/
  | nothing (base : RClass)
  /-- a class without members of its own, as `rounded_math`, rounding.hpp 93-95 and hw_rounding.hpp 54-67 -/
  | derived (base : RClass)
  deriving DecidableEq, Repr

/-- `rounded_math<T>`, the default rounding: for built-in floating-point types hw_rounding.hpp 54-67, for others
rounding.hpp 93-95. -/
def roundedMath (builtin : Bool) : RClass :=
  .derived (if builtin then .save (.arith .opp .control) else .nothing (.arith .exact .control))

/-- Which arithmetic the members `add_down` etc. are found in (rounded_arith.hpp 26-114). -/
def RClass.arithKind : RClass → Option RKind
  | .control => none
  | .arith k _ => some k
  | .transc _ r | .save r | .unprotected r | .nothing r | .derived r => r.arithKind

/-- Which class the members `exp_down` etc. are found in (rounded_transc.hpp 21-134). -/
def RClass.transcKind : RClass → Option RKind
  | .control => none
  | .transc k _ => some k
  | .arith _ r | .save r | .unprotected r | .nothing r | .derived r => r.transcKind

/-- The member type `unprotected_rounding`: rounding.hpp 70, 84, 90; inherited by the other classes. -/
def RClass.unprotectedRounding : RClass → Option RClass
  | .control => none
  | .save r => some (.unprotected r)
  | .unprotected r => some (.unprotected r)
  | .nothing r => some (.nothing r)
  | .arith _ r | .transc _ r | .derived r => r.unprotectedRounding

section
variable (c : Ctl) {T : Type} [Num T]

/-- The member function `init`: rounded_arith.hpp 28, 55, 80. -/
def RClass.init (r : RClass) : c.W → c.W :=
  match r.arithKind with
  | some k => initOf c k
  | none => id

/-- Lifetime of an object around `body`: constructors from the base to the derived class, destructors in the opposite order.
Only `save_state` has any (rounding.hpp 79-83). -/
def RClass.scope {α : Type} : RClass → M c.W α → M c.W α
  | .control, body => body
  | .save r, body => r.scope fun s =>
      let saved := c.get s.cw
      let o := body { s with cw := r.init c s.cw }
      (o.1, { o.2 with cw := c.set saved o.2.cw })
  | .arith _ r, body | .transc _ r, body | .unprotected r, body | .nothing r, body | .derived r, body => r.scope body

/-- The functions `exp_down` etc. of each class: rounded_transc.hpp 21-46, 48-81, 83-134. -/
def transcOf (k : RKind) (lib : Lib T) : (Fn → T → M c.W T) × (Fn → T → M c.W T) :=
  match k with
  | .exact => transcExact c lib
  | .std => transcStd c lib
  | .opp => transcOpp c lib

/-- The functions `add_down` etc. of each class (rounded_arith.hpp 26-48, 50-76, 78-114) beside given transcendental
functions. -/
def arithWith (k : RKind) (tr : (Fn → T → M c.W T) × (Fn → T → M c.W T)) : Arith (M c.W) T :=
  match k with
  | .exact => arithExact c tr
  | .std => arithStd c tr
  | .opp => arithOpp c tr

/-- An object of the class, if it has the arithmetic functions (rounding.hpp 40-59). A program that uses transcendental
functions of a class without does not compile; here they fail with `ub`, see `Call.Transcendental`. -/
def RClass.object (lib : Lib T) (r : RClass) : Option (Rounding (M c.W) T) :=
  let tr := match r.transcKind with
    | some k' => transcOf c k' lib
    | none => (fun _ _ => lift (.error .ub), fun _ _ => lift (.error .ub))
  match r.arithKind with
  | some k => some { arithWith c k tr with scope := r.scope c }
  | none => none

end

/-- An interval type `interval<T, policies<rounding, checking>>` for a fixed `T` (policies.hpp 23-28). -/
structure IType where
  rounding : RClass
  checking : ChkSpec
  deriving DecidableEq

/-- `change_rounding`, policies.hpp 34-42 -/
def IType.changeRounding (t : IType) (r : RClass) : IType := ⟨r, t.checking⟩

/-- `change_checking`, policies.hpp 44-52 -/
def IType.changeChecking (t : IType) (k : ChkSpec) : IType := ⟨t.rounding, k⟩

/-- `unprotect`, policies.hpp 59-68 -/
def IType.unprotect (t : IType) : Option IType := do
  let r ← t.rounding.unprotectedRounding
  some (t.changeRounding r)

/-- What the functions of the library use of an interval type: `Policies::rounding`, `unprotect<I>::type` and
`Policies::checking` (policies.hpp 23-28, 59-68). -/
def IType.policies (c : Ctl) {T : Type} [Num T] (lib : Lib T) (ndebug : Bool) (t : IType) : Option (Policies (M c.W) T) :=
  match t.unprotect with
  | some u =>
    match t.rounding.object c lib, u.rounding.object c lib with
    | some rnd, some unp => some ⟨rnd, unp, t.checking.eval T ndebug, evalIn c⟩
    | _, _ => none
  | none => none

end BI
