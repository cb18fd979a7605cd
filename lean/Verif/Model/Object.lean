import Verif.Model.Arith
/-!
# Interval objects: assignment, mutators, compound assignment (interval.hpp, arith.hpp)

The object is a piece of memory with two fields which the member functions write one after the other. Arguments are
references; they may refer to the bounds of the object itself. The state after an exception is kept.
-/

namespace BI

/-- The machine state together with the object `*this` (its members `low`, `up`: interval.hpp 130-131). -/
structure World (W T : Type) where
  obj : Itv T
  st : St W

/-- Computations of member functions (interval.hpp 59-78, 97-99); no library code of its own. -/
def OM (W T α : Type) : Type := World W T → Res α × World W T

namespace OM
variable {W T : Type}

/-- Sequencing; stops at an exception. No library code of its own. -/
protected def bind {α β : Type} (a : OM W T α) (f : α → OM W T β) : OM W T β := fun w =>
  match a w with
  | (.ok x, w') => f x w'
  | (.error e, w') => (.error e, w')

/-- Sequencing; no library code of its own. -/
instance : Monad (OM W T) where
  pure x := fun w => (.ok x, w)
  bind := OM.bind

/-- A computation that does not write the object; no library code of its own. -/
def ofM {α : Type} (a : M W α) : OM W T α := fun w => ((a w.st).1, { w with st := (a w.st).2 })
/-- A computation without effects; no library code of its own. -/
def ofRes {α : Type} (r : Res α) : OM W T α := fun w => (r, w)
/-- The object: its members `low`, `up`, interval.hpp 130-131. -/
def get : OM W T (Itv T) := fun w => (.ok w.obj, w)
/-- `low = v`, for instance interval.hpp 262 -/
def setLow (v : T) : OM W T Unit := fun w => (.ok (), { w with obj := { w.obj with lower := v } })
/-- `up = v`, for instance interval.hpp 263 -/
def setUp (v : T) : OM W T Unit := fun w => (.ok (), { w with obj := { w.obj with upper := v } })
end OM

/-- An argument of type `T const &`: some other number, or a bound of the object
(`lower()` and `upper()` return references: interval.hpp 307-317). -/
inductive Arg (T : Type) where
  | val (t : T)
  | low
  | up
  deriving DecidableEq, Repr

/-- An argument of type `interval const &`: some other interval, or the object (interval.hpp 61, 72-78). -/
inductive IArg (T : Type) where
  | val (x : Itv T)
  | self
  deriving DecidableEq, Repr

/-- The number a reference refers to while the object is `x`; interval.hpp 307-317. -/
def Arg.of {T : Type} (x : Itv T) : Arg T → T
  | .val t => t
  | .low => x.lower
  | .up => x.upper

/-- The interval a reference refers to while the object is `x`; interval.hpp 61, 72-78. -/
def IArg.of {T : Type} (x : Itv T) : IArg T → Itv T
  | .val y => y
  | .self => x

section
variable {W T : Type}

/-- Read through a reference; no library code of its own. -/
def Arg.read (a : Arg T) : OM W T T := fun w => (.ok (a.of w.obj), w)
/-- Read through a reference; no library code of its own. -/
def IArg.read (a : IArg T) : OM W T (Itv T) := fun w => (.ok (a.of w.obj), w)

/-- Run to completion and report the outcome (both outcomes continue); no library code of its own. -/
def M.attempt {α : Type} (a : M W α) : M W (Res α) := fun s => (.ok (a s).1, (a s).2)

variable [Num T]

/-- `set(l, u)` with references, interval.hpp 259-264 -/
def setRef (l u : Arg T) : OM W T Unit := do
  OM.setLow (← l.read)
  OM.setUp (← u.read)

/-- `set(l, u)` with temporaries, interval.hpp 259-264 as called in arith.hpp 49, 61, 73, 85 -/
def setVal (z : Itv T) : OM W T Unit := setRef (.val z.lower) (.val z.upper)

/-- `set_empty`, interval.hpp 266-271 -/
def setEmpty (C : Checking T) : OM W T Unit := do
  OM.setLow (← OM.ofRes C.emptyLower)
  OM.setUp (← OM.ofRes C.emptyUpper)

/-- `set_whole`, interval.hpp 273-278 -/
def setWhole (C : Checking T) : OM W T Unit := do
  OM.setLow (← OM.ofRes C.negInf)
  OM.setUp (← OM.ofRes C.posInf)

/-- `operator=(T const &)`, interval.hpp 198-204; `low = up = v` assigns `up` first. -/
def assignT (C : Checking T) (v : Arg T) : OM W T Unit := do
  if ← OM.ofRes (C.isNan (← v.read)) then setEmpty C
  else do
    OM.setUp (← v.read)
    let x ← OM.get
    OM.setLow x.upper

/-- The two conversions inside the lifetime of `rnd`; the second does not take place if the first throws.
interval.hpp 211-213, 244-246 -/
def convPair (P : Policies (M W) T) (l u : Src T) : M W (Res T × Res T) := do
  let a ← M.attempt (P.rnd.convDown l)
  match a with
  | .error e => pure (.error e, .error e)
  | .ok x => do
    let b ← M.attempt (P.rnd.convUp u)
    pure (.ok x, b)

/-- `rounding rnd; low = rnd.conv_down(l); up = rnd.conv_up(u);` The first assignment takes place before the second
conversion. interval.hpp 211-213, 244-246 -/
def assignConv (P : Policies (M W) T) (l u : Src T) : OM W T Unit := do
  let p ← OM.ofM (P.rnd.scope (convPair P l u))
  OM.setLow (← OM.ofRes p.1)
  OM.setUp (← OM.ofRes p.2)

/-- `operator=(T1 const &)`, interval.hpp 206-216 -/
def assignSrc (P : Policies (M W) T) (v : Src T) : OM W T Unit := do
  let t ← OM.ofM (P.cur v.conv)
  if ← OM.ofRes (P.chk.isNan t) then setEmpty P.chk
  else assignConv P v v

/-- `operator=(interval<T, Policies> const &)`, interval.hpp 218-224 -/
def assignI (r : IArg T) : OM W T Unit := do
  OM.setLow (← r.read).lower
  OM.setUp (← r.read).upper

/-- `operator=(interval<T, Policies1> const &)`, interval.hpp 226-236: `C1` is the checking of the source. The types
differ, so the source is another object. -/
def assignPol (C C1 : Checking T) (r : Itv T) : OM W T Unit := do
  if ← OM.ofRes (C1.isEmpty r.lower r.upper) then setEmpty C
  else do
    OM.setLow r.lower
    OM.setUp r.upper

/-- `operator=(interval<T1, Policies1> const &)`, interval.hpp 238-249 -/
def assignItv (P : Policies (M W) T) (srcEmpty : Res Bool) (l u : Src T) : OM W T Unit := do
  if ← OM.ofRes srcEmpty then setEmpty P.chk
  else assignConv P l u

/-- `assign(l, u)`, interval.hpp 251-257 -/
def assignLU (C : Checking T) (l u : Arg T) : OM W T Unit := do
  if ← OM.ofRes (C.isNan (← l.read)) then setEmpty C
  else if ← OM.ofRes (C.isNan (← u.read)) then setEmpty C
  else if !Num.le (← l.read) (← u.read) then setEmpty C
  else setRef l u

/-- `operator+=(interval)`, arith.hpp 42-52 -/
def addAssign (P : Policies (M W) T) (r : IArg T) : OM W T Unit := do
  if ← OM.ofRes (testII P.chk P.chk (← OM.get) (← r.read)) then setEmpty P.chk
  else do
    let x ← OM.get
    let y ← r.read
    let z ← OM.ofM (P.rnd.scope (mk2 (P.rnd.addDown x.lower y.lower) (P.rnd.addUp x.upper y.upper)))
    setVal z

/-- `operator+=(T)`, arith.hpp 54-64 -/
def addAssignT (P : Policies (M W) T) (r : Arg T) : OM W T Unit := do
  if ← OM.ofRes (testIT P.chk (← OM.get) (← r.read)) then setEmpty P.chk
  else do
    let x ← OM.get
    let t ← r.read
    let z ← OM.ofM (P.rnd.scope (mk2 (P.rnd.addDown x.lower t) (P.rnd.addUp x.upper t)))
    setVal z

/-- `operator-=(interval)`, arith.hpp 66-76 -/
def subAssign (P : Policies (M W) T) (r : IArg T) : OM W T Unit := do
  if ← OM.ofRes (testII P.chk P.chk (← OM.get) (← r.read)) then setEmpty P.chk
  else do
    let x ← OM.get
    let y ← r.read
    let z ← OM.ofM (P.rnd.scope (mk2 (P.rnd.subDown x.lower y.upper) (P.rnd.subUp x.upper y.lower)))
    setVal z

/-- `operator-=(T)`, arith.hpp 78-88 -/
def subAssignT (P : Policies (M W) T) (r : Arg T) : OM W T Unit := do
  if ← OM.ofRes (testIT P.chk (← OM.get) (← r.read)) then setEmpty P.chk
  else do
    let x ← OM.get
    let t ← r.read
    let z ← OM.ofM (P.rnd.scope (mk2 (P.rnd.subDown x.lower t) (P.rnd.subUp x.upper t)))
    setVal z

/-- `operator*=(interval)`, arith.hpp 90-94 -/
def mulAssign (P : Policies (M W) T) (r : IArg T) : OM W T Unit := do
  let z ← OM.ofM (mulII P (← OM.get) (← r.read))
  assignI (.val z)

/-- `operator*=(T)`, arith.hpp 96-100 -/
def mulAssignT (P : Policies (M W) T) (r : Arg T) : OM W T Unit := do
  let z ← OM.ofM (mulTI P (← r.read) (← OM.get))
  assignI (.val z)

/-- `operator/=(interval)`, arith.hpp 102-106 -/
def divAssign (P : Policies (M W) T) (r : IArg T) : OM W T Unit := do
  let z ← OM.ofM (divII P (← OM.get) (← r.read))
  assignI (.val z)

/-- `operator/=(T)`, arith.hpp 108-112 -/
def divAssignT (P : Policies (M W) T) (r : Arg T) : OM W T Unit := do
  let z ← OM.ofM (divIT P (← OM.get) (← r.read))
  assignI (.val z)
end

end BI
