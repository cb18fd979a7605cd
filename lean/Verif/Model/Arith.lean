import Verif.Model.Utility
/-! # arith.hpp (operators), detail/division.hpp, arith3.hpp, ext/integer.hpp -/

namespace BI
variable {m : Type → Type} [Eff m] {T : Type} [Num T]

/-- unary `operator+`, arith.hpp 28-32 -/
def plusI (x : Itv T) : Itv T := x

/-- arith.hpp 114-123 -/
def addII (P : Policies m T) (x y : Itv T) : m (Itv T) := do
  if ← lift (testII P.chk P.chk x y) then lift (emptyI P.chk)
  else P.rnd.scope (mk2 (P.rnd.addDown x.lower y.lower) (P.rnd.addUp x.upper y.upper))

/-- arith.hpp 125-133 -/
def addTI (P : Policies m T) (x : T) (y : Itv T) : m (Itv T) := do
  if ← lift (testTI P.chk x y) then lift (emptyI P.chk)
  else P.rnd.scope (mk2 (P.rnd.addDown x y.lower) (P.rnd.addUp x y.upper))

/-- arith.hpp 135-137 -/
def addIT (P : Policies m T) (x : Itv T) (y : T) : m (Itv T) := addTI P y x

/-- arith.hpp 139-148 -/
def subII (P : Policies m T) (x y : Itv T) : m (Itv T) := do
  if ← lift (testII P.chk P.chk x y) then lift (emptyI P.chk)
  else P.rnd.scope (mk2 (P.rnd.subDown x.lower y.upper) (P.rnd.subUp x.upper y.lower))

/-- arith.hpp 150-158 -/
def subTI (P : Policies m T) (x : T) (y : Itv T) : m (Itv T) := do
  if ← lift (testTI P.chk x y) then lift (emptyI P.chk)
  else P.rnd.scope (mk2 (P.rnd.subDown x y.upper) (P.rnd.subUp x y.lower))

/-- arith.hpp 160-168 -/
def subIT (P : Policies m T) (x : Itv T) (y : T) : m (Itv T) := do
  if ← lift (testIT P.chk x y) then lift (emptyI P.chk)
  else P.rnd.scope (mk2 (P.rnd.subDown x.lower y) (P.rnd.subUp x.upper y))

/-- `I(static_cast<T>(0), static_cast<T>(0), true)`, arith.hpp 197, 208, 220, 222, 238; detail/division.hpp 92, 127 -/
def zeroI : Itv T := ⟨Num.lit 0, Num.lit 0⟩

/-- The sign analysis of arith.hpp 185-222, after the rounding object has been created. -/
def mulBody (A : Arith m T) (xl xu yl yu : T) : m (Itv T) :=
  if isNeg xl then
    if isPos xu then
      if isNeg yl then
        if isPos yu then  -- M * M
          do
            let p ← quad (A.mulDown xl yu) (A.mulDown xu yl) (A.mulUp xl yl) (A.mulUp xu yu)
            pure ⟨stdMin p.1.1 p.1.2, stdMax p.2.1 p.2.2⟩
        else              -- M * N
          mk2 (A.mulDown xu yl) (A.mulUp xl yl)
      else
        if isPos yu then  -- M * P
          mk2 (A.mulDown xl yu) (A.mulUp xu yu)
        else              -- M * Z
          pure zeroI
    else
      if isNeg yl then
        if isPos yu then  -- N * M
          mk2 (A.mulDown xl yu) (A.mulUp xl yl)
        else              -- N * N
          mk2 (A.mulDown xu yu) (A.mulUp xl yl)
      else
        if isPos yu then  -- N * P
          mk2 (A.mulDown xl yu) (A.mulUp xu yl)
        else              -- N * Z
          pure zeroI
  else
    if isPos xu then
      if isNeg yl then
        if isPos yu then  -- P * M
          mk2 (A.mulDown xu yl) (A.mulUp xu yu)
        else              -- P * N
          mk2 (A.mulDown xu yl) (A.mulUp xl yu)
      else
        if isPos yu then  -- P * P
          mk2 (A.mulDown xl yl) (A.mulUp xu yu)
        else              -- P * Z
          pure zeroI
    else                  -- Z * ?
      pure zeroI

/-- arith.hpp 170-223 -/
def mulII (P : Policies m T) (x y : Itv T) : m (Itv T) := do
  if ← lift (testII P.chk P.chk x y) then lift (emptyI P.chk)
  else P.rnd.scope (mulBody P.rnd.toArith x.lower x.upper y.lower y.upper)

/-- arith.hpp 225-241 -/
def mulTI (P : Policies m T) (x : T) (y : Itv T) : m (Itv T) := do
  if ← lift (testTI P.chk x y) then lift (emptyI P.chk)
  else P.rnd.scope (
     if isNeg x then mk2 (P.rnd.mulDown x y.upper) (P.rnd.mulUp x y.lower)
     else if isZero x then pure zeroI
     else mk2 (P.rnd.mulDown x y.lower) (P.rnd.mulUp x y.upper))

/-- arith.hpp 243-245 -/
def mulIT (P : Policies m T) (x : Itv T) (y : T) : m (Itv T) := mulTI P y x

/-! ## detail/division.hpp -/

/-- detail/division.hpp 24-50 -/
def divNonZeroII (P : Policies m T) (x y : Itv T) : m (Itv T) :=
  P.rnd.scope (
     if isNeg x.upper then
       if isNeg y.upper then mk2 (P.rnd.divDown x.upper y.lower) (P.rnd.divUp x.lower y.upper)
       else mk2 (P.rnd.divDown x.lower y.lower) (P.rnd.divUp x.upper y.upper)
     else if isNeg x.lower then
       if isNeg y.upper then mk2 (P.rnd.divDown x.upper y.upper) (P.rnd.divUp x.lower y.upper)
       else mk2 (P.rnd.divDown x.lower y.lower) (P.rnd.divUp x.upper y.lower)
     else
       if isNeg y.upper then mk2 (P.rnd.divDown x.upper y.upper) (P.rnd.divUp x.lower y.lower)
       else mk2 (P.rnd.divDown x.lower y.upper) (P.rnd.divUp x.upper y.lower))

/-- detail/division.hpp 52-64 -/
def divNonZeroTI (P : Policies m T) (x : T) (y : Itv T) : m (Itv T) :=
  P.rnd.scope (
     if isNeg x then mk2 (P.rnd.divDown x y.lower) (P.rnd.divUp x y.upper)
     else mk2 (P.rnd.divDown x y.upper) (P.rnd.divUp x y.lower))

/-- `I(checking::neg_inf(), u, true)` with `u` a rounding operation (run left to right, see DESIGN.md),
detail/division.hpp 79, 96, 118, 133, 168, 172; arith2.hpp 114 -/
def mkNegInf (C : Checking T) (u : m T) : m (Itv T) := do
  let l ← lift C.negInf
  let u ← u
  pure ⟨l, u⟩

/-- `I(l, checking::pos_inf(), true)` with `l` a rounding operation, detail/division.hpp 83, 98, 114, 131, 184, 186;
arith2.hpp 117 -/
def mkPosInf (C : Checking T) (l : m T) : m (Itv T) := do
  let l ← l
  let u ← lift C.posInf
  pure ⟨l, u⟩

/-- detail/division.hpp 66-84 -/
def divPositiveI (P : Policies m T) (x : Itv T) (yu : T) : m (Itv T) :=
  if isZero x.lower && isZero x.upper then pure x
  else P.rnd.scope (
     if isNeg x.upper then mkNegInf P.chk (P.rnd.divUp x.upper yu)
     else if isNeg x.lower then lift (wholeI P.chk)
     else mkPosInf P.chk (P.rnd.divDown x.lower yu))

/-- detail/division.hpp 86-99 -/
def divPositiveT (P : Policies m T) (x : T) (yu : T) : m (Itv T) :=
  if isZero x then pure zeroI
  else P.rnd.scope (
     if isNeg x then mkNegInf P.chk (P.rnd.divUp x yu)
     else mkPosInf P.chk (P.rnd.divDown x yu))

/-- detail/division.hpp 101-119 -/
def divNegativeI (P : Policies m T) (x : Itv T) (yl : T) : m (Itv T) :=
  if isZero x.lower && isZero x.upper then pure x
  else P.rnd.scope (
     if isNeg x.upper then mkPosInf P.chk (P.rnd.divDown x.upper yl)
     else if isNeg x.lower then lift (wholeI P.chk)
     else mkNegInf P.chk (P.rnd.divUp x.lower yl))

/-- detail/division.hpp 121-134 -/
def divNegativeT (P : Policies m T) (x : T) (yl : T) : m (Itv T) :=
  if isZero x then pure zeroI
  else P.rnd.scope (
     if isNeg x then mkPosInf P.chk (P.rnd.divDown x yl)
     else mkNegInf P.chk (P.rnd.divUp x yl))

/-- detail/division.hpp 136-143 -/
def divZeroI (P : Policies m T) (x : Itv T) : m (Itv T) :=
  if isZero x.lower && isZero x.upper then pure x
  else lift (wholeI P.chk)

/-- detail/division.hpp 145-151 -/
def divZeroT (P : Policies m T) (x : T) : m (Itv T) :=
  if isZero x then pure zeroI
  else lift (wholeI P.chk)

/-- detail/division.hpp 153-173; the second component is the reference parameter `b`. -/
def divZeroPart1 (P : Policies m T) (x y : Itv T) : m (Itv T × Bool) :=
  if isZero x.lower && isZero x.upper then pure (x, false)
  else P.rnd.scope (
     if isNeg x.upper then do
       let r ← mkNegInf P.chk (P.rnd.divUp x.upper y.upper)
       pure (r, true)
     else if isNeg x.lower then do
       let r ← lift (wholeI P.chk)
       pure (r, false)
     else do
       let r ← mkNegInf P.chk (P.rnd.divUp x.lower y.lower)
       pure (r, true))

/-- detail/division.hpp 175-187 -/
def divZeroPart2 (P : Policies m T) (x y : Itv T) : m (Itv T) :=
  P.rnd.scope (
     if isNeg x.upper then mkPosInf P.chk (P.rnd.divDown x.upper y.lower)
     else mkPosInf P.chk (P.rnd.divDown x.lower y.upper))

/-- arith.hpp 247-266 -/
def divII (P : Policies m T) (x y : Itv T) : m (Itv T) := do
  if ← lift (testII P.chk P.chk x y) then lift (emptyI P.chk)
  else if ← lift (zeroIn P.chk y) then
    if !isZero y.lower then
      if !isZero y.upper then divZeroI P x
      else divNegativeI P x y.lower
    else
      if !isZero y.upper then divPositiveI P x y.upper
      else lift (emptyI P.chk)
  else divNonZeroII P x y

/-- arith.hpp 268-286 -/
def divTI (P : Policies m T) (x : T) (y : Itv T) : m (Itv T) := do
  if ← lift (testTI P.chk x y) then lift (emptyI P.chk)
  else if ← lift (zeroIn P.chk y) then
    if !isZero y.lower then
      if !isZero y.upper then divZeroT P x
      else divNegativeT P x y.lower
    else
      if !isZero y.upper then divPositiveT P x y.upper
      else lift (emptyI P.chk)
  else divNonZeroTI P x y

/-- arith.hpp 288-300 -/
def divIT (P : Policies m T) (x : Itv T) (y : T) : m (Itv T) := do
  let b ← lift (testIT P.chk x y)
  if b || isZero y then lift (emptyI P.chk)
  else P.rnd.scope (
     if isNeg y then mk2 (P.rnd.divDown x.upper y) (P.rnd.divUp x.lower y)
     else mk2 (P.rnd.divDown x.lower y) (P.rnd.divUp x.upper y))

/-! ## arith3.hpp -/

/-- arith3.hpp 25-33 -/
def addTT (P : Policies m T) (x y : T) : m (Itv T) := do
  if ← lift (testTT P.chk x y) then lift (emptyI P.chk)
  else P.rnd.scope (mk2 (P.rnd.addDown x y) (P.rnd.addUp x y))

/-- arith3.hpp 35-43 -/
def subTT (P : Policies m T) (x y : T) : m (Itv T) := do
  if ← lift (testTT P.chk x y) then lift (emptyI P.chk)
  else P.rnd.scope (mk2 (P.rnd.subDown x y) (P.rnd.subUp x y))

/-- arith3.hpp 45-53 -/
def mulTT (P : Policies m T) (x y : T) : m (Itv T) := do
  if ← lift (testTT P.chk x y) then lift (emptyI P.chk)
  else P.rnd.scope (mk2 (P.rnd.mulDown x y) (P.rnd.mulUp x y))

/-- arith3.hpp 55-63 -/
def divTT (P : Policies m T) (x y : T) : m (Itv T) := do
  let b ← lift (testTT P.chk x y)
  if b || isZero y then lift (emptyI P.chk)
  else P.rnd.scope (mk2 (P.rnd.divDown x y) (P.rnd.divUp x y))

/-! ## ext/integer.hpp: `static_cast<T>(y)` happens in the direction in force -/

/-- ext/integer.hpp 19-23 -/
def addIInt (P : Policies m T) (x : Itv T) (y : Int) : m (Itv T) := do
  let t ← P.cur (fun r => Num.ofInt r y)
  addIT P x t
/-- ext/integer.hpp 25-29 -/
def addIntI (P : Policies m T) (x : Int) (y : Itv T) : m (Itv T) := do
  let t ← P.cur (fun r => Num.ofInt r x)
  addTI P t y
/-- ext/integer.hpp 31-35 -/
def subIInt (P : Policies m T) (x : Itv T) (y : Int) : m (Itv T) := do
  let t ← P.cur (fun r => Num.ofInt r y)
  subIT P x t
/-- ext/integer.hpp 37-41 -/
def subIntI (P : Policies m T) (x : Int) (y : Itv T) : m (Itv T) := do
  let t ← P.cur (fun r => Num.ofInt r x)
  subTI P t y
/-- ext/integer.hpp 43-47 -/
def mulIInt (P : Policies m T) (x : Itv T) (y : Int) : m (Itv T) := do
  let t ← P.cur (fun r => Num.ofInt r y)
  mulIT P x t
/-- ext/integer.hpp 49-53 -/
def mulIntI (P : Policies m T) (x : Int) (y : Itv T) : m (Itv T) := do
  let t ← P.cur (fun r => Num.ofInt r x)
  mulTI P t y
/-- ext/integer.hpp 55-59 -/
def divIInt (P : Policies m T) (x : Itv T) (y : Int) : m (Itv T) := do
  let t ← P.cur (fun r => Num.ofInt r y)
  divIT P x t
/-- ext/integer.hpp 61-65 -/
def divIntI (P : Policies m T) (x : Int) (y : Itv T) : m (Itv T) := do
  let t ← P.cur (fun r => Num.ofInt r x)
  divTI P t y

end BI
