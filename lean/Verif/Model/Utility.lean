import Verif.Model.Rounding
/-! # utility.hpp, and the static functions and constructors of interval.hpp -/

namespace BI
variable {m : Type → Type} [Eff m] {T : Type} [Num T]

/-! ## Constructors (value returned; see `Model/Object.lean` for assignment) -/

/-- interval.hpp 134-137 -/
def ctorDefault : Itv T := ⟨Num.lit 0, Num.lit 0⟩

/-- interval.hpp 139-143 -/
def ctorT (C : Checking T) (v : T) : Res (Itv T) := do
  if ← C.isNan v then emptyI C else pure ⟨v, v⟩

/-- interval.hpp 145-154. `checking::is_nan(v)` converts `v` to `T` in the direction in force. -/
def ctorSrc (P : Policies m T) (v : Src T) : m (Itv T) := do
  let t ← P.cur v.conv
  if ← lift (P.chk.isNan t) then lift (emptyI P.chk)
  else P.rnd.scope do
    let l ← P.rnd.convDown v
    let u ← P.rnd.convUp v
    pure ⟨l, u⟩

/-- interval.hpp 156-165; `le` is the value of `l <= u` in the source types. -/
def ctorSrc2 (P : Policies m T) (l u : Src T) (le : Bool) : m (Itv T) := do
  let tl ← P.cur l.conv
  if ← lift (P.chk.isNan tl) then lift (emptyI P.chk)
  else do
    let tu ← P.cur u.conv
    if ← lift (P.chk.isNan tu) then lift (emptyI P.chk)
    else if !le then lift (emptyI P.chk)
    else P.rnd.scope do
      let l ← P.rnd.convDown l
      let u ← P.rnd.convUp u
      pure ⟨l, u⟩

/-- interval.hpp 167-172 -/
def ctorTT (C : Checking T) (l u : T) : Res (Itv T) := do
  if ← C.isNan l then emptyI C
  else if ← C.isNan u then emptyI C
  else if !Num.le l u then emptyI C
  else pure ⟨l, u⟩

/-- interval.hpp 186-196: from an interval over another base type, whose emptiness test gave `srcEmpty`. -/
def ctorItv (P : Policies m T) (srcEmpty : Res Bool) (l u : Src T) : m (Itv T) := do
  if ← lift srcEmpty then lift (emptyI P.chk)
  else P.rnd.scope do
    let l ← P.rnd.convDown l
    let u ← P.rnd.convUp u
    pure ⟨l, u⟩

/-- `interval::hull(x, y)`, interval.hpp 280-292; also `hull(T, T)`, utility.hpp 226-230 -/
def hullTT (C : Checking T) (x y : T) : Res (Itv T) := do
  let bx ← C.isNan x
  let by_ ← C.isNan y
  if bx then
    if by_ then emptyI C else pure ⟨y, y⟩
  else if by_ then pure ⟨x, x⟩
  else if Num.le x y then pure ⟨x, y⟩ else pure ⟨y, x⟩

/-! ## utility.hpp -/

/-- utility.hpp 43-51 -/
def checkedLower (C : Checking T) (x : Itv T) : Res T := do
  if ← testI C x then C.nan else pure x.lower

/-- utility.hpp 53-61 -/
def checkedUpper (C : Checking T) (x : Itv T) : Res T := do
  if ← testI C x then C.nan else pure x.upper

/-- utility.hpp 63-69 -/
def width (P : Policies m T) (x : Itv T) : m T := do
  if ← lift (testI P.chk x) then pure (Num.lit 0)
  else P.rnd.scope (P.rnd.subUp x.upper x.lower)

/-- utility.hpp 71-80 -/
def median (P : Policies m T) (x : Itv T) : m T := do
  if ← lift (testI P.chk x) then lift P.chk.nan
  else P.rnd.scope (P.rnd.median x.lower x.upper)

/-- utility.hpp 82-90 -/
def widen (P : Policies m T) (x : Itv T) (v : T) : m (Itv T) := do
  if ← lift (testI P.chk x) then lift (emptyI P.chk)
  else P.rnd.scope (mk2 (P.rnd.subDown x.lower v) (P.rnd.addUp x.upper v))

/-- utility.hpp 96-100 -/
def isEmptyI (C : Checking T) (x : Itv T) : Res Bool := testI C x

/-- utility.hpp 102-114 (`zero_in`, `in_zero`) -/
def zeroIn (C : Checking T) (x : Itv T) : Res Bool := do
  if ← testI C x then pure false
  else pure (!isPos x.lower && !isNeg x.upper)

/-- utility.hpp 116-121 -/
def inI (C : Checking T) (x : T) (y : Itv T) : Res Bool := do
  if ← testTI C x y then pure false
  else pure (Num.le y.lower x && Num.le x y.upper)

/-- utility.hpp 123-129 -/
def subset (C : Checking T) (x y : Itv T) : Res Bool := do
  if ← isEmptyI C x then pure true
  else if ← isEmptyI C y then pure false
  else pure (Num.le y.lower x.lower && Num.le x.upper y.upper)

/-- utility.hpp 131-139 -/
def properSubset (C1 C2 : Checking T) (x y : Itv T) : Res Bool := do
  if ← isEmptyI C2 y then pure false
  else if ← isEmptyI C1 x then pure true
  else pure (Num.le y.lower x.lower && Num.le x.upper y.upper &&
    (!Num.eq y.lower x.lower || !Num.eq x.upper y.upper))

/-- utility.hpp 141-148 -/
def overlap (C1 C2 : Checking T) (x y : Itv T) : Res Bool := do
  if ← testII C1 C2 x y then pure false
  else pure ((Num.le x.lower y.lower && Num.le y.lower x.upper) ||
    (Num.le y.lower x.lower && Num.le x.lower y.upper))

/-- utility.hpp 150-154 -/
def singleton (C : Checking T) (x : Itv T) : Res Bool := do
  if ← isEmptyI C x then pure false else pure (Num.eq x.lower x.upper)

/-- utility.hpp 156-161 -/
def equal (C1 C2 : Checking T) (x y : Itv T) : Res Bool := do
  if ← isEmptyI C1 x then isEmptyI C2 y
  else if ← isEmptyI C2 y then pure false
  else pure (Num.eq x.lower y.lower && Num.eq x.upper y.upper)

/-- utility.hpp 163-175 -/
def intersect (C : Checking T) (x y : Itv T) : Res (Itv T) := do
  if ← testII C C x y then emptyI C
  else
    let l := stdMax x.lower y.lower
    let u := stdMin x.upper y.upper
    if Num.le l u then pure ⟨l, u⟩ else emptyI C

/-- utility.hpp 177-192 -/
def hullII (C : Checking T) (x y : Itv T) : Res (Itv T) := do
  let bx ← testI C x
  let by_ ← testI C y
  if bx then
    if by_ then emptyI C else pure y
  else if by_ then pure x
  else pure ⟨stdMin x.lower y.lower, stdMax x.upper y.upper⟩

/-- utility.hpp 194-208 -/
def hullIT (C : Checking T) (x : Itv T) (y : T) : Res (Itv T) := do
  let bx ← testI C x
  let by_ ← testT C y
  if by_ then
    if bx then emptyI C else pure x
  else if bx then pure ⟨y, y⟩
  else pure ⟨stdMin x.lower y, stdMax x.upper y⟩

/-- utility.hpp 210-224 -/
def hullTI (C : Checking T) (x : T) (y : Itv T) : Res (Itv T) := do
  let bx ← testT C x
  let by_ ← testI C y
  if bx then
    if by_ then emptyI C else pure y
  else if by_ then pure ⟨x, x⟩
  else pure ⟨stdMin x y.lower, stdMax x y.upper⟩

/-- utility.hpp 232-241 -/
def bisect (P : Policies m T) (x : Itv T) : m (Itv T × Itv T) := do
  if ← lift (testI P.chk x) then
    lift do
      let a ← emptyI P.chk
      let b ← emptyI P.chk
      pure (a, b)
  else do
    let mid ← median P x
    pure (⟨x.lower, mid⟩, ⟨mid, x.upper⟩)

/-- utility.hpp 247-256 -/
def norm (C : Checking T) (x : Itv T) : Res T := do
  if ← testI C x then C.nan
  else do
    let nl ← ofOpt (Num.neg x.lower)
    pure (stdMax nl x.upper)

/-- unary `operator-`, arith.hpp 34-40 -/
def negI (C : Checking T) (x : Itv T) : Res (Itv T) := do
  if ← testI C x then emptyI C
  else do
    let l ← ofOpt (Num.neg x.upper)
    let u ← ofOpt (Num.neg x.lower)
    pure ⟨l, u⟩

/-- utility.hpp 258-268 -/
def absI (C : Checking T) (x : Itv T) : Res (Itv T) := do
  if ← testI C x then emptyI C
  else if !isNeg x.lower then pure x
  else if !isPos x.upper then negI C x
  else do
    let nl ← ofOpt (Num.neg x.lower)
    pure ⟨Num.lit 0, stdMax nl x.upper⟩

/-- utility.hpp 270-279 -/
def maxII (C : Checking T) (x y : Itv T) : Res (Itv T) := do
  if ← testII C C x y then emptyI C
  else pure ⟨stdMax x.lower y.lower, stdMax x.upper y.upper⟩

/-- utility.hpp 281-289 -/
def maxIT (C : Checking T) (x : Itv T) (y : T) : Res (Itv T) := do
  if ← testIT C x y then emptyI C
  else pure ⟨stdMax x.lower y, stdMax x.upper y⟩

/-- utility.hpp 291-299 -/
def maxTI (C : Checking T) (x : T) (y : Itv T) : Res (Itv T) := do
  if ← testTI C x y then emptyI C
  else pure ⟨stdMax x y.lower, stdMax x y.upper⟩

/-- utility.hpp 301-310 -/
def minII (C : Checking T) (x y : Itv T) : Res (Itv T) := do
  if ← testII C C x y then emptyI C
  else pure ⟨stdMin x.lower y.lower, stdMin x.upper y.upper⟩

/-- utility.hpp 312-320 -/
def minIT (C : Checking T) (x : Itv T) (y : T) : Res (Itv T) := do
  if ← testIT C x y then emptyI C
  else pure ⟨stdMin x.lower y, stdMin x.upper y⟩

/-- utility.hpp 322-330 -/
def minTI (C : Checking T) (x : T) (y : Itv T) : Res (Itv T) := do
  if ← testTI C x y then emptyI C
  else pure ⟨stdMin x y.lower, stdMin x y.upper⟩

end BI
