import Verif.Model.Arith
/-! # arith2.hpp -/

namespace BI
variable {m : Type → Type} [Eff m] {T : Type} [Num T]

/-! ## fmod: the result of the unprotected type is converted to the caller's type (interval.hpp 179-184) -/

/-- A result of the unprotected type is returned where the type `P` is expected: converted by the constructor
interval.hpp 179-184, or copied by interval.hpp 175-177 if the two types are the `same`, which is the case if the function
is called on the unprotected type (rounding.hpp 67-71: it is its own `unprotected_rounding`). The difference shows only
for results with a NaN bound or with bounds in the wrong order. -/
def backI (same : Bool) (C : Checking T) (r : Itv T) : m (Itv T) :=
  match same with
  | true => pure r
  | false => lift (reItv C C r)

/-- arith2.hpp 31-42 -/
def fmodAux (same : Bool) (P : Policies m T) (x y : Itv T) : m (Itv T) := do
  if ← lift (testII P.chk P.chk x y) then lift (emptyI P.chk)
  else P.rnd.scope do
    let yb := if isNeg x.lower then y.lower else y.upper
    let d ← P.rnd.divDown x.lower yb
    let n ← P.rnd.intDown d
    let ny ← mulTI P.unprot n y
    let r ← subII P.unprot x ny
    backI same P.chk r

/-- `fmod` called by a program, arith2.hpp 31-42. -/
def fmodII (P : Policies m T) (x y : Itv T) : m (Itv T) := fmodAux false P x y

/-- arith2.hpp 44-53 -/
def fmodIT (P : Policies m T) (x : Itv T) (y : T) : m (Itv T) := do
  if ← lift (testIT P.chk x y) then lift (emptyI P.chk)
  else P.rnd.scope do
    let d ← P.rnd.divDown x.lower y
    let n ← P.rnd.intDown d
    let yi ← lift (ctorT P.chk y)
    let ny ← mulTI P.unprot n yi
    let r ← subII P.unprot x ny
    lift (reItv P.chk P.chk r)

/-- arith2.hpp 55-65 -/
def fmodTI (P : Policies m T) (x : T) (y : Itv T) : m (Itv T) := do
  if ← lift (testTI P.chk x y) then lift (emptyI P.chk)
  else P.rnd.scope do
    let yb := if isNeg x then y.lower else y.upper
    let d ← P.rnd.divDown x yb
    let n ← P.rnd.intDown d
    let ny ← mulTI P.unprot n y
    let r ← subTI P.unprot x ny
    lift (reItv P.chk P.chk r)

/-- arith2.hpp 69-90; second component: the reference parameter `b` -/
def divisionPart1 (P : Policies m T) (x y : Itv T) : m (Itv T × Bool) := do
  if ← lift (testII P.chk P.chk x y) then do
    let r ← lift (emptyI P.chk)
    pure (r, false)
  else if ← lift (zeroIn P.chk y) then
    if !isZero y.lower then
      if !isZero y.upper then divZeroPart1 P x y
      else do
        let r ← divNegativeI P x y.lower
        pure (r, false)
    else
      if !isZero y.upper then do
        let r ← divPositiveI P x y.upper
        pure (r, false)
      else do
        let r ← lift (emptyI P.chk)
        pure (r, false)
  else do
    let r ← divNonZeroII P x y
    pure (r, false)

/-- arith2.hpp 92-98 -/
def divisionPart2 (P : Policies m T) (x y : Itv T) (b : Bool) : m (Itv T) :=
  if !b then lift (emptyI P.chk) else divZeroPart2 P x y

/-- arith2.hpp 100-122 -/
def multInv (P : Policies m T) (x : Itv T) : m (Itv T) := do
  if ← lift (testI P.chk x) then lift (emptyI P.chk)
  else P.rnd.scope do
    if ← lift (zeroIn P.chk x) then
      if !isZero x.lower then
        if !isZero x.upper then lift (wholeI P.chk)
        else mkNegInf P.chk (P.rnd.divUp (Num.lit 1) x.lower)
      else
        if !isZero x.upper then mkPosInf P.chk (P.rnd.divDown (Num.lit 1) x.upper)
        else lift (emptyI P.chk)
    else mk2 (P.rnd.divDown (Num.lit 1) x.upper) (P.rnd.divUp (Num.lit 1) x.lower)

/-- The `while (pwr > 0)` loop of arith2.hpp 132-136 and 146-150. -/
def powLoop (mul : T → T → m T) (pwr : Nat) (x y : T) : m T :=
  if pwr = 0 then pure y
  else do
    let x ← mul x x
    let y ← (if pwr % 2 = 1 then mul x y else pure y)
    powLoop mul (pwr / 2) x y
termination_by pwr
decreasing_by omega

/-- arith2.hpp 126-138 and 140-152: `mul` is `mul_down`, respectively `mul_up`. `pwr` is positive there. -/
def powAux (mul : T → T → m T) (x : T) (pwr : Nat) : m T :=
  powLoop mul (pwr / 2) x (if pwr % 2 = 1 then x else Num.lit 1)

/-- arith2.hpp 157-195 for `pwr >= 0`. The two calls in lines 188 and 193 are arguments of one constructor call. -/
def powNat (P : Policies m T) (x : Itv T) (pwr : Nat) : m (Itv T) := do
  if ← lift (testI P.chk x) then lift (emptyI P.chk)
  else if pwr = 0 then
    if isZero x.lower && isZero x.upper then lift (emptyI P.chk)
    else lift (ctorT P.chk (Num.lit 1))
  else P.rnd.scope (
     if isNeg x.upper then do
       let nu ← negM x.upper
       let yl ← powAux P.rnd.mulDown nu pwr
       let nl ← negM x.lower
       let yu ← powAux P.rnd.mulUp nl pwr
       if pwr % 2 = 1 then do
         let a ← negM yu
         let b ← negM yl
         pure ⟨a, b⟩
       else pure ⟨yl, yu⟩
     else if isNeg x.lower then
       if pwr % 2 = 1 then
         mk2 (do let nl ← negM x.lower; let p ← powAux P.rnd.mulUp nl pwr; negM p)
             (powAux P.rnd.mulUp x.upper pwr)
       else do
         let nl ← negM x.lower
         let u ← powAux P.rnd.mulUp (stdMax nl x.upper) pwr
         pure ⟨Num.lit 0, u⟩
     else mk2 (powAux P.rnd.mulDown x.lower pwr) (powAux P.rnd.mulUp x.upper pwr))

/-- Smallest `int` (32 bits). -/
def intMin : Int := -2147483648

/-- arith2.hpp 157-195. `-pwr` overflows for the smallest `int`. -/
def powI (P : Policies m T) (x : Itv T) (pwr : Int) : m (Itv T) := do
  if ← lift (testI P.chk x) then lift (emptyI P.chk)
  else if pwr < 0 then
    if pwr = intMin then lift (.error .ub)
    else do
      let r ← powNat P x (-pwr).toNat
      multInv P r
  else powNat P x pwr.toNat

/-- arith2.hpp 197-206 -/
def sqrtI (P : Policies m T) (x : Itv T) : m (Itv T) := do
  let b ← lift (testI P.chk x)
  if b || isNeg x.upper then lift (emptyI P.chk)
  else P.rnd.scope do
    let l ← (if !isPos x.lower then pure (Num.lit 0) else P.rnd.sqrtDown x.lower)
    let u ← P.rnd.sqrtUp x.upper
    pure ⟨l, u⟩

/-- arith2.hpp 208-223 -/
def squareI (P : Policies m T) (x : Itv T) : m (Itv T) := do
  if ← lift (testI P.chk x) then lift (emptyI P.chk)
  else P.rnd.scope (
     if isNeg x.upper then mk2 (P.rnd.mulDown x.upper x.upper) (P.rnd.mulUp x.lower x.lower)
     else if isPos x.lower then mk2 (P.rnd.mulDown x.lower x.lower) (P.rnd.mulUp x.upper x.upper)
     else do
       let nl ← negM x.lower
       let u ← (if Num.lt x.upper nl then P.rnd.mulUp x.lower x.lower else P.rnd.mulUp x.upper x.upper)
       pure ⟨Num.lit 0, u⟩)

/-! ## nth_root -/

/-- One turn of the loop of `root_aux`, arith2.hpp 235-236: the value of `yy`. The operands of the quotient are
evaluated left to right here; `rootStepAny` leaves their order open. -/
def rootStep (P : Policies m T) (tk x : T) (k : Int) (y : Itv T) : m (Itv T) := do
  let y0 ← median P y
  let p ← powI P ⟨y0, y0⟩ k
  let num ← subIT P p x
  let q ← powI P y (k - 1)
  let den ← mulTI P tk q
  let d ← divII P num den
  let s ← subTI P y0 d
  lift (intersect P.chk y s)

/-- The loop of `root_aux`, arith2.hpp 234-239, for at most `fuel` turns. -/
def rootLoop (P : Policies m T) (tk x : T) (k : Int) : Nat → Itv T → m (Itv T)
  | 0, _ => lift (.error .fuel)
  | fuel + 1, y => do
    let yy ← rootStep P tk x k y
    if ← lift (equal P.chk P.chk y yy) then pure y
    else rootLoop P tk x k fuel yy

/-- arith2.hpp 228-240 -/
def rootAux (P : Policies m T) (fuel : Nat) (x : T) (k : Int) : m (Itv T) := do
  let tk ← P.cur (fun r => Num.ofInt r k)
  rootLoop P tk x k fuel ⟨Num.lit 1, x⟩

/-- arith2.hpp 242-252 (`P` are the unprotected policies) -/
def rootAuxDn (P : Policies m T) (fuel : Nat) (x : T) (k : Int) : m T :=
  P.rnd.scope (
     if Num.lt (Num.lit 1) x then do
       let y ← rootAux P fuel x k
       pure y.lower
     else if Num.eq x (Num.lit 1) then pure (Num.lit 1)
     else do
       let v ← P.rnd.divUp (Num.lit 1) x
       let y ← rootAux P fuel v k
       P.rnd.divDown (Num.lit 1) y.upper)

/-- arith2.hpp 254-264 -/
def rootAuxUp (P : Policies m T) (fuel : Nat) (x : T) (k : Int) : m T :=
  P.rnd.scope (
     if Num.lt (Num.lit 1) x then do
       let y ← rootAux P fuel x k
       pure y.upper
     else if Num.eq x (Num.lit 1) then pure (Num.lit 1)
     else do
       let v ← P.rnd.divDown (Num.lit 1) x
       let y ← rootAux P fuel v k
       P.rnd.divUp (Num.lit 1) y.lower)

/-- arith2.hpp 269-299. There is no rounding object in this function. The two calls of lines 287-288 are arguments of
one constructor; they are run left to right here; `nthRootAny` leaves their order open. -/
def nthRoot (P : Policies m T) (ndebug : Bool) (fuel : Nat) (x : Itv T) (k : Int) : m (Itv T) := do
  if ← lift (testI P.chk x) then lift (emptyI P.chk)
  else do
    lift (assertRes ndebug (decide (0 < k)))
    if k = 1 then pure x
    else if !isPos x.upper then
      if isZero x.upper then
        if k % 2 = 0 || isZero x.lower then pure ⟨Num.lit 0, Num.lit 0⟩
        else do
          let nl ← negM x.lower
          let r ← rootAuxUp P.unprot fuel nl k
          let l ← negM r
          pure ⟨l, Num.lit 0⟩
      else if k % 2 = 0 then lift (emptyI P.chk)
      else do
        let nl ← negM x.lower
        let r ← rootAuxUp P.unprot fuel nl k
        let l ← negM r
        let nu ← negM x.upper
        let r' ← rootAuxDn P.unprot fuel nu k
        let u ← negM r'
        pure ⟨l, u⟩
    else do
      let u ← rootAuxUp P.unprot fuel x.upper k
      if !isPos x.lower then
        if k % 2 = 0 || isZero x.lower then pure ⟨Num.lit 0, u⟩
        else do
          let nl ← negM x.lower
          let r ← rootAuxUp P.unprot fuel nl k
          let l ← negM r
          pure ⟨l, u⟩
      else do
        let l ← rootAuxDn P.unprot fuel x.lower k
        pure ⟨l, u⟩

/-! ## nth_root with the order of evaluation left to the implementation

The same lines of the source again. The order matters for the exception that is thrown when both operands throw, and for
an index that is rounded when it is converted, so that the simulation by a mode-free computation is not available; the
theorems about `nthRoot` are carried over in Props/RootOrder.lean. -/

/-- arith2.hpp 235-236. The operands of the quotient are `pow(I(y0, y0, true), k) - x` and `tk * pow(y, k - 1)`. The
implementation may evaluate one operand completely and then the other (`il = false`), or, before C++17, both powers first
and then the difference and the product (`il = true`). -/
def rootStepAny (il : Bool) (P : Policies m T) (tk x : T) (k : Int) (y : Itv T) : m (Itv T) := do
  let y0 ← median P y
  let nd ← if il then do
      let pq ← pair (powI P ⟨y0, y0⟩ k) (powI P y (k - 1))
      pair (subIT P pq.1 x) (mulTI P tk pq.2)
    else pair (do let p ← powI P ⟨y0, y0⟩ k; subIT P p x) (do let q ← powI P y (k - 1); mulTI P tk q)
  let d ← divII P nd.1 nd.2
  let s ← subTI P y0 d
  lift (intersect P.chk y s)

/-- arith2.hpp 234-239 -/
def rootLoopAny (il : Bool) (P : Policies m T) (tk x : T) (k : Int) : Nat → Itv T → m (Itv T)
  | 0, _ => lift (.error .fuel)
  | fuel + 1, y => do
    let yy ← rootStepAny il P tk x k y
    if ← lift (equal P.chk P.chk y yy) then pure y
    else rootLoopAny il P tk x k fuel yy

/-- arith2.hpp 228-240 -/
def rootAuxAny (il : Bool) (P : Policies m T) (fuel : Nat) (x : T) (k : Int) : m (Itv T) := do
  let tk ← P.cur (fun r => Num.ofInt r k)
  rootLoopAny il P tk x k fuel ⟨Num.lit 1, x⟩

/-- arith2.hpp 242-252 (`P` are the unprotected policies) -/
def rootAuxDnAny (il : Bool) (P : Policies m T) (fuel : Nat) (x : T) (k : Int) : m T :=
  P.rnd.scope (
     if Num.lt (Num.lit 1) x then do
       let y ← rootAuxAny il P fuel x k
       pure y.lower
     else if Num.eq x (Num.lit 1) then pure (Num.lit 1)
     else do
       let v ← P.rnd.divUp (Num.lit 1) x
       let y ← rootAuxAny il P fuel v k
       P.rnd.divDown (Num.lit 1) y.upper)

/-- arith2.hpp 254-264 -/
def rootAuxUpAny (il : Bool) (P : Policies m T) (fuel : Nat) (x : T) (k : Int) : m T :=
  P.rnd.scope (
     if Num.lt (Num.lit 1) x then do
       let y ← rootAuxAny il P fuel x k
       pure y.upper
     else if Num.eq x (Num.lit 1) then pure (Num.lit 1)
     else do
       let v ← P.rnd.divDown (Num.lit 1) x
       let y ← rootAuxAny il P fuel v k
       P.rnd.divUp (Num.lit 1) y.lower)

/-- arith2.hpp 269-299 -/
def nthRootAny (il : Bool) (P : Policies m T) (ndebug : Bool) (fuel : Nat) (x : Itv T) (k : Int) : m (Itv T) := do
  if ← lift (testI P.chk x) then lift (emptyI P.chk)
  else do
    lift (assertRes ndebug (decide (0 < k)))
    if k = 1 then pure x
    else if !isPos x.upper then
      if isZero x.upper then
        if k % 2 = 0 || isZero x.lower then pure ⟨Num.lit 0, Num.lit 0⟩
        else do
          let nl ← negM x.lower
          let r ← rootAuxUpAny il P.unprot fuel nl k
          let l ← negM r
          pure ⟨l, Num.lit 0⟩
      else if k % 2 = 0 then lift (emptyI P.chk)
      else do
        let lu ← pair (do let nl ← negM x.lower; let r ← rootAuxUpAny il P.unprot fuel nl k; negM r)
          (do let nu ← negM x.upper; let r ← rootAuxDnAny il P.unprot fuel nu k; negM r)
        pure ⟨lu.1, lu.2⟩
    else do
      let u ← rootAuxUpAny il P.unprot fuel x.upper k
      if !isPos x.lower then
        if k % 2 = 0 || isZero x.lower then pure ⟨Num.lit 0, u⟩
        else do
          let nl ← negM x.lower
          let r ← rootAuxUpAny il P.unprot fuel nl k
          let l ← negM r
          pure ⟨l, u⟩
      else do
        let l ← rootAuxDnAny il P.unprot fuel x.lower k
        pure ⟨l, u⟩

end BI
