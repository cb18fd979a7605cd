import Verif.Model.Arith2
/-! # constants.hpp and transc.hpp -/

namespace BI
variable {m : Type → Type} [Eff m] {T : Type} [Num T]

/-- The functions `constants::pi_lower<T>()`, ... (constants.hpp 27-53). -/
structure PiConst (T : Type) where
  piLower : T
  piUpper : T
  piHalfLower : T
  piHalfUpper : T
  piTwiceLower : T
  piTwiceUpper : T
  deriving DecidableEq

/-- constants.hpp 27-32: the generic versions. -/
def piGeneric : PiConst T where
  piLower := Num.lit 3
  piUpper := Num.lit 4
  piHalfLower := Num.lit 1
  piHalfUpper := Num.lit 2
  piTwiceLower := Num.lit 6
  piTwiceUpper := Num.lit 7

/-- constants.hpp 57-63 -/
def piI (K : PiConst T) : Itv T := ⟨K.piLower, K.piUpper⟩
/-- constants.hpp 65-71 -/
def piHalfI (K : PiConst T) : Itv T := ⟨K.piHalfLower, K.piHalfUpper⟩
/-- constants.hpp 73-79 -/
def piTwiceI (K : PiConst T) : Itv T := ⟨K.piTwiceLower, K.piTwiceUpper⟩

/-- Shape shared by transc.hpp 27-35 (exp), 147-155 (atan), 157-165 (sinh), 182-190 (tanh), 192-200 (asinh). -/
def increasingI (f : Fn) (P : Policies m T) (x : Itv T) : m (Itv T) := do
  if ← lift (testI P.chk x) then lift (emptyI P.chk)
  else P.rnd.scope (mk2 (P.rnd.fnDown f x.lower) (P.rnd.fnUp f x.upper))

/-- transc.hpp 27-35 -/
def expI (P : Policies m T) (x : Itv T) : m (Itv T) := increasingI .exp P x
/-- transc.hpp 147-155 -/
def atanI (P : Policies m T) (x : Itv T) : m (Itv T) := increasingI .atan P x
/-- transc.hpp 157-165 -/
def sinhI (P : Policies m T) (x : Itv T) : m (Itv T) := increasingI .sinh P x
/-- transc.hpp 182-190 -/
def tanhI (P : Policies m T) (x : Itv T) : m (Itv T) := increasingI .tanh P x
/-- transc.hpp 192-200 -/
def asinhI (P : Policies m T) (x : Itv T) : m (Itv T) := increasingI .asinh P x

/-- transc.hpp 37-49 -/
def logI (P : Policies m T) (x : Itv T) : m (Itv T) := do
  let b ← lift (testI P.chk x)
  if b || !isPos x.upper then lift (emptyI P.chk)
  else P.rnd.scope do
    let l ← (if !isPos x.lower then lift P.chk.negInf else P.rnd.fnDown .log x.lower)
    let u ← P.rnd.fnUp .log x.upper
    pure ⟨l, u⟩

/-- transc.hpp 51-78, for at most `fuel` nested calls. The recursive call is made on the unprotected type; its result is
converted to the caller's type (`same`: see `backI`). -/
def cosAux (K : PiConst T) : Bool → Nat → Policies m T → Itv T → m (Itv T)
  | _, 0, _, _ => lift (.error .fuel)
  | same, fuel + 1, P, x => do
    if ← lift (testI P.chk x) then lift (emptyI P.chk)
    else P.rnd.scope do
      let tmp ← fmodAux true P.unprot x (piTwiceI K)
      let w ← width P.unprot tmp
      if Num.le K.piTwiceLower w then pure ⟨Num.lit (-1), Num.lit 1⟩
      else if Num.le K.piUpper tmp.lower then do
        let t ← subII P.unprot tmp (piI K)
        let c ← cosAux K true fuel P.unprot t
        let r ← lift (negI P.chk c)
        backI same P.chk r
      else if Num.le tmp.upper K.piLower then
        mk2 (P.rnd.fnDown .cos tmp.upper) (P.rnd.fnUp .cos tmp.lower)
      else if Num.le tmp.upper K.piTwiceLower then do
        let d ← P.rnd.subDown K.piTwiceLower tmp.upper
        let u ← P.rnd.fnUp .cos (stdMin d tmp.lower)
        pure ⟨Num.lit (-1), u⟩
      else pure ⟨Num.lit (-1), Num.lit 1⟩

/-- `cos` called by a program, transc.hpp 51-78. -/
def cosI (K : PiConst T) (fuel : Nat) (P : Policies m T) (x : Itv T) : m (Itv T) := cosAux K false fuel P x

/-- transc.hpp 80-91 -/
def sinI (K : PiConst T) (fuel : Nat) (P : Policies m T) (x : Itv T) : m (Itv T) := do
  if ← lift (testI P.chk x) then lift (emptyI P.chk)
  else P.rnd.scope do
    let t ← subII P.unprot x (piHalfI K)
    let r ← cosAux K true fuel P.unprot t
    lift (reItv P.chk P.chk r)

/-- transc.hpp 93-111. `tmp -= pi` is written as the binary operator (see `Model/Object.lean`, property C05). -/
def tanI (K : PiConst T) (P : Policies m T) (x : Itv T) : m (Itv T) := do
  if ← lift (testI P.chk x) then lift (emptyI P.chk)
  else P.rnd.scope do
    let t0 ← fmodAux true P.unprot x (piI K)
    let tmp ← (if Num.le K.piHalfLower t0.lower then subII P.unprot t0 (piI K) else pure t0)
    let nh ← negM K.piHalfLower
    if Num.le tmp.lower nh || Num.le K.piHalfLower tmp.upper then lift (wholeI P.chk)
    else mk2 (P.rnd.fnDown .tan tmp.lower) (P.rnd.fnUp .tan tmp.upper)

/-- transc.hpp 113-128 -/
def asinI (K : PiConst T) (P : Policies m T) (x : Itv T) : m (Itv T) := do
  let b ← lift (testI P.chk x)
  if b || Num.lt x.upper (Num.lit (-1)) || Num.lt (Num.lit 1) x.lower then lift (emptyI P.chk)
  else P.rnd.scope do
    let l ← (if Num.le x.lower (Num.lit (-1)) then negM K.piHalfUpper else P.rnd.fnDown .asin x.lower)
    let u ← (if Num.le (Num.lit 1) x.upper then pure K.piHalfUpper else P.rnd.fnUp .asin x.upper)
    pure ⟨l, u⟩

/-- transc.hpp 130-145 -/
def acosI (K : PiConst T) (P : Policies m T) (x : Itv T) : m (Itv T) := do
  let b ← lift (testI P.chk x)
  if b || Num.lt x.upper (Num.lit (-1)) || Num.lt (Num.lit 1) x.lower then lift (emptyI P.chk)
  else P.rnd.scope do
    let l ← (if Num.le (Num.lit 1) x.upper then pure (Num.lit 0) else P.rnd.fnDown .acos x.upper)
    let u ← (if Num.le x.lower (Num.lit (-1)) then pure K.piUpper else P.rnd.fnUp .acos x.lower)
    pure ⟨l, u⟩

/-- transc.hpp 167-180 -/
def coshI (P : Policies m T) (x : Itv T) : m (Itv T) := do
  if ← lift (testI P.chk x) then lift (emptyI P.chk)
  else P.rnd.scope (
    if isNeg x.upper then mk2 (P.rnd.fnDown .cosh x.upper) (P.rnd.fnUp .cosh x.lower)
    else if !isNeg x.lower then mk2 (P.rnd.fnDown .cosh x.lower) (P.rnd.fnUp .cosh x.upper)
    else do
      let nl ← negM x.lower
      let u ← P.rnd.fnUp .cosh (if Num.lt x.upper nl then x.lower else x.upper)
      pure ⟨Num.lit 1, u⟩)

/-- transc.hpp 202-211 -/
def acoshI (P : Policies m T) (x : Itv T) : m (Itv T) := do
  let b ← lift (testI P.chk x)
  if b || Num.lt x.upper (Num.lit 1) then lift (emptyI P.chk)
  else P.rnd.scope do
    let l ← (if Num.le x.lower (Num.lit 1) then pure (Num.lit 0) else P.rnd.fnDown .acosh x.lower)
    let u ← P.rnd.fnUp .acosh x.upper
    pure ⟨l, u⟩

/-- transc.hpp 213-227 -/
def atanhI (P : Policies m T) (x : Itv T) : m (Itv T) := do
  let b ← lift (testI P.chk x)
  if b || Num.lt x.upper (Num.lit (-1)) || Num.lt (Num.lit 1) x.lower then lift (emptyI P.chk)
  else P.rnd.scope do
    let l ← (if Num.le x.lower (Num.lit (-1)) then lift P.chk.negInf else P.rnd.fnDown .atanh x.lower)
    let u ← (if Num.le (Num.lit 1) x.upper then lift P.chk.posInf else P.rnd.fnUp .atanh x.upper)
    pure ⟨l, u⟩

/-- The interval function of transc.hpp (26-227) belonging to a library function; `fuel` limits the nesting of `cos`. -/
def Fn.I (K : PiConst T) (fuel : Nat) : Fn → Policies m T → Itv T → m (Itv T)
  | .exp => expI
  | .log => logI
  | .sin => sinI K fuel
  | .cos => cosI K fuel
  | .tan => tanI K
  | .asin => asinI K
  | .acos => acosI K
  | .atan => atanI
  | .sinh => sinhI
  | .cosh => coshI
  | .tanh => tanhI
  | .asinh => asinhI
  | .acosh => acoshI
  | .atanh => atanhI

end BI
