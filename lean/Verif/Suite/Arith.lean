import Verif.Model.Object
import Verif.Model.Constants
import Verif.Model.Arith2
import Verif.Model.MachInt
import Verif.Proofs.Instances
/-!
# The arithmetic tests of the library, run on the model

Transcribed from /repo/test/mul.cpp, pow.cpp, fmod.cpp, pi.cpp, integer.cpp. These are tests of the transcription, not
proofs of properties.
-/

namespace BI.Suite

/-! ## mul.cpp, pow.cpp: `interval<double>` -/

abbrev D := Fl Fmt.double
abbrev MD := M dbl.ctl.W

def d (a : Int) : D := Num.lit a
def dI (a b : Int) : Itv D := ⟨d a, d b⟩
/-- Round to nearest, arguments evaluated from left to right. -/
def s0 : dbl.State := ⟨(⟨.near, ()⟩ : FEnv Unit), fun _ => true⟩
def ask (p : MD Bool) : Bool := match (p s0).1 with | .ok b => b | .error _ => false
def ofR {α : Type} (x : Res α) : MD α := lift x

/-- The products and quotients that mul.cpp computes in the direction in force. -/
def opD (o : RMode → D → D → Option D) (a b : Int) : MD D := dbl.P.cur (fun r => o r (d a) (d b))
/-- mul.cpp 17-19 -/
def min4 (a b c e : D) : D := stdMin (stdMin a b) (stdMin c e)
/-- mul.cpp 21-23 -/
def max4 (a b c e : D) : D := stdMax (stdMax a b) (stdMax c e)

/-- mul.cpp 25-30, 41-46 -/
def tBin (f : Itv D → Itv D → MD (Itv D)) (o : RMode → D → D → Option D) (al au bl bu : Int) : Bool := ask do
  let c ← f (dI al au) (dI bl bu)
  let p ← opD o al bl
  let q ← opD o al bu
  let r ← opD o au bl
  let s ← opD o au bu
  pure (Num.eq c.lower (min4 p q r s) && Num.eq c.upper (max4 p q r s))

/-- mul.cpp 32-38 -/
def tMul1 (ac bl bu : Int) : Bool := ask do
  let a ← ofR (ctorT dbl.C (d ac))
  let c ← mulTI dbl.P (d ac) (dI bl bu)
  let e ← mulIT dbl.P (dI bl bu) (d ac)
  let g ← mulII dbl.P a (dI bl bu)
  pure ((← ofR (equal dbl.C dbl.C c e)) && (← ofR (equal dbl.C dbl.C e g)))

/-- mul.cpp 48-53 -/
def tDiv1 (al au bc : Int) : Bool := ask do
  let b ← ofR (ctorT dbl.C (d bc))
  let c ← divIT dbl.P (dI al au) (d bc)
  let e ← divII dbl.P (dI al au) b
  ofR (equal dbl.C dbl.C c e)

/-- mul.cpp 55-60 -/
def tDiv2 (ac bl bu : Int) : Bool := ask do
  let a ← ofR (ctorT dbl.C (d ac))
  let c ← divTI dbl.P (d ac) (dI bl bu)
  let e ← divII dbl.P a (dI bl bu)
  ofR (equal dbl.C dbl.C c e)

/-- mul.cpp 62-68 -/
def tSquare (al au : Int) : Bool := ask do
  let b ← squareI dbl.P (dI al au)
  let c ← mulII dbl.P (dI al au) (dI al au)
  pure (Num.eq b.upper c.upper &&
    (Num.eq b.lower c.lower || (Num.le c.lower (d 0) && Num.eq b.lower (d 0))))

/-- mul.cpp 69-73 -/
def tSqrt (al au : Int) : Bool := ask do
  let r ← sqrtI dbl.P (dI al au)
  let b ← squareI dbl.P r
  let a ← ofR (absI dbl.C (dI al au))
  ofR (subset dbl.C a b)

/-- mul.cpp 77-85 -/
example :
    tBin (mulII dbl.P) Num.mul 2 3 5 7 ∧ tBin (mulII dbl.P) Num.mul 2 3 (-5) 7 ∧
    tBin (mulII dbl.P) Num.mul 2 3 (-7) (-5) ∧ tBin (mulII dbl.P) Num.mul (-2) 3 5 7 ∧
    tBin (mulII dbl.P) Num.mul (-2) 3 (-5) 7 ∧ tBin (mulII dbl.P) Num.mul (-2) 3 (-7) (-5) ∧
    tBin (mulII dbl.P) Num.mul (-3) (-2) 5 7 ∧ tBin (mulII dbl.P) Num.mul (-3) (-2) (-5) 7 ∧
    tBin (mulII dbl.P) Num.mul (-3) (-2) (-7) (-5) := by
  and_intros <;> decide +kernel

/-- mul.cpp 87-92 -/
example : tMul1 3 5 7 ∧ tMul1 3 (-5) 7 ∧ tMul1 3 (-7) (-5) ∧ tMul1 (-3) 5 7 ∧ tMul1 (-3) (-5) 7 ∧
    tMul1 (-3) (-7) (-5) := by
  and_intros <;> decide +kernel

/-- mul.cpp 94-99 -/
example :
    tBin (divII dbl.P) Num.div 30 42 2 3 ∧ tBin (divII dbl.P) Num.div 30 42 (-3) (-2) ∧
    tBin (divII dbl.P) Num.div (-30) 42 2 3 ∧ tBin (divII dbl.P) Num.div (-30) 42 (-3) (-2) ∧
    tBin (divII dbl.P) Num.div (-42) (-30) 2 3 ∧ tBin (divII dbl.P) Num.div (-42) (-30) (-3) (-2) := by
  and_intros <;> decide +kernel

/-- mul.cpp 101-106 -/
example : tDiv1 30 42 3 ∧ tDiv1 30 42 (-3) ∧ tDiv1 (-30) 42 3 ∧ tDiv1 (-30) 42 (-3) ∧ tDiv1 (-42) (-30) 3 ∧
    tDiv1 (-42) (-30) (-3) := by
  and_intros <;> decide +kernel

/-- mul.cpp 108-111 -/
example : tDiv2 30 2 3 ∧ tDiv2 30 (-3) (-2) ∧ tDiv2 (-30) 2 3 ∧ tDiv2 (-30) (-3) (-2) := by
  and_intros <;> decide +kernel

/-- mul.cpp 113-115 -/
example : tSquare 2 3 ∧ tSquare (-2) 3 ∧ tSquare (-3) 2 := by
  and_intros <;> decide +kernel

/-- mul.cpp 116-118 -/
example : tSqrt 2 3 ∧ tSqrt 5 7 ∧ tSqrt (-1) 2 := by
  and_intros <;> decide +kernel

/-- pow.cpp 15-19; a bound `1./n` is written as the pair `(1, n)`. -/
def tPow (al au : Int) (bl bu : Int × Int) (p : Int) : Bool := ask do
  let b ← powI dbl.P (dI al au) p
  let l ← opD Num.div bl.1 bl.2
  let u ← opD Num.div bu.1 bu.2
  pure (Num.eq b.lower l && Num.eq b.upper u)

/-- pow.cpp 22-36 -/
example :
    tPow 2 3 (8, 1) (27, 1) 3 ∧ tPow 2 3 (16, 1) (81, 1) 4 ∧ tPow (-3) 2 (-27, 1) (8, 1) 3 ∧
    tPow (-3) 2 (0, 1) (81, 1) 4 ∧ tPow (-3) (-2) (-27, 1) (-8, 1) 3 ∧ tPow (-3) (-2) (16, 1) (81, 1) 4 ∧
    tPow 2 4 (1, 64) (1, 8) (-3) ∧ tPow 2 4 (1, 256) (1, 16) (-4) ∧ tPow (-4) (-2) (-1, 8) (-1, 64) (-3) ∧
    tPow (-4) (-2) (1, 256) (1, 16) (-4) ∧
    tPow 2 3 (1, 1) (1, 1) 0 ∧ tPow (-3) 2 (1, 1) (1, 1) 0 ∧ tPow (-3) (-2) (1, 1) (1, 1) 0 := by
  and_intros <;> decide +kernel

/-! ## fmod.cpp: intervals of int with a hand-made rounding class -/

/-- fmod.cpp 20-30. What the class does not define is not used. -/
def fmodArith : Arith Res (MInt 28) where
  convDown _ := .error .assertion
  convUp _ := .error .assertion
  addDown _ _ := .error .assertion
  addUp _ _ := .error .assertion
  subDown x y := ofOpt (Num.sub .near x y)
  subUp x y := ofOpt (Num.sub .near x y)
  mulDown x y := ofOpt (Num.mul .near x y)
  mulUp x y := ofOpt (Num.mul .near x y)
  divDown x y := do
    let q ← ofOpt (Num.div .near x y)
    if Int.tmod x.z y.z < 0 then ofOpt (Num.sub .near q (Num.lit 1)) else pure q
  divUp _ _ := .error .assertion
  median _ _ := .error .assertion
  sqrtDown _ := .error .assertion
  sqrtUp _ := .error .assertion
  intDown x := pure x
  intUp _ := .error .assertion
  fnDown _ _ := .error .assertion
  fnUp _ _ := .error .assertion

/-- fmod.cpp 36: `save_state_nothing`, and the checking of `interval<int>`. -/
def fmodP : Policies Res (MInt 28) where
  rnd := { fmodArith with scope := id }
  unp := { fmodArith with scope := id }
  chk := ChkSpec.strict.eval _ false
  cur := fun f => ofOpt (f .near)

def i (a : Int) : MInt 28 := Num.lit a
def iI (a b : Int) : Itv (MInt 28) := ⟨i a, i b⟩

/-- fmod.cpp 40-50 -/
example :
    fmodIT fmodP (iI 6 9) (i 7) = .ok (iI 6 9) ∧
    fmodTI fmodP (i 6) (iI 7 8) = .ok (iI 6 6) ∧
    fmodII fmodP (iI 6 9) (iI 7 8) = .ok (iI 6 9) ∧
    fmodIT fmodP (iI 13 17) (i 7) = .ok (iI 6 10) ∧
    fmodTI fmodP (i 13) (iI 7 8) = .ok (iI 5 6) ∧
    fmodII fmodP (iI 13 17) (iI 7 8) = .ok (iI 5 10) ∧
    fmodIT fmodP (iI (-17) (-13)) (i 7) = .ok (iI 4 8) ∧
    fmodTI fmodP (i (-17)) (iI 7 8) = .ok (iI 4 7) ∧
    fmodII fmodP (iI (-17) (-13)) (iI 7 8) = .ok (iI 4 11) := by
  and_intros <;> decide +kernel

/-! ## pi.cpp -/

/-- `pi<I>()`, `pi_half<I>()`, `pi_twice<I>()` (constants.hpp 57-80) -/
def piD1 : Itv D := ⟨(piDouble .near).piLower, (piDouble .near).piUpper⟩
def piD2 : Itv D := ⟨(piDouble .near).piHalfLower, (piDouble .near).piHalfUpper⟩
def piD3 : Itv D := ⟨(piDouble .near).piTwiceLower, (piDouble .near).piTwiceUpper⟩
/-- `PI`, the literal of pi.cpp 16: the double nearest to it. -/
def piLit : D := (Fl.ofInt .near 314159265358979323846).div .near (Fl.ofInt .near 100000000000000000000)

/-- pi.cpp 36, 39, 51, 55: the tests for double. `minD` is `numeric_limits<double>::min()`, `2^-1022`. -/
def minD : D := (Fl.ofInt .near 1).div .near (Fl.ofInt .near (2 ^ 1022))
example : ask (ofR (inI dbl.C piLit piD1)) ∧
    ask (do let w ← widen dbl.P ⟨piLit, piLit⟩ minD; ofR (subset dbl.C piD1 w)) ∧
    ask (do let w ← mulTI dbl.P (d 2) piD2; ofR (equal dbl.C dbl.C w piD1)) ∧
    ask (do let w ← mulTI dbl.P (d 2) piD1; ofR (equal dbl.C dbl.C w piD3)) := by
  and_intros <;> decide +kernel

/-! ## integer.cpp -/

/-- integer.cpp 17-18: `x = 4 - (2 * y + 1) / 3` on default-constructed intervals compiles and runs. -/
example : ask (do
    let a ← mulIntI dbl.P 2 (ctorDefault : Itv D)
    let b ← addIInt dbl.P a 1
    let c ← divIInt dbl.P b 3
    let x ← subIntI dbl.P 4 c
    ofR (inI dbl.C ((Num.div .near (d 11) (d 3)).getD (d 0)) x)) := by
  decide +kernel

/-! ## examples/rational.cpp -/

/-- examples/rational.cpp 35-41: the two intervals printed are `[3,15/4]` and `[16/3,61/9]`. -/
example :
    let w (x : Itv ℚ) : World ratEnv.ctl.W ℚ := ⟨x, (⟨(⟨.near, ()⟩ : FEnv Unit), fun _ => true⟩ : ratEnv.State)⟩
    ((mulAssignT ratEnv.P (.val (3 / 4 : ℚ))) (w ⟨4, 5⟩)).2.obj = ⟨3, 15 / 4⟩ ∧
    ((do addAssign ratEnv.P (.val ⟨4, 5⟩)
         subAssignT ratEnv.P (.val (2 / 3 : ℚ))
         divAssignT ratEnv.P (.val (3 / 4 : ℚ)) : OM ratEnv.ctl.W ℚ Unit) (w ⟨2 / 3, 3 / 4⟩)).2.obj = ⟨16 / 3, 61 / 9⟩ := by
  decide +kernel

end BI.Suite
