import Verif.Model.Transc
/-!
# Client programs

The calls a user can make, as data, and client programs over them: arbitrary finite interaction trees (each step may
depend on all earlier results), with regions that own one rounding object and use the unprotected interval type inside
(the pattern recommended in doc/interval.htm 852-870 and used in examples/horner.cpp).
-/

namespace BI
variable {T : Type}

/-- Calls of the library that involve rounding; `chk` stands for all the others (tests, hull, intersect, min, max, abs,
comparisons, construction from numbers of type `T`, ...), which only use the checking policy.
The headers are cited at the constructors. -/
inductive Call (T : Type) : Type → Type 1 where
  /- arith.hpp, `operator+`, 42-81 -/
  | addII (x : Itv T) (y : Itv T) : Call T (Itv T)
  | addTI (x : T) (y : Itv T) : Call T (Itv T)
  | addIT (x : Itv T) (y : T) : Call T (Itv T)
  /- arith.hpp, `operator-`, 83-122 -/
  | subII (x : Itv T) (y : Itv T) : Call T (Itv T)
  | subTI (x : T) (y : Itv T) : Call T (Itv T)
  | subIT (x : Itv T) (y : T) : Call T (Itv T)
  /- arith.hpp, `operator*`, 124-245 -/
  | mulII (x : Itv T) (y : Itv T) : Call T (Itv T)
  | mulTI (x : T) (y : Itv T) : Call T (Itv T)
  | mulIT (x : Itv T) (y : T) : Call T (Itv T)
  /- arith.hpp, `operator/`, 247-300 -/
  | divII (x : Itv T) (y : Itv T) : Call T (Itv T)
  | divTI (x : T) (y : Itv T) : Call T (Itv T)
  | divIT (x : Itv T) (y : T) : Call T (Itv T)
  /- arith3.hpp 25-63 -/
  | addTT (x : T) (y : T) : Call T (Itv T)
  | subTT (x : T) (y : T) : Call T (Itv T)
  | mulTT (x : T) (y : T) : Call T (Itv T)
  | divTT (x : T) (y : T) : Call T (Itv T)
  /- ext/integer.hpp 19-65 -/
  | addIInt (x : Itv T) (n : Int) : Call T (Itv T)
  | addIntI (n : Int) (y : Itv T) : Call T (Itv T)
  | subIInt (x : Itv T) (n : Int) : Call T (Itv T)
  | subIntI (n : Int) (y : Itv T) : Call T (Itv T)
  | mulIInt (x : Itv T) (n : Int) : Call T (Itv T)
  | mulIntI (n : Int) (y : Itv T) : Call T (Itv T)
  | divIInt (x : Itv T) (n : Int) : Call T (Itv T)
  | divIntI (n : Int) (y : Itv T) : Call T (Itv T)
  /- arith2.hpp 31-65 -/
  | fmodII (x : Itv T) (y : Itv T) : Call T (Itv T)
  | fmodIT (x : Itv T) (y : T) : Call T (Itv T)
  | fmodTI (x : T) (y : Itv T) : Call T (Itv T)
  /- arith2.hpp 69-98 -/
  | divisionPart1 (x : Itv T) (y : Itv T) : Call T (Itv T × Bool)
  | divisionPart2 (x : Itv T) (y : Itv T) (b : Bool) : Call T (Itv T)
  /- arith2.hpp 100-223 -/
  | multInv (x : Itv T) : Call T (Itv T)
  | pow (x : Itv T) (k : Int) : Call T (Itv T)
  | sqrt (x : Itv T) : Call T (Itv T)
  | square (x : Itv T) : Call T (Itv T)
  /- arith2.hpp 269-299 -/
  | nthRoot (ndebug : Bool) (fuel : Nat) (x : Itv T) (k : Int) : Call T (Itv T)
  /- utility.hpp 63-90, 232-241 -/
  | width (x : Itv T) : Call T T
  | median (x : Itv T) : Call T T
  | widen (x : Itv T) (v : T) : Call T (Itv T)
  | bisect (x : Itv T) : Call T (Itv T × Itv T)
  /- transc.hpp 27-227 -/
  | exp (x : Itv T) : Call T (Itv T)
  | log (x : Itv T) : Call T (Itv T)
  | cos (K : PiConst T) (fuel : Nat) (x : Itv T) : Call T (Itv T)
  | sin (K : PiConst T) (fuel : Nat) (x : Itv T) : Call T (Itv T)
  | tan (K : PiConst T) (x : Itv T) : Call T (Itv T)
  | asin (K : PiConst T) (x : Itv T) : Call T (Itv T)
  | acos (K : PiConst T) (x : Itv T) : Call T (Itv T)
  | atan (x : Itv T) : Call T (Itv T)
  | sinh (x : Itv T) : Call T (Itv T)
  | cosh (x : Itv T) : Call T (Itv T)
  | tanh (x : Itv T) : Call T (Itv T)
  | asinh (x : Itv T) : Call T (Itv T)
  | acosh (x : Itv T) : Call T (Itv T)
  | atanh (x : Itv T) : Call T (Itv T)
  /- interval.hpp 145-165, 186-196 -/
  | ctorSrc (v : Src T) : Call T (Itv T)
  | ctorSrc2 (l : Src T) (u : Src T) (le : Bool) : Call T (Itv T)
  | ctorItv (e : Res Bool) (l : Src T) (u : Src T) : Call T (Itv T)
  | chk {α : Type} (f : Checking T → Res α) : Call T α

/-- Executing a call: the functions of arith.hpp 28-300, arith2.hpp 31-299, arith3.hpp 25-63, transc.hpp 27-227,
ext/integer.hpp 19-65, utility.hpp 63-90, 232-241, interval.hpp 145-196. -/
def Call.run {m : Type → Type} [Eff m] [Num T] (P : Policies m T) {α : Type} : Call T α → m α
  | .addII x y => BI.addII P x y
  | .addTI x y => BI.addTI P x y
  | .addIT x y => BI.addIT P x y
  | .subII x y => BI.subII P x y
  | .subTI x y => BI.subTI P x y
  | .subIT x y => BI.subIT P x y
  | .mulII x y => BI.mulII P x y
  | .mulTI x y => BI.mulTI P x y
  | .mulIT x y => BI.mulIT P x y
  | .divII x y => BI.divII P x y
  | .divTI x y => BI.divTI P x y
  | .divIT x y => BI.divIT P x y
  | .addTT x y => BI.addTT P x y
  | .subTT x y => BI.subTT P x y
  | .mulTT x y => BI.mulTT P x y
  | .divTT x y => BI.divTT P x y
  | .addIInt x n => BI.addIInt P x n
  | .addIntI n y => BI.addIntI P n y
  | .subIInt x n => BI.subIInt P x n
  | .subIntI n y => BI.subIntI P n y
  | .mulIInt x n => BI.mulIInt P x n
  | .mulIntI n y => BI.mulIntI P n y
  | .divIInt x n => BI.divIInt P x n
  | .divIntI n y => BI.divIntI P n y
  | .fmodII x y => BI.fmodII P x y
  | .fmodIT x y => BI.fmodIT P x y
  | .fmodTI x y => BI.fmodTI P x y
  | .divisionPart1 x y => BI.divisionPart1 P x y
  | .divisionPart2 x y b => BI.divisionPart2 P x y b
  | .multInv x => BI.multInv P x
  | .pow x k => BI.powI P x k
  | .sqrt x => BI.sqrtI P x
  | .square x => BI.squareI P x
  | .nthRoot ndebug fuel x k => BI.nthRoot P ndebug fuel x k
  | .width x => BI.width P x
  | .median x => BI.median P x
  | .widen x v => BI.widen P x v
  | .bisect x => BI.bisect P x
  | .exp x => BI.expI P x
  | .log x => BI.logI P x
  | .cos K fuel x => BI.cosI K fuel P x
  | .sin K fuel x => BI.sinI K fuel P x
  | .tan K x => BI.tanI K P x
  | .asin K x => BI.asinI K P x
  | .acos K x => BI.acosI K P x
  | .atan x => BI.atanI P x
  | .sinh x => BI.sinhI P x
  | .cosh x => BI.coshI P x
  | .tanh x => BI.tanhI P x
  | .asinh x => BI.asinhI P x
  | .acosh x => BI.acoshI P x
  | .atanh x => BI.atanhI P x
  | .ctorSrc v => BI.ctorSrc P v
  | .ctorSrc2 l u le => BI.ctorSrc2 P l u le
  | .ctorItv e l u => BI.ctorItv P e l u
  | .chk f => lift (f P.chk)

/-- Client programs. They are not library code; `region` is the protected region of doc/rounding.htm (`unprotect`,
policies.hpp 59-68). -/
inductive Prog (T : Type) : Type → Type 1 where
  /- the program ends -/
  | ret {α : Type} (a : α) : Prog T α
  /- the client throws an exception of its own -/
  | fail {α : Type} (e : Err) : Prog T α
  /- a library call; the rest of the program depends on its result -/
  | call {α β : Type} (c : Call T β) (k : β → Prog T α) : Prog T α
  /- a block `{ I::traits_type::rounding rnd; ... }` whose body uses the unprotected interval type -/
  | region {α β : Type} (body : Prog T β) (k : β → Prog T α) : Prog T α

/-- Executing a program with the interval type of policies `P` (a region creates a rounding object, rounding.hpp 75-85,
and uses the type `unprotect`, policies.hpp 59-68). -/
def Prog.run {m : Type → Type} [Eff m] [Num T] : Policies m T → {α : Type} → Prog T α → m α
  | _, _, .ret a => pure a
  | _, _, .fail e => lift (.error e)
  | P, _, .call c k => c.run P >>= fun b => (k b).run P
  | P, _, .region body k => P.rnd.scope (body.run P.unprot) >>= fun b => (k b).run P

end BI
