import Verif.Proofs.Cut
/-! # Every library function respects the relation of Proofs/Cut.lean -/

set_option linter.unusedSectionVars false
set_option linter.unusedSimpArgs false

namespace BI
variable {G : CutRel} {W : Type} {T : Type} [Num T] {P : Policies (M W) T} {C' : Checking T}

macro "rcut_lib" h:term : tactic => `(tactic| first
  | with_reducible exact RCut.refl _
  | with_reducible exact CCut.nan $h | with_reducible exact CCut.posInf $h | with_reducible exact CCut.negInf $h | with_reducible exact CCut.isNan $h _
  | with_reducible exact emptyI_rcut $h | with_reducible exact wholeI_rcut $h | with_reducible exact testI_rcut $h _
  | with_reducible exact testII_rcut $h _ _ | with_reducible exact testTI_rcut $h _ _
  | with_reducible exact testIT_rcut $h _ _ | with_reducible exact testTT_rcut $h _ _
  | with_reducible exact reItv_rcut $h _ | with_reducible exact ctorT_rcut $h _ | with_reducible exact zeroIn_rcut $h _
  | with_reducible exact negI_rcut $h _ | with_reducible exact absI_rcut $h _ | with_reducible exact intersect_rcut $h _ _
  | with_reducible exact equal_rcut $h _ _ | with_reducible exact CCut.isEmpty $h _ _)

macro "mcut_step" h:term : tactic => `(tactic| first
  | with_reducible exact MCut.refl _
  | assumption
  | (with_reducible refine MCut.lift ?_; rcut_lib (PCut.chk $h))
  | with_reducible refine MCut.ite ?_ ?_
  | with_reducible refine MCut.pair ?_ ?_
  | with_reducible refine MCut.quad ?_ ?_ ?_ ?_
  | with_reducible refine MCut.bind ?_ (fun _ => ?_)
  | with_reducible refine PCut.scope $h ?_)

macro "mcut_auto" h:term : tactic =>
  `(tactic| (simp only [re_rnd, re_unp, re_chk, re_cur, re_unprot]; repeat' (mcut_step $h)))

theorem width_cut (h : PCut G P C') (x : Itv T) : MCut G (width P x) (width (P.recheck C') x) := by
  unfold width
  mcut_auto h

theorem median_cut (h : PCut G P C') (x : Itv T) : MCut G (median P x) (median (P.recheck C') x) := by
  unfold median
  mcut_auto h

theorem widen_cut (h : PCut G P C') (x : Itv T) (v : T) : MCut G (widen P x v) (widen (P.recheck C') x v) := by
  unfold widen mk2
  mcut_auto h

theorem bisect_cut (h : PCut G P C') (x : Itv T) : MCut G (bisect P x) (bisect (P.recheck C') x) := by
  have h1 := median_cut h x
  have h2 := emptyI_rcut h.chk
  have h3 : RCut G (do let a ← emptyI P.chk; let b ← emptyI P.chk; pure (a, b))
      (do let a ← emptyI C'; let b ← emptyI C'; pure (a, b)) := h2.bind fun _ => h2.bind fun _ => RCut.refl _
  unfold bisect
  simp only [re_rnd, re_unp, re_chk, re_cur, re_unprot]
  repeat' first | exact MCut.lift h3 | mcut_step h

theorem addII_cut (h : PCut G P C') (x y : Itv T) : MCut G (addII P x y) (addII (P.recheck C') x y) := by
  unfold addII mk2
  mcut_auto h

theorem addTI_cut (h : PCut G P C') (x : T) (y : Itv T) : MCut G (addTI P x y) (addTI (P.recheck C') x y) := by
  unfold addTI mk2
  mcut_auto h

theorem subII_cut (h : PCut G P C') (x y : Itv T) : MCut G (subII P x y) (subII (P.recheck C') x y) := by
  unfold subII mk2
  mcut_auto h

theorem subTI_cut (h : PCut G P C') (x : T) (y : Itv T) : MCut G (subTI P x y) (subTI (P.recheck C') x y) := by
  unfold subTI mk2
  mcut_auto h

theorem subIT_cut (h : PCut G P C') (x : Itv T) (y : T) : MCut G (subIT P x y) (subIT (P.recheck C') x y) := by
  unfold subIT mk2
  mcut_auto h

theorem addIT_cut (h : PCut G P C') (x : Itv T) (y : T) : MCut G (addIT P x y) (addIT (P.recheck C') x y) := addTI_cut h y x

theorem mulII_cut (h : PCut G P C') (x y : Itv T) : MCut G (mulII P x y) (mulII (P.recheck C') x y) := by
  unfold mulII
  mcut_auto h

theorem mulTI_cut (h : PCut G P C') (x : T) (y : Itv T) : MCut G (mulTI P x y) (mulTI (P.recheck C') x y) := by
  unfold mulTI mk2
  mcut_auto h

theorem mulIT_cut (h : PCut G P C') (x : Itv T) (y : T) : MCut G (mulIT P x y) (mulIT (P.recheck C') x y) := mulTI_cut h y x

theorem divNonZeroII_cut (h : PCut G P C') (x y : Itv T) : MCut G (divNonZeroII P x y) (divNonZeroII (P.recheck C') x y) := by
  unfold divNonZeroII mk2
  mcut_auto h

theorem divNonZeroTI_cut (h : PCut G P C') (x : T) (y : Itv T) : MCut G (divNonZeroTI P x y) (divNonZeroTI (P.recheck C') x y) := by
  unfold divNonZeroTI mk2
  mcut_auto h

theorem divPositiveI_cut (h : PCut G P C') (x : Itv T) (y : T) : MCut G (divPositiveI P x y) (divPositiveI (P.recheck C') x y) := by
  unfold divPositiveI mkNegInf mkPosInf
  mcut_auto h

theorem divPositiveT_cut (h : PCut G P C') (x y : T) : MCut G (divPositiveT P x y) (divPositiveT (P.recheck C') x y) := by
  unfold divPositiveT mkNegInf mkPosInf
  mcut_auto h

theorem divNegativeI_cut (h : PCut G P C') (x : Itv T) (y : T) : MCut G (divNegativeI P x y) (divNegativeI (P.recheck C') x y) := by
  unfold divNegativeI mkNegInf mkPosInf
  mcut_auto h

theorem divNegativeT_cut (h : PCut G P C') (x y : T) : MCut G (divNegativeT P x y) (divNegativeT (P.recheck C') x y) := by
  unfold divNegativeT mkNegInf mkPosInf
  mcut_auto h

theorem divZeroI_cut (h : PCut G P C') (x : Itv T) : MCut G (divZeroI P x) (divZeroI (P.recheck C') x) := by
  unfold divZeroI
  mcut_auto h

theorem divZeroT_cut (h : PCut G P C') (x : T) : MCut G (divZeroT P x) (divZeroT (P.recheck C') x) := by
  unfold divZeroT
  mcut_auto h

theorem divZeroPart1_cut (h : PCut G P C') (x y : Itv T) : MCut G (divZeroPart1 P x y) (divZeroPart1 (P.recheck C') x y) := by
  unfold divZeroPart1 mkNegInf
  mcut_auto h

theorem divZeroPart2_cut (h : PCut G P C') (x y : Itv T) : MCut G (divZeroPart2 P x y) (divZeroPart2 (P.recheck C') x y) := by
  unfold divZeroPart2 mkPosInf
  mcut_auto h

theorem divII_cut (h : PCut G P C') (x y : Itv T) : MCut G (divII P x y) (divII (P.recheck C') x y) := by
  have h1 := divZeroI_cut h x
  have h2 := divNegativeI_cut h x y.lower
  have h3 := divPositiveI_cut h x y.upper
  have h4 := divNonZeroII_cut h x y
  unfold divII
  simp only [re_rnd, re_unp, re_chk, re_cur, re_unprot]
  repeat' first | with_reducible exact h1 | with_reducible exact h2 | with_reducible exact h3 | with_reducible exact h4 | mcut_step h

theorem divTI_cut (h : PCut G P C') (x : T) (y : Itv T) : MCut G (divTI P x y) (divTI (P.recheck C') x y) := by
  have h1 := divZeroT_cut h x
  have h2 := divNegativeT_cut h x y.lower
  have h3 := divPositiveT_cut h x y.upper
  have h4 := divNonZeroTI_cut h x y
  unfold divTI
  simp only [re_rnd, re_unp, re_chk, re_cur, re_unprot]
  repeat' first | with_reducible exact h1 | with_reducible exact h2 | with_reducible exact h3 | with_reducible exact h4 | mcut_step h

theorem divIT_cut (h : PCut G P C') (x : Itv T) (y : T) : MCut G (divIT P x y) (divIT (P.recheck C') x y) := by
  unfold divIT mk2
  mcut_auto h

theorem addTT_cut (h : PCut G P C') (x y : T) : MCut G (addTT P x y) (addTT (P.recheck C') x y) := by
  unfold addTT mk2
  mcut_auto h

theorem subTT_cut (h : PCut G P C') (x y : T) : MCut G (subTT P x y) (subTT (P.recheck C') x y) := by
  unfold subTT mk2
  mcut_auto h

theorem mulTT_cut (h : PCut G P C') (x y : T) : MCut G (mulTT P x y) (mulTT (P.recheck C') x y) := by
  unfold mulTT mk2
  mcut_auto h

theorem divTT_cut (h : PCut G P C') (x y : T) : MCut G (divTT P x y) (divTT (P.recheck C') x y) := by
  unfold divTT mk2
  mcut_auto h

theorem addIInt_cut (h : PCut G P C') (x : Itv T) (n : Int) : MCut G (addIInt P x n) (addIInt (P.recheck C') x n) :=
  (MCut.refl _).bind fun t => addIT_cut h x t

theorem addIntI_cut (h : PCut G P C') (n : Int) (x : Itv T) : MCut G (addIntI P n x) (addIntI (P.recheck C') n x) :=
  (MCut.refl _).bind fun t => addTI_cut h t x

theorem subIInt_cut (h : PCut G P C') (x : Itv T) (n : Int) : MCut G (subIInt P x n) (subIInt (P.recheck C') x n) :=
  (MCut.refl _).bind fun t => subIT_cut h x t

theorem subIntI_cut (h : PCut G P C') (n : Int) (x : Itv T) : MCut G (subIntI P n x) (subIntI (P.recheck C') n x) :=
  (MCut.refl _).bind fun t => subTI_cut h t x

theorem mulIInt_cut (h : PCut G P C') (x : Itv T) (n : Int) : MCut G (mulIInt P x n) (mulIInt (P.recheck C') x n) :=
  (MCut.refl _).bind fun t => mulIT_cut h x t

theorem mulIntI_cut (h : PCut G P C') (n : Int) (x : Itv T) : MCut G (mulIntI P n x) (mulIntI (P.recheck C') n x) :=
  (MCut.refl _).bind fun t => mulTI_cut h t x

theorem divIInt_cut (h : PCut G P C') (x : Itv T) (n : Int) : MCut G (divIInt P x n) (divIInt (P.recheck C') x n) :=
  (MCut.refl _).bind fun t => divIT_cut h x t

theorem divIntI_cut (h : PCut G P C') (n : Int) (x : Itv T) : MCut G (divIntI P n x) (divIntI (P.recheck C') n x) :=
  (MCut.refl _).bind fun t => divTI_cut h t x

theorem backI_cut (h : PCut G P C') (same : Bool) (r : Itv T) : MCut G (backI same P.chk r : M W _) (backI same C' r) := by
  cases same
  · exact MCut.lift (reItv_rcut h.chk r)
  · exact MCut.refl _

theorem fmodAux_cut (h : PCut G P C') (same : Bool) (x y : Itv T) :
    MCut G (fmodAux same P x y) (fmodAux same (P.recheck C') x y) := by
  have h1 := fun n => mulTI_cut h.unprot n y
  have h2 := fun z => subII_cut h.unprot x z
  have h3 := fun r => backI_cut h same r
  unfold fmodAux
  simp only [re_rnd, re_unp, re_chk, re_cur, re_unprot]
  repeat' first | with_reducible exact h1 _ | with_reducible exact h2 _ | with_reducible exact h3 _ | mcut_step h

theorem fmodII_cut (h : PCut G P C') (x y : Itv T) : MCut G (fmodII P x y) (fmodII (P.recheck C') x y) :=
  fmodAux_cut h false x y

theorem fmodIT_cut (h : PCut G P C') (x : Itv T) (y : T) : MCut G (fmodIT P x y) (fmodIT (P.recheck C') x y) := by
  have h1 := fun n z => mulTI_cut h.unprot n z
  have h2 := fun z => subII_cut h.unprot x z
  unfold fmodIT
  simp only [re_rnd, re_unp, re_chk, re_cur, re_unprot]
  repeat' first | with_reducible exact h1 _ _ | with_reducible exact h2 _ | mcut_step h

theorem fmodTI_cut (h : PCut G P C') (x : T) (y : Itv T) : MCut G (fmodTI P x y) (fmodTI (P.recheck C') x y) := by
  have h1 := fun n => mulTI_cut h.unprot n y
  have h2 := fun z => subTI_cut h.unprot x z
  unfold fmodTI
  simp only [re_rnd, re_unp, re_chk, re_cur, re_unprot]
  repeat' first | with_reducible exact h1 _ | with_reducible exact h2 _ | mcut_step h

theorem divisionPart1_cut (h : PCut G P C') (x y : Itv T) : MCut G (divisionPart1 P x y) (divisionPart1 (P.recheck C') x y) := by
  have h1 := divZeroPart1_cut h x y
  have h2 := divNegativeI_cut h x y.lower
  have h3 := divPositiveI_cut h x y.upper
  have h4 := divNonZeroII_cut h x y
  unfold divisionPart1
  simp only [re_rnd, re_unp, re_chk, re_cur, re_unprot]
  repeat' first | with_reducible exact h1 | with_reducible exact h2 | with_reducible exact h3 | with_reducible exact h4 | mcut_step h

theorem divisionPart2_cut (h : PCut G P C') (x y : Itv T) (b : Bool) : MCut G (divisionPart2 P x y b) (divisionPart2 (P.recheck C') x y b) := by
  have h1 := divZeroPart2_cut h x y
  unfold divisionPart2
  simp only [re_rnd, re_unp, re_chk, re_cur, re_unprot]
  repeat' first | with_reducible exact h1 | mcut_step h

theorem multInv_cut (h : PCut G P C') (x : Itv T) : MCut G (multInv P x) (multInv (P.recheck C') x) := by
  unfold multInv mk2 mkNegInf mkPosInf
  mcut_auto h

theorem powNat_cut (h : PCut G P C') (x : Itv T) (n : Nat) : MCut G (powNat P x n) (powNat (P.recheck C') x n) := by
  unfold powNat mk2
  mcut_auto h

theorem powI_cut (h : PCut G P C') (x : Itv T) (n : Int) : MCut G (powI P x n) (powI (P.recheck C') x n) := by
  have h1 := fun n => powNat_cut h x n
  have h2 := fun r => multInv_cut h r
  unfold powI
  simp only [re_rnd, re_unp, re_chk, re_cur, re_unprot]
  repeat' first | with_reducible exact h1 _ | with_reducible exact h2 _ | mcut_step h

theorem sqrtI_cut (h : PCut G P C') (x : Itv T) : MCut G (sqrtI P x) (sqrtI (P.recheck C') x) := by
  unfold sqrtI
  mcut_auto h

theorem squareI_cut (h : PCut G P C') (x : Itv T) : MCut G (squareI P x) (squareI (P.recheck C') x) := by
  unfold squareI
  mcut_auto h

theorem rootStep_cut (h : PCut G P C') (tk x : T) (k : Int) (y : Itv T) :
    MCut G (rootStep P tk x k y) (rootStep (P.recheck C') tk x k y) := by
  unfold rootStep
  refine (median_cut h _).bind fun y0 => (powI_cut h _ _).bind fun p => (subIT_cut h _ _).bind fun num => ?_
  refine (powI_cut h _ _).bind fun q => (mulTI_cut h _ _).bind fun den => (divII_cut h _ _).bind fun d => ?_
  exact (subTI_cut h _ _).bind fun s => MCut.lift (intersect_rcut h.chk _ _)

theorem rootLoop_cut (h : PCut G P C') (tk x : T) (k : Int) (fuel : Nat) (y : Itv T) :
    MCut G (rootLoop P tk x k fuel y) (rootLoop (P.recheck C') tk x k fuel y) := by
  induction fuel generalizing y with
  | zero => exact MCut.refl _
  | succ n ih =>
    unfold rootLoop
    refine (rootStep_cut h _ _ _ _).bind fun yy => ?_
    exact (MCut.lift (equal_rcut h.chk _ _)).bind fun b => MCut.ite (MCut.refl _) (ih _)

theorem rootAux_cut (h : PCut G P C') (fuel : Nat) (x : T) (k : Int) :
    MCut G (rootAux P fuel x k) (rootAux (P.recheck C') fuel x k) :=
  (MCut.refl _).bind fun tk => rootLoop_cut h tk x k fuel _

theorem rootAuxDn_cut (h : PCut G P C') (fuel : Nat) (x : T) (k : Int) : MCut G (rootAuxDn P fuel x k) (rootAuxDn (P.recheck C') fuel x k) := by
  have h1 := fun v => rootAux_cut h fuel v k
  unfold rootAuxDn
  simp only [re_rnd, re_unp, re_chk, re_cur, re_unprot]
  repeat' first | with_reducible exact h1 _ | mcut_step h

theorem rootAuxUp_cut (h : PCut G P C') (fuel : Nat) (x : T) (k : Int) : MCut G (rootAuxUp P fuel x k) (rootAuxUp (P.recheck C') fuel x k) := by
  have h1 := fun v => rootAux_cut h fuel v k
  unfold rootAuxUp
  simp only [re_rnd, re_unp, re_chk, re_cur, re_unprot]
  repeat' first | with_reducible exact h1 _ | mcut_step h

theorem nthRoot_cut (h : PCut G P C') (ndebug : Bool) (fuel : Nat) (x : Itv T) (k : Int) : MCut G (nthRoot P ndebug fuel x k) (nthRoot (P.recheck C') ndebug fuel x k) := by
  have h1 := fun v => rootAuxUp_cut h.unprot fuel v k
  have h2 := fun v => rootAuxDn_cut h.unprot fuel v k
  unfold nthRoot
  simp only [re_rnd, re_unp, re_chk, re_cur, re_unprot]
  repeat' first | with_reducible exact h1 _ | with_reducible exact h2 _ | mcut_step h

/-! ## transc.hpp -/

theorem increasingI_cut (h : PCut G P C') (f : Fn) (x : Itv T) : MCut G (increasingI f P x) (increasingI f (P.recheck C') x) := by
  unfold increasingI mk2
  mcut_auto h

theorem logI_cut (h : PCut G P C') (x : Itv T) : MCut G (logI P x) (logI (P.recheck C') x) := by
  unfold logI
  mcut_auto h

theorem cosAux_cut (K : PiConst T) (same : Bool) (fuel : Nat) (x : Itv T) {P : Policies (M W) T} (h : PCut G P C') :
    MCut G (cosAux K same fuel P x) (cosAux K same fuel (P.recheck C') x) := by
  induction fuel generalizing same x P with
  | zero => exact MCut.refl _
  | succ n ih =>
    have h1 := fun x => fmodAux_cut h.unprot true x (piTwiceI K)
    have h2 := fun x => width_cut h.unprot x
    have h3 := fun x => subII_cut h.unprot x (piI K)
    have h4 := fun x => ih true x h.unprot
    have h5 := fun r => backI_cut h same r
    unfold cosAux
    simp only [re_rnd, re_unp, re_chk, re_cur, re_unprot]
    repeat' first | with_reducible exact h1 _ | with_reducible exact h2 _ | with_reducible exact h3 _ | with_reducible exact h4 _ | with_reducible exact h5 _ | mcut_step h

theorem cosI_cut (h : PCut G P C') (K : PiConst T) (fuel : Nat) (x : Itv T) :
    MCut G (cosI K fuel P x) (cosI K fuel (P.recheck C') x) := cosAux_cut K false fuel x h

theorem sinI_cut (h : PCut G P C') (K : PiConst T) (fuel : Nat) (x : Itv T) : MCut G (sinI K fuel P x) (sinI K fuel (P.recheck C') x) := by
  have h1 := fun x => subII_cut h.unprot x (piHalfI K)
  have h2 := fun x => cosAux_cut K true fuel x h.unprot
  unfold sinI
  simp only [re_rnd, re_unp, re_chk, re_cur, re_unprot]
  repeat' first | with_reducible exact h1 _ | with_reducible exact h2 _ | mcut_step h

theorem tanI_cut (h : PCut G P C') (K : PiConst T) (x : Itv T) : MCut G (tanI K P x) (tanI K (P.recheck C') x) := by
  have h1 := fun x => fmodAux_cut h.unprot true x (piI K)
  have h2 := fun x => subII_cut h.unprot x (piI K)
  unfold tanI
  simp only [re_rnd, re_unp, re_chk, re_cur, re_unprot]
  repeat' first | with_reducible exact h1 _ | with_reducible exact h2 _ | mcut_step h

theorem asinI_cut (h : PCut G P C') (K : PiConst T) (x : Itv T) : MCut G (asinI K P x) (asinI K (P.recheck C') x) := by
  unfold asinI
  mcut_auto h

theorem acosI_cut (h : PCut G P C') (K : PiConst T) (x : Itv T) : MCut G (acosI K P x) (acosI K (P.recheck C') x) := by
  unfold acosI
  mcut_auto h

theorem coshI_cut (h : PCut G P C') (x : Itv T) : MCut G (coshI P x) (coshI (P.recheck C') x) := by
  unfold coshI
  mcut_auto h

theorem acoshI_cut (h : PCut G P C') (x : Itv T) : MCut G (acoshI P x) (acoshI (P.recheck C') x) := by
  unfold acoshI
  mcut_auto h

theorem atanhI_cut (h : PCut G P C') (x : Itv T) : MCut G (atanhI P x) (atanhI (P.recheck C') x) := by
  unfold atanhI
  mcut_auto h

theorem ctorSrc_cut (h : PCut G P C') (v : Src T) : MCut G (ctorSrc P v) (ctorSrc (P.recheck C') v) := by
  unfold ctorSrc
  mcut_auto h

theorem ctorSrc2_cut (h : PCut G P C') (l u : Src T) (le : Bool) : MCut G (ctorSrc2 P l u le) (ctorSrc2 (P.recheck C') l u le) := by
  unfold ctorSrc2
  mcut_auto h

theorem ctorItv_cut (h : PCut G P C') (e : Res Bool) (l u : Src T) : MCut G (ctorItv P e l u) (ctorItv (P.recheck C') e l u) := by
  unfold ctorItv
  mcut_auto h

end BI
