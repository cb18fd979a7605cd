import Verif.Core.Sim
/-! # Simulation theorems for the library functions -/

set_option linter.unusedSectionVars false
set_option linter.unusedSimpArgs false

namespace BI
variable {W : Type} {T : Type} [Num T] {I J : Inv W} {P : Policies (M W) T} {B : Arith Res T} {C : Checking T}

theorem OnlyBase.lift_ofOpt {α : Type} (o : Option α) : OnlyBase (lift (BI.ofOpt o) : Res α) := OnlyBase.ofOpt o

/-- Closes `OnlyBase` goals about rounding operations. -/
macro "only_base" h:term : tactic => `(tactic| first
  | with_reducible exact (ASim.toBaseErr $h).convDown _ | with_reducible exact (ASim.toBaseErr $h).convUp _
  | with_reducible exact (ASim.toBaseErr $h).addDown _ _ | with_reducible exact (ASim.toBaseErr $h).addUp _ _
  | with_reducible exact (ASim.toBaseErr $h).subDown _ _ | with_reducible exact (ASim.toBaseErr $h).subUp _ _
  | with_reducible exact (ASim.toBaseErr $h).mulDown _ _ | with_reducible exact (ASim.toBaseErr $h).mulUp _ _
  | with_reducible exact (ASim.toBaseErr $h).divDown _ _ | with_reducible exact (ASim.toBaseErr $h).divUp _ _
  | with_reducible exact (ASim.toBaseErr $h).fnDown _ _ | with_reducible exact (ASim.toBaseErr $h).fnUp _ _
  | with_reducible exact OnlyBase.pure _ | with_reducible exact OnlyBase.lift_ofOpt _ | with_reducible exact OnlyBase.ofOpt _)

/-- Operations of a rounding object. -/
macro "sim_op" h:term : tactic => `(tactic| first
  | with_reducible exact ASim.s_convDown $h _ | with_reducible exact ASim.s_convUp $h _
  | with_reducible exact ASim.s_addDown $h _ _ | with_reducible exact ASim.s_addUp $h _ _
  | with_reducible exact ASim.s_subDown $h _ _ | with_reducible exact ASim.s_subUp $h _ _
  | with_reducible exact ASim.s_mulDown $h _ _ | with_reducible exact ASim.s_mulUp $h _ _
  | with_reducible exact ASim.s_divDown $h _ _ | with_reducible exact ASim.s_divUp $h _ _
  | with_reducible exact ASim.s_median $h _ _ | with_reducible exact ASim.s_sqrtDown $h _ | with_reducible exact ASim.s_sqrtUp $h _
  | with_reducible exact ASim.s_intDown $h _ | with_reducible exact ASim.s_intUp $h _
  | with_reducible exact ASim.s_fnDown $h _ _ | with_reducible exact ASim.s_fnUp $h _ _)

theorem OnlyBase.pair {α β : Type} {a : Res α} {b : Res β} (ha : OnlyBase a) (hb : OnlyBase b) :
    OnlyBase (BI.pair a b) := ha.bind fun _ => hb.bind fun _ => OnlyBase.pure _

/-- Structural steps. -/
macro "sim_step" h:term : tactic => `(tactic| first
  | with_reducible exact Sim.pure _
  | with_reducible exact Sim.lift _
  | sim_op (PSim.rnd $h)
  | sim_op (PSim.unp $h)
  | assumption
  | with_reducible refine Sim.ite (fun _ => ?_) (fun _ => ?_)
  | with_reducible refine Sim.pair ?_ ?_ ?_ ?_
  | with_reducible refine Sim.quad ?_ ?_ ?_ ?_ ?_ ?_ ?_ ?_
  | with_reducible refine Sim.bind ?_ (fun _ => ?_)
  | with_reducible refine PSim.scope $h ?_
  | only_base (PSim.rnd $h)
  | with_reducible refine OnlyBase.pair ?_ ?_
  | (with_reducible refine OnlyBase.bind ?_ (fun _ => ?_)))

macro "sim_auto" h:term : tactic =>
  `(tactic| (simp only [pure_rnd, pure_unp, pure_scope, pure_chk, pure_unprot]; repeat' (sim_step $h)))

theorem width_sim (h : PSim I J P B C) (x : Itv T) :
    Sim I (width P x) (width (purePolicies B C) x) := by
  obtain rfl := h.chk
  unfold width
  sim_auto h

theorem median_sim (h : PSim I J P B C) (x : Itv T) :
    Sim I (median P x) (median (purePolicies B C) x) := by
  obtain rfl := h.chk
  unfold median
  sim_auto h

theorem widen_sim (h : PSim I J P B C) (x : Itv T) (v : T) :
    Sim I (widen P x v) (widen (purePolicies B C) x v) := by
  obtain rfl := h.chk
  unfold widen mk2
  sim_auto h

theorem bisect_sim (h : PSim I J P B C) (x : Itv T) : Sim I (bisect P x) (bisect (purePolicies B C) x) := by
  have h0 := median_sim h x
  obtain rfl := h.chk
  unfold bisect
  sim_auto h

theorem addII_sim (h : PSim I J P B C) (x y : Itv T) :
    Sim I (addII P x y) (addII (purePolicies B C) x y) := by
  obtain rfl := h.chk
  unfold addII mk2
  sim_auto h

theorem addTI_sim (h : PSim I J P B C) (x : T) (y : Itv T) :
    Sim I (addTI P x y) (addTI (purePolicies B C) x y) := by
  obtain rfl := h.chk
  unfold addTI mk2
  sim_auto h

theorem subII_sim (h : PSim I J P B C) (x y : Itv T) :
    Sim I (subII P x y) (subII (purePolicies B C) x y) := by
  obtain rfl := h.chk
  unfold subII mk2
  sim_auto h

theorem subTI_sim (h : PSim I J P B C) (x : T) (y : Itv T) :
    Sim I (subTI P x y) (subTI (purePolicies B C) x y) := by
  obtain rfl := h.chk
  unfold subTI mk2
  sim_auto h

theorem addIT_sim (h : PSim I J P B C) (x : Itv T) (y : T) :
    Sim I (addIT P x y) (addIT (purePolicies B C) x y) := addTI_sim h y x

theorem subIT_sim (h : PSim I J P B C) (x : Itv T) (y : T) :
    Sim I (subIT P x y) (subIT (purePolicies B C) x y) := by
  obtain rfl := h.chk
  unfold subIT mk2
  sim_auto h

theorem mulII_sim (h : PSim I J P B C) (x y : Itv T) :
    Sim I (mulII P x y) (mulII (purePolicies B C) x y) := by
  obtain rfl := h.chk
  unfold mulII mulBody mk2
  sim_auto h

theorem mulTI_sim (h : PSim I J P B C) (x : T) (y : Itv T) :
    Sim I (mulTI P x y) (mulTI (purePolicies B C) x y) := by
  obtain rfl := h.chk
  unfold mulTI mk2
  sim_auto h

theorem mulIT_sim (h : PSim I J P B C) (x : Itv T) (y : T) :
    Sim I (mulIT P x y) (mulIT (purePolicies B C) x y) := mulTI_sim h y x

theorem divNonZeroII_sim (h : PSim I J P B C) (x y : Itv T) :
    Sim I (divNonZeroII P x y) (divNonZeroII (purePolicies B C) x y) := by
  obtain rfl := h.chk
  unfold divNonZeroII mk2
  sim_auto h

theorem divNonZeroTI_sim (h : PSim I J P B C) (x : T) (y : Itv T) :
    Sim I (divNonZeroTI P x y) (divNonZeroTI (purePolicies B C) x y) := by
  obtain rfl := h.chk
  unfold divNonZeroTI mk2
  sim_auto h

theorem divPositiveI_sim (h : PSim I J P B C) (x : Itv T) (yu : T) :
    Sim I (divPositiveI P x yu) (divPositiveI (purePolicies B C) x yu) := by
  obtain rfl := h.chk
  unfold divPositiveI mkNegInf mkPosInf
  sim_auto h

theorem divPositiveT_sim (h : PSim I J P B C) (x yu : T) :
    Sim I (divPositiveT P x yu) (divPositiveT (purePolicies B C) x yu) := by
  obtain rfl := h.chk
  unfold divPositiveT mkNegInf mkPosInf
  sim_auto h

theorem divNegativeI_sim (h : PSim I J P B C) (x : Itv T) (yu : T) :
    Sim I (divNegativeI P x yu) (divNegativeI (purePolicies B C) x yu) := by
  obtain rfl := h.chk
  unfold divNegativeI mkNegInf mkPosInf
  sim_auto h

theorem divNegativeT_sim (h : PSim I J P B C) (x yu : T) :
    Sim I (divNegativeT P x yu) (divNegativeT (purePolicies B C) x yu) := by
  obtain rfl := h.chk
  unfold divNegativeT mkNegInf mkPosInf
  sim_auto h

theorem divZeroI_sim (h : PSim I J P B C) (x : Itv T) :
    Sim I (divZeroI P x) (divZeroI (purePolicies B C) x) := by
  obtain rfl := h.chk
  unfold divZeroI
  sim_auto h

theorem divZeroT_sim (h : PSim I J P B C) (x : T) :
    Sim I (divZeroT P x) (divZeroT (purePolicies B C) x) := by
  obtain rfl := h.chk
  unfold divZeroT
  sim_auto h

theorem divZeroPart1_sim (h : PSim I J P B C) (x y : Itv T) :
    Sim I (divZeroPart1 P x y) (divZeroPart1 (purePolicies B C) x y) := by
  obtain rfl := h.chk
  unfold divZeroPart1 mkNegInf
  sim_auto h

theorem divZeroPart2_sim (h : PSim I J P B C) (x y : Itv T) :
    Sim I (divZeroPart2 P x y) (divZeroPart2 (purePolicies B C) x y) := by
  obtain rfl := h.chk
  unfold divZeroPart2 mkPosInf
  sim_auto h

theorem divII_sim (h : PSim I J P B C) (x y : Itv T) : Sim I (divII P x y) (divII (purePolicies B C) x y) := by
  have h1 := divZeroI_sim h x
  have h2 := divNegativeI_sim h x y.lower
  have h3 := divPositiveI_sim h x y.upper
  have h4 := divNonZeroII_sim h x y
  obtain rfl := h.chk
  unfold divII
  sim_auto h

theorem divTI_sim (h : PSim I J P B C) (x : T) (y : Itv T) : Sim I (divTI P x y) (divTI (purePolicies B C) x y) := by
  have h1 := divZeroT_sim h x
  have h2 := divNegativeT_sim h x y.lower
  have h3 := divPositiveT_sim h x y.upper
  have h4 := divNonZeroTI_sim h x y
  obtain rfl := h.chk
  unfold divTI
  sim_auto h

theorem divIT_sim (h : PSim I J P B C) (x : Itv T) (y : T) :
    Sim I (divIT P x y) (divIT (purePolicies B C) x y) := by
  obtain rfl := h.chk
  unfold divIT mk2
  sim_auto h

theorem addTT_sim (h : PSim I J P B C) (x y : T) :
    Sim I (addTT P x y) (addTT (purePolicies B C) x y) := by
  obtain rfl := h.chk
  unfold addTT mk2
  sim_auto h

theorem subTT_sim (h : PSim I J P B C) (x y : T) :
    Sim I (subTT P x y) (subTT (purePolicies B C) x y) := by
  obtain rfl := h.chk
  unfold subTT mk2
  sim_auto h

theorem mulTT_sim (h : PSim I J P B C) (x y : T) :
    Sim I (mulTT P x y) (mulTT (purePolicies B C) x y) := by
  obtain rfl := h.chk
  unfold mulTT mk2
  sim_auto h

theorem divTT_sim (h : PSim I J P B C) (x y : T) :
    Sim I (divTT P x y) (divTT (purePolicies B C) x y) := by
  obtain rfl := h.chk
  unfold divTT mk2
  sim_auto h

theorem addIInt_sim (h : PSim I J P B C) (x : Itv T) (n : Int) (hn : ∀ r r', (Num.ofInt r n : Option T) = Num.ofInt r' n) :
    Sim I (addIInt P x n) (addIInt (purePolicies B C) x n) :=
  (h.cur' _ hn).bind fun t => addIT_sim h x t

theorem addIntI_sim (h : PSim I J P B C) (n : Int) (x : Itv T) (hn : ∀ r r', (Num.ofInt r n : Option T) = Num.ofInt r' n) :
    Sim I (addIntI P n x) (addIntI (purePolicies B C) n x) :=
  (h.cur' _ hn).bind fun t => addTI_sim h t x

theorem subIInt_sim (h : PSim I J P B C) (x : Itv T) (n : Int) (hn : ∀ r r', (Num.ofInt r n : Option T) = Num.ofInt r' n) :
    Sim I (subIInt P x n) (subIInt (purePolicies B C) x n) :=
  (h.cur' _ hn).bind fun t => subIT_sim h x t

theorem subIntI_sim (h : PSim I J P B C) (n : Int) (x : Itv T) (hn : ∀ r r', (Num.ofInt r n : Option T) = Num.ofInt r' n) :
    Sim I (subIntI P n x) (subIntI (purePolicies B C) n x) :=
  (h.cur' _ hn).bind fun t => subTI_sim h t x

theorem mulIInt_sim (h : PSim I J P B C) (x : Itv T) (n : Int) (hn : ∀ r r', (Num.ofInt r n : Option T) = Num.ofInt r' n) :
    Sim I (mulIInt P x n) (mulIInt (purePolicies B C) x n) :=
  (h.cur' _ hn).bind fun t => mulIT_sim h x t

theorem mulIntI_sim (h : PSim I J P B C) (n : Int) (x : Itv T) (hn : ∀ r r', (Num.ofInt r n : Option T) = Num.ofInt r' n) :
    Sim I (mulIntI P n x) (mulIntI (purePolicies B C) n x) :=
  (h.cur' _ hn).bind fun t => mulTI_sim h t x

theorem divIInt_sim (h : PSim I J P B C) (x : Itv T) (n : Int) (hn : ∀ r r', (Num.ofInt r n : Option T) = Num.ofInt r' n) :
    Sim I (divIInt P x n) (divIInt (purePolicies B C) x n) :=
  (h.cur' _ hn).bind fun t => divIT_sim h x t

theorem divIntI_sim (h : PSim I J P B C) (n : Int) (x : Itv T) (hn : ∀ r r', (Num.ofInt r n : Option T) = Num.ofInt r' n) :
    Sim I (divIntI P n x) (divIntI (purePolicies B C) n x) :=
  (h.cur' _ hn).bind fun t => divTI_sim h t x

/-! ## arith2.hpp -/

theorem backI_sim (same : Bool) (r : Itv T) : Sim I (backI same C r) (backI same C r) := by
  cases same
  · exact Sim.lift _
  · exact Sim.pure _

theorem fmodAux_sim (h : PSim I J P B C) (same : Bool) (x y : Itv T) :
    Sim I (fmodAux same P x y) (fmodAux same (purePolicies B C) x y) := by
  have h1 := fun n => mulTI_sim h.unprot n y
  have h2 := fun z => subII_sim h.unprot x z
  obtain rfl := h.chk
  unfold fmodAux
  simp only [pure_rnd, pure_unp, pure_scope, pure_chk, pure_unprot]
  repeat' first | with_reducible exact h1 _ | with_reducible exact backI_sim _ _ | with_reducible exact h2 _ | sim_step h

theorem fmodII_sim (h : PSim I J P B C) (x y : Itv T) : Sim I (fmodII P x y) (fmodII (purePolicies B C) x y) :=
  fmodAux_sim h false x y

theorem fmodIT_sim (h : PSim I J P B C) (x : Itv T) (y : T) : Sim I (fmodIT P x y) (fmodIT (purePolicies B C) x y) := by
  have h1 := fun n z => mulTI_sim h.unprot n z
  have h2 := fun z => subII_sim h.unprot x z
  obtain rfl := h.chk
  unfold fmodIT
  simp only [pure_rnd, pure_unp, pure_scope, pure_chk, pure_unprot]
  repeat' first | with_reducible exact h1 _ | with_reducible exact h1 _ _ | with_reducible exact h2 _ | sim_step h

theorem fmodTI_sim (h : PSim I J P B C) (x : T) (y : Itv T) : Sim I (fmodTI P x y) (fmodTI (purePolicies B C) x y) := by
  have h1 := fun n => mulTI_sim h.unprot n y
  have h2 := fun z => subTI_sim h.unprot x z
  obtain rfl := h.chk
  unfold fmodTI
  simp only [pure_rnd, pure_unp, pure_scope, pure_chk, pure_unprot]
  repeat' first | with_reducible exact h1 _ | with_reducible exact h1 _ _ | with_reducible exact h2 _ | sim_step h

theorem divisionPart1_sim (h : PSim I J P B C) (x y : Itv T) :
    Sim I (divisionPart1 P x y) (divisionPart1 (purePolicies B C) x y) := by
  have h1 := divZeroPart1_sim h x y
  have h2 := divNegativeI_sim h x y.lower
  have h3 := divPositiveI_sim h x y.upper
  have h4 := divNonZeroII_sim h x y
  obtain rfl := h.chk
  unfold divisionPart1
  sim_auto h

theorem divisionPart2_sim (h : PSim I J P B C) (x y : Itv T) (b : Bool) :
    Sim I (divisionPart2 P x y b) (divisionPart2 (purePolicies B C) x y b) := by
  have h1 := divZeroPart2_sim h x y
  obtain rfl := h.chk
  unfold divisionPart2
  sim_auto h

theorem multInv_sim (h : PSim I J P B C) (x : Itv T) :
    Sim I (multInv P x) (multInv (purePolicies B C) x) := by
  obtain rfl := h.chk
  unfold multInv mk2 mkNegInf mkPosInf
  sim_auto h

theorem powLoop_sim {f : T → T → M W T} {g : T → T → Res T} (hs : ∀ x y, Sim J (f x y) (g x y)) (n : Nat) (x y : T) :
    Sim J (powLoop f n x y) (powLoop g n x y) := by
  induction n using Nat.strongRecOn generalizing x y with
  | _ n ih =>
    rw [powLoop, powLoop]
    refine Sim.ite (fun _ => Sim.pure _) fun hn => ?_
    refine (hs _ _).bind fun x' => ?_
    refine Sim.bind ?_ fun y' => ih (n / 2) (by omega) _ _
    exact Sim.ite (fun _ => hs _ _) fun _ => Sim.pure _

theorem powLoop_base {g : T → T → Res T} (hs : ∀ x y, OnlyBase (g x y)) (n : Nat) (x y : T) :
    OnlyBase (powLoop g n x y) := by
  induction n using Nat.strongRecOn generalizing x y with
  | _ n ih =>
    rw [powLoop]
    split
    · exact OnlyBase.pure _
    · refine (hs _ _).bind fun x' => OnlyBase.bind ?_ fun y' => ih (n / 2) (by omega) _ _
      split
      · exact hs _ _
      · exact OnlyBase.pure _

theorem powAux_sim {f : T → T → M W T} {g : T → T → Res T} (hs : ∀ x y, Sim J (f x y) (g x y)) (n : Nat) (x : T) :
    Sim J (powAux f x n) (powAux g x n) := powLoop_sim hs _ _ _

theorem powAux_base {g : T → T → Res T} (hs : ∀ x y, OnlyBase (g x y)) (n : Nat) (x : T) :
    OnlyBase (powAux g x n) := powLoop_base hs _ _ _

theorem powNat_sim (h : PSim I J P B C) (x : Itv T) (n : Nat) :
    Sim I (powNat P x n) (powNat (purePolicies B C) x n) := by
  have h1 := fun x => powAux_sim h.rnd.s_mulDown n x
  have h2 := fun x => powAux_sim h.rnd.s_mulUp n x
  have h3 := fun x => powAux_base h.rnd.mulDown n x
  have h4 := fun x => powAux_base h.rnd.mulUp n x
  obtain rfl := h.chk
  unfold powNat mk2 negM
  simp only [pure_rnd, pure_unp, pure_scope, pure_chk, pure_unprot]
  repeat' first | with_reducible exact h1 _ | with_reducible exact h2 _ | with_reducible exact h3 _ | with_reducible exact h4 _ | sim_step h

theorem powI_sim (h : PSim I J P B C) (x : Itv T) (n : Int) :
    Sim I (powI P x n) (powI (purePolicies B C) x n) := by
  have h1 := fun n => powNat_sim h x n
  have h2 := fun r => multInv_sim h r
  obtain rfl := h.chk
  unfold powI
  simp only [pure_rnd, pure_unp, pure_scope, pure_chk, pure_unprot]
  repeat' first | with_reducible exact h1 _ | with_reducible exact h2 _ | sim_step h

theorem sqrtI_sim (h : PSim I J P B C) (x : Itv T) :
    Sim I (sqrtI P x) (sqrtI (purePolicies B C) x) := by
  obtain rfl := h.chk
  unfold sqrtI
  sim_auto h

theorem squareI_sim (h : PSim I J P B C) (x : Itv T) :
    Sim I (squareI P x) (squareI (purePolicies B C) x) := by
  obtain rfl := h.chk
  unfold squareI mk2 negM
  sim_auto h


theorem rootStep_sim (h : PSim I J P B C) (tk x : T) (k : Int) (y : Itv T) :
    Sim I (rootStep P tk x k y) (rootStep (purePolicies B C) tk x k y) := by
  unfold rootStep
  refine (median_sim h _).bind fun y0 => (powI_sim h _ _).bind fun p => (subIT_sim h _ _).bind fun num => ?_
  refine (powI_sim h _ _).bind fun q => (mulTI_sim h _ _).bind fun den => (divII_sim h _ _).bind fun d => ?_
  refine (subTI_sim h _ _).bind fun s => ?_
  rw [h.chk]
  exact Sim.lift _

theorem rootLoop_sim (h : PSim I J P B C) (tk x : T) (k : Int) (fuel : Nat) (y : Itv T) :
    Sim I (rootLoop P tk x k fuel y) (rootLoop (purePolicies B C) tk x k fuel y) := by
  induction fuel generalizing y with
  | zero => exact Sim.lift _
  | succ n ih =>
    unfold rootLoop
    refine (rootStep_sim h _ _ _ _).bind fun yy => ?_
    rw [h.chk]
    refine (Sim.lift _).bind fun b => Sim.ite (fun _ => Sim.pure _) fun _ => ih _

theorem rootAux_sim (h : PSim I J P B C) (fuel : Nat) (x : T) (k : Int)
    (hk : ∀ r r', (Num.ofInt r k : Option T) = Num.ofInt r' k) :
    Sim I (rootAux P fuel x k) (rootAux (purePolicies B C) fuel x k) :=
  (h.cur' _ hk).bind fun tk => rootLoop_sim h tk x k fuel _

/-- Unprotected policies only. -/
theorem rootAuxDn_sim (h : PSim J J P B C) (fuel : Nat) (x : T) (k : Int)
    (hk : ∀ r r', (Num.ofInt r k : Option T) = Num.ofInt r' k) :
    Sim J (rootAuxDn P fuel x k) (rootAuxDn (purePolicies B C) fuel x k) := by
  have h1 := fun v => rootAux_sim h fuel v k hk
  unfold rootAuxDn
  simp only [pure_rnd, pure_unp, pure_scope, pure_chk, pure_unprot]
  repeat' first | with_reducible exact h1 _ | sim_step h

theorem rootAuxUp_sim (h : PSim J J P B C) (fuel : Nat) (x : T) (k : Int)
    (hk : ∀ r r', (Num.ofInt r k : Option T) = Num.ofInt r' k) :
    Sim J (rootAuxUp P fuel x k) (rootAuxUp (purePolicies B C) fuel x k) := by
  have h1 := fun v => rootAux_sim h fuel v k hk
  unfold rootAuxUp
  simp only [pure_rnd, pure_unp, pure_scope, pure_chk, pure_unprot]
  repeat' first | with_reducible exact h1 _ | sim_step h

/-- `nth_root` has no rounding object of its own: the simulation holds for the *inner* invariant only. -/
theorem nthRoot_sim (h : PSim I J P B C) (ndebug : Bool) (fuel : Nat) (x : Itv T) (k : Int)
    (hk : ∀ r r', (Num.ofInt r k : Option T) = Num.ofInt r' k) :
    Sim J (nthRoot P ndebug fuel x k) (nthRoot (purePolicies B C) ndebug fuel x k) := by
  have h1 := fun v => rootAuxUp_sim h.unprot fuel v k hk
  have h2 := fun v => rootAuxDn_sim h.unprot fuel v k hk
  obtain rfl := h.chk
  unfold nthRoot negM
  simp only [pure_rnd, pure_unp, pure_scope, pure_chk, pure_unprot]
  repeat' first | with_reducible exact h1 _ | with_reducible exact h2 _ | sim_step h

/-! ## transc.hpp -/

theorem increasingI_sim (h : PSim I J P B C) (f : Fn) (x : Itv T) :
    Sim I (increasingI f P x) (increasingI f (purePolicies B C) x) := by
  obtain rfl := h.chk
  unfold increasingI mk2
  sim_auto h

theorem logI_sim (h : PSim I J P B C) (x : Itv T) :
    Sim I (logI P x) (logI (purePolicies B C) x) := by
  obtain rfl := h.chk
  unfold logI
  sim_auto h

theorem cosAux_sim (K : PiConst T) (same : Bool) (fuel : Nat) (x : Itv T) {I : Inv W} {P : Policies (M W) T}
    (h : PSim I J P B C) : Sim I (cosAux K same fuel P x) (cosAux K same fuel (purePolicies B C) x) := by
  induction fuel generalizing same x I P with
  | zero => exact Sim.lift _
  | succ n ih =>
    have h1 := fun x => fmodAux_sim h.unprot true x (piTwiceI K)
    have h2 := fun x => width_sim h.unprot x
    have h3 := fun x => subII_sim h.unprot x (piI K)
    have h4 := fun x => ih true x h.unprot
    obtain rfl := h.chk
    unfold cosAux mk2
    simp only [pure_rnd, pure_unp, pure_scope, pure_chk, pure_unprot]
    repeat' first | with_reducible exact h1 _ | with_reducible exact h2 _ | with_reducible exact h3 _ | with_reducible exact h4 _ | with_reducible exact backI_sim _ _ | sim_step h

theorem cosI_sim (K : PiConst T) (fuel : Nat) (x : Itv T) {I : Inv W} {P : Policies (M W) T} (h : PSim I J P B C) :
    Sim I (cosI K fuel P x) (cosI K fuel (purePolicies B C) x) := cosAux_sim K false fuel x h

theorem sinI_sim (h : PSim I J P B C) (K : PiConst T) (fuel : Nat) (x : Itv T) :
    Sim I (sinI K fuel P x) (sinI K fuel (purePolicies B C) x) := by
  have h3 := fun x => subII_sim h.unprot x (piHalfI K)
  have h4 := fun x => cosAux_sim K true fuel x h.unprot
  obtain rfl := h.chk
  unfold sinI
  simp only [pure_rnd, pure_unp, pure_scope, pure_chk, pure_unprot]
  repeat' first | with_reducible exact h3 _ | with_reducible exact h4 _ | sim_step h

theorem tanI_sim (h : PSim I J P B C) (K : PiConst T) (x : Itv T) :
    Sim I (tanI K P x) (tanI K (purePolicies B C) x) := by
  have h1 := fun x => fmodAux_sim h.unprot true x (piI K)
  have h3 := fun x => subII_sim h.unprot x (piI K)
  obtain rfl := h.chk
  unfold tanI mk2 negM
  simp only [pure_rnd, pure_unp, pure_scope, pure_chk, pure_unprot]
  repeat' first | with_reducible exact h1 _ | with_reducible exact h3 _ | sim_step h

theorem asinI_sim (h : PSim I J P B C) (K : PiConst T) (x : Itv T) :
    Sim I (asinI K P x) (asinI K (purePolicies B C) x) := by
  obtain rfl := h.chk
  unfold asinI negM
  sim_auto h

theorem acosI_sim (h : PSim I J P B C) (K : PiConst T) (x : Itv T) :
    Sim I (acosI K P x) (acosI K (purePolicies B C) x) := by
  obtain rfl := h.chk
  unfold acosI
  sim_auto h

theorem coshI_sim (h : PSim I J P B C) (x : Itv T) :
    Sim I (coshI P x) (coshI (purePolicies B C) x) := by
  obtain rfl := h.chk
  unfold coshI mk2 negM
  sim_auto h

theorem acoshI_sim (h : PSim I J P B C) (x : Itv T) :
    Sim I (acoshI P x) (acoshI (purePolicies B C) x) := by
  obtain rfl := h.chk
  unfold acoshI
  sim_auto h

theorem atanhI_sim (h : PSim I J P B C) (x : Itv T) :
    Sim I (atanhI P x) (atanhI (purePolicies B C) x) := by
  obtain rfl := h.chk
  unfold atanhI
  sim_auto h

end BI
