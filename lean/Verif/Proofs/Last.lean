import Verif.Proofs.Catch
/-!
# What every library function leaves behind, whether it returns or throws

`Last I a`: if the invariant holds at the start, it holds at the end and the control words are related; nothing is said
about outcomes.
-/

set_option linter.unusedSectionVars false
set_option linter.unusedVariables false

namespace BI

/-- See the header. -/
def Last {W : Type} (I : Inv W) {α : Type} (a : M W α) : Prop := ∀ s : St W, I.Pre s.cw → I.Rel s.cw (a s).2.cw ∧ I.Pre (a s).2.cw

namespace Last
variable {W : Type} {I : Inv W} {α β γ δ : Type}

theorem lift (r : Res α) : Last I (BI.lift r : M W α) := fun s hs => ⟨I.refl _ hs, hs⟩
theorem pure (a : α) : Last I (Pure.pure a : M W α) := fun s hs => ⟨I.refl _ hs, hs⟩

theorem bind {a : M W α} {f : α → M W β} (ha : Last I a) (hf : ∀ x, Last I (f x)) : Last I (a >>= f) := by
  intro s hs
  obtain ⟨h1, h2⟩ := ha s hs
  change I.Rel _ (M.bind a f s).2.cw ∧ I.Pre (M.bind a f s).2.cw
  unfold M.bind
  rcases he : a s with ⟨o, s'⟩
  rw [he] at h1 h2
  cases o with
  | error e => exact ⟨h1, h2⟩
  | ok x =>
    obtain ⟨k1, k2⟩ := hf x s' h2
    exact ⟨I.trans _ _ _ h1 k1, k2⟩

theorem ite {c : Prop} [Decidable c] {a b : M W α} (h1 : Last I a) (h2 : Last I b) : Last I (if c then a else b) := by
  by_cases h : c
  · rw [if_pos h]; exact h1
  · rw [if_neg h]; exact h2

theorem choose {a b : M W α} (h1 : Last I a) (h2 : Last I b) : Last I (M.choose a b) := fun s hs => by
  unfold M.choose
  by_cases hc : s.sched 0 = true
  · simp only [if_pos hc]; exact h1 ⟨s.cw, fun n => s.sched (n + 1)⟩ hs
  · simp only [if_neg hc]; exact h2 ⟨s.cw, fun n => s.sched (n + 1)⟩ hs

theorem any2 {a : M W α} {b : M W β} (ha : Last I a) (hb : Last I b) : Last I (M.any2 a b) :=
  choose (ha.bind fun _ => hb.bind fun _ => Last.pure _) (hb.bind fun _ => ha.bind fun _ => Last.pure _)

theorem any3 {a : M W α} {b : M W β} {c : M W γ} (ha : Last I a) (hb : Last I b) (hc : Last I c) : Last I (M.any3 a b c) :=
  choose (ha.bind fun _ => (hb.any2 hc).bind fun _ => Last.pure _)
    (choose (hb.bind fun _ => (ha.any2 hc).bind fun _ => Last.pure _) (hc.bind fun _ => (ha.any2 hb).bind fun _ => Last.pure _))

theorem pair {a : M W α} {b : M W β} (ha : Last I a) (hb : Last I b) : Last I (BI.pair a b) := ha.any2 hb

theorem quad {a : M W α} {b : M W β} {c : M W γ} {d : M W δ} (ha : Last I a) (hb : Last I b) (hc : Last I c) (hd : Last I d) :
    Last I (BI.quad a b c d) :=
  choose (choose (ha.bind fun _ => (hb.any3 hc hd).bind fun _ => Last.pure _) (hb.bind fun _ => (ha.any3 hc hd).bind fun _ => Last.pure _))
    (choose (hc.bind fun _ => (ha.any3 hb hd).bind fun _ => Last.pure _) (hd.bind fun _ => (ha.any3 hb hc).bind fun _ => Last.pure _))

theorem attempt {a : M W α} (h : Last I a) : Last I (Catch.attempt a : M W (Res α)) := fun s hs => h s hs
end Last

/-- The operations of a rounding policy. -/
structure AHold {W T : Type} (J : Inv W) (A : Arith (M W) T) : Prop where
  sqrtDown : ∀ x, Last J (A.sqrtDown x)
  sqrtUp : ∀ x, Last J (A.sqrtUp x)
  intDown : ∀ x, Last J (A.intDown x)
  intUp : ∀ x, Last J (A.intUp x)
  convDown : ∀ x, Last J (A.convDown x)
  convUp : ∀ x, Last J (A.convUp x)
  addDown : ∀ x y, Last J (A.addDown x y)
  addUp : ∀ x y, Last J (A.addUp x y)
  subDown : ∀ x y, Last J (A.subDown x y)
  subUp : ∀ x y, Last J (A.subUp x y)
  mulDown : ∀ x y, Last J (A.mulDown x y)
  mulUp : ∀ x y, Last J (A.mulUp x y)
  divDown : ∀ x y, Last J (A.divDown x y)
  divUp : ∀ x y, Last J (A.divUp x y)
  median : ∀ x y, Last J (A.median x y)
  fnDown : ∀ x y, Last J (A.fnDown x y)
  fnUp : ∀ x y, Last J (A.fnUp x y)

/-- What the proofs need: `I` outside of rounding objects, `J` inside. -/
structure PHold {W T : Type} (I J : Inv W) (P : Policies (M W) T) : Prop where
  scope : ∀ {α : Type} {a : M W α}, Last J a → Last I (P.rnd.scope a)
  scopeU : ∀ {α : Type} {a : M W α}, Last J a → Last J (P.unp.scope a)
  rnd : AHold J P.rnd.toArith
  unp : AHold J P.unp.toArith
  cur : ∀ {α : Type} (f : RMode → Option α), Last I (P.cur f)
  curJ : ∀ {α : Type} (f : RMode → Option α), Last J (P.cur f)

variable {W : Type} {T : Type} [Num T] {I J : Inv W} {P : Policies (M W) T}

theorem PHold.unprot (h : PHold I J P) : PHold J J P.unprot := ⟨h.scopeU, h.scopeU, h.unp, h.unp, h.curJ, h.curJ⟩

theorem negM_last (I : Inv W) (x : T) : Last I (negM x : M W T) := Last.lift _

theorem mk2_last {a b : M W T} (ha : Last I a) (hb : Last I b) : Last I (mk2 a b) := by
  unfold mk2; exact (ha.pair hb).bind fun _ => Last.pure _

macro "last_step" h:term : tactic => `(tactic| first
  | with_reducible exact Last.lift _
  | with_reducible exact Last.pure _
  | assumption
  | with_reducible exact negM_last _ _
  | with_reducible refine mk2_last ?_ ?_
  | with_reducible exact AHold.sqrtDown (PHold.rnd $h) _
  | with_reducible exact AHold.sqrtUp (PHold.rnd $h) _
  | with_reducible exact AHold.intDown (PHold.rnd $h) _
  | with_reducible exact AHold.intUp (PHold.rnd $h) _
  | with_reducible exact AHold.convDown (PHold.rnd $h) _
  | with_reducible exact AHold.convUp (PHold.rnd $h) _
  | with_reducible exact AHold.addDown (PHold.rnd $h) _ _
  | with_reducible exact AHold.addUp (PHold.rnd $h) _ _
  | with_reducible exact AHold.subDown (PHold.rnd $h) _ _
  | with_reducible exact AHold.subUp (PHold.rnd $h) _ _
  | with_reducible exact AHold.mulDown (PHold.rnd $h) _ _
  | with_reducible exact AHold.mulUp (PHold.rnd $h) _ _
  | with_reducible exact AHold.divDown (PHold.rnd $h) _ _
  | with_reducible exact AHold.divUp (PHold.rnd $h) _ _
  | with_reducible exact AHold.median (PHold.rnd $h) _ _
  | with_reducible exact AHold.fnDown (PHold.rnd $h) _ _
  | with_reducible exact AHold.fnUp (PHold.rnd $h) _ _
  | with_reducible exact PHold.cur $h _
  | with_reducible exact PHold.curJ $h _
  | with_reducible refine Last.ite ?_ ?_
  | with_reducible refine Last.pair ?_ ?_
  | with_reducible refine Last.quad ?_ ?_ ?_ ?_
  | with_reducible refine Last.bind ?_ (fun _ => ?_)
  | with_reducible refine PHold.scope $h ?_)

macro "last_auto" h:term : tactic => `(tactic| repeat' (last_step $h))

theorem width_last (h : PHold I J P) (x : Itv T) : Last I (width P x) := by
  unfold width
  last_auto h

theorem median_last (h : PHold I J P) (x : Itv T) : Last I (median P x) := by
  unfold median
  last_auto h

theorem widen_last (h : PHold I J P) (x : Itv T) (v : T) : Last I (widen P x v) := by
  unfold widen mk2
  last_auto h

theorem bisect_last (h : PHold I J P) (x : Itv T) : Last I (bisect P x) := by
  have h1 := median_last h x
  unfold bisect
  last_auto h

theorem addII_last (h : PHold I J P) (x y : Itv T) : Last I (addII P x y) := by
  unfold addII mk2
  last_auto h

theorem addTI_last (h : PHold I J P) (x : T) (y : Itv T) : Last I (addTI P x y) := by
  unfold addTI mk2
  last_auto h

theorem subII_last (h : PHold I J P) (x y : Itv T) : Last I (subII P x y) := by
  unfold subII mk2
  last_auto h

theorem subTI_last (h : PHold I J P) (x : T) (y : Itv T) : Last I (subTI P x y) := by
  unfold subTI mk2
  last_auto h

theorem subIT_last (h : PHold I J P) (x : Itv T) (y : T) : Last I (subIT P x y) := by
  unfold subIT mk2
  last_auto h

theorem addIT_last (h : PHold I J P) (x : Itv T) (y : T) : Last I (addIT P x y) := addTI_last h y x

theorem mulII_last (h : PHold I J P) (x y : Itv T) : Last I (mulII P x y) := by
  unfold mulII mulBody mk2
  last_auto h

theorem mulTI_last (h : PHold I J P) (x : T) (y : Itv T) : Last I (mulTI P x y) := by
  unfold mulTI mk2
  last_auto h

theorem mulIT_last (h : PHold I J P) (x : Itv T) (y : T) : Last I (mulIT P x y) := mulTI_last h y x

theorem divNonZeroII_last (h : PHold I J P) (x y : Itv T) : Last I (divNonZeroII P x y) := by
  unfold divNonZeroII mk2
  last_auto h

theorem divNonZeroTI_last (h : PHold I J P) (x : T) (y : Itv T) : Last I (divNonZeroTI P x y) := by
  unfold divNonZeroTI mk2
  last_auto h

theorem divPositiveI_last (h : PHold I J P) (x : Itv T) (y : T) : Last I (divPositiveI P x y) := by
  unfold divPositiveI mkNegInf mkPosInf
  last_auto h

theorem divPositiveT_last (h : PHold I J P) (x y : T) : Last I (divPositiveT P x y) := by
  unfold divPositiveT mkNegInf mkPosInf
  last_auto h

theorem divNegativeI_last (h : PHold I J P) (x : Itv T) (y : T) : Last I (divNegativeI P x y) := by
  unfold divNegativeI mkNegInf mkPosInf
  last_auto h

theorem divNegativeT_last (h : PHold I J P) (x y : T) : Last I (divNegativeT P x y) := by
  unfold divNegativeT mkNegInf mkPosInf
  last_auto h

theorem divZeroI_last (h : PHold I J P) (x : Itv T) : Last I (divZeroI P x) := by
  unfold divZeroI
  last_auto h

theorem divZeroT_last (h : PHold I J P) (x : T) : Last I (divZeroT P x) := by
  unfold divZeroT
  last_auto h

theorem divZeroPart1_last (h : PHold I J P) (x y : Itv T) : Last I (divZeroPart1 P x y) := by
  unfold divZeroPart1 mkNegInf
  last_auto h

theorem divZeroPart2_last (h : PHold I J P) (x y : Itv T) : Last I (divZeroPart2 P x y) := by
  unfold divZeroPart2 mkPosInf
  last_auto h

theorem divII_last (h : PHold I J P) (x y : Itv T) : Last I (divII P x y) := by
  have h1 := divZeroI_last h x
  have h2 := divNegativeI_last h x y.lower
  have h3 := divPositiveI_last h x y.upper
  have h4 := divNonZeroII_last h x y
  unfold divII
  repeat' first | with_reducible exact h1 | with_reducible exact h2 | with_reducible exact h3 | with_reducible exact h4 | last_step h

theorem divTI_last (h : PHold I J P) (x : T) (y : Itv T) : Last I (divTI P x y) := by
  have h1 := divZeroT_last h x
  have h2 := divNegativeT_last h x y.lower
  have h3 := divPositiveT_last h x y.upper
  have h4 := divNonZeroTI_last h x y
  unfold divTI
  repeat' first | with_reducible exact h1 | with_reducible exact h2 | with_reducible exact h3 | with_reducible exact h4 | last_step h

theorem divIT_last (h : PHold I J P) (x : Itv T) (y : T) : Last I (divIT P x y) := by
  unfold divIT mk2
  last_auto h

theorem addTT_last (h : PHold I J P) (x y : T) : Last I (addTT P x y) := by
  unfold addTT mk2
  last_auto h

theorem subTT_last (h : PHold I J P) (x y : T) : Last I (subTT P x y) := by
  unfold subTT mk2
  last_auto h

theorem mulTT_last (h : PHold I J P) (x y : T) : Last I (mulTT P x y) := by
  unfold mulTT mk2
  last_auto h

theorem divTT_last (h : PHold I J P) (x y : T) : Last I (divTT P x y) := by
  unfold divTT mk2
  last_auto h

theorem addIInt_last (h : PHold I J P) (x : Itv T) (n : Int) : Last I (addIInt P x n) :=
  (h.cur _).bind fun t => addIT_last h x t

theorem addIntI_last (h : PHold I J P) (n : Int) (x : Itv T) : Last I (addIntI P n x) :=
  (h.cur _).bind fun t => addTI_last h t x

theorem subIInt_last (h : PHold I J P) (x : Itv T) (n : Int) : Last I (subIInt P x n) :=
  (h.cur _).bind fun t => subIT_last h x t

theorem subIntI_last (h : PHold I J P) (n : Int) (x : Itv T) : Last I (subIntI P n x) :=
  (h.cur _).bind fun t => subTI_last h t x

theorem mulIInt_last (h : PHold I J P) (x : Itv T) (n : Int) : Last I (mulIInt P x n) :=
  (h.cur _).bind fun t => mulIT_last h x t

theorem mulIntI_last (h : PHold I J P) (n : Int) (x : Itv T) : Last I (mulIntI P n x) :=
  (h.cur _).bind fun t => mulTI_last h t x

theorem divIInt_last (h : PHold I J P) (x : Itv T) (n : Int) : Last I (divIInt P x n) :=
  (h.cur _).bind fun t => divIT_last h x t

theorem divIntI_last (h : PHold I J P) (n : Int) (x : Itv T) : Last I (divIntI P n x) :=
  (h.cur _).bind fun t => divTI_last h t x

theorem backI_last (I : Inv W) (same : Bool) (C : Checking T) (r : Itv T) : Last I (backI same C r : M W _) := by
  cases same
  · exact Last.lift _
  · exact Last.pure _

theorem fmodAux_last (h : PHold I J P) (same : Bool) (x y : Itv T) :
    Last I (fmodAux same P x y) := by
  have h1 := fun n => mulTI_last h.unprot n y
  have h2 := fun z => subII_last h.unprot x z
  have h3 := fun r => backI_last J same P.chk r
  unfold fmodAux
  repeat' first | with_reducible exact h1 _ | with_reducible exact h2 _ | with_reducible exact h3 _ | last_step h

theorem fmodII_last (h : PHold I J P) (x y : Itv T) : Last I (fmodII P x y) :=
  fmodAux_last h false x y

theorem fmodIT_last (h : PHold I J P) (x : Itv T) (y : T) : Last I (fmodIT P x y) := by
  have h1 := fun n z => mulTI_last h.unprot n z
  have h2 := fun z => subII_last h.unprot x z
  unfold fmodIT
  repeat' first | with_reducible exact h1 _ _ | with_reducible exact h2 _ | last_step h

theorem fmodTI_last (h : PHold I J P) (x : T) (y : Itv T) : Last I (fmodTI P x y) := by
  have h1 := fun n => mulTI_last h.unprot n y
  have h2 := fun z => subTI_last h.unprot x z
  unfold fmodTI
  repeat' first | with_reducible exact h1 _ | with_reducible exact h2 _ | last_step h

theorem divisionPart1_last (h : PHold I J P) (x y : Itv T) : Last I (divisionPart1 P x y) := by
  have h1 := divZeroPart1_last h x y
  have h2 := divNegativeI_last h x y.lower
  have h3 := divPositiveI_last h x y.upper
  have h4 := divNonZeroII_last h x y
  unfold divisionPart1
  repeat' first | with_reducible exact h1 | with_reducible exact h2 | with_reducible exact h3 | with_reducible exact h4 | last_step h

theorem divisionPart2_last (h : PHold I J P) (x y : Itv T) (b : Bool) : Last I (divisionPart2 P x y b) := by
  have h1 := divZeroPart2_last h x y
  unfold divisionPart2
  repeat' first | with_reducible exact h1 | last_step h

theorem multInv_last (h : PHold I J P) (x : Itv T) : Last I (multInv P x) := by
  unfold multInv mk2 mkNegInf mkPosInf
  last_auto h

theorem powLoop_last {f : T → T → M W T} (hs : ∀ x y, Last J (f x y)) (n : Nat) (x y : T) : Last J (powLoop f n x y) := by
  induction n using Nat.strongRecOn generalizing x y with
  | _ n ih =>
    rw [powLoop]
    by_cases hn : n = 0
    · rw [if_pos hn]; exact Last.pure _
    rw [if_neg hn]
    refine (hs _ _).bind fun x' => ?_
    refine Last.bind ?_ fun y' => ih (n / 2) (by omega) _ _
    exact Last.ite (hs _ _) (Last.pure _)

theorem powNat_last (h : PHold I J P) (x : Itv T) (n : Nat) : Last I (powNat P x n) := by
  have h1 := fun x => powLoop_last h.rnd.mulDown (n / 2) x
  have h2 := fun x => powLoop_last h.rnd.mulUp (n / 2) x
  unfold powNat mk2 negM powAux
  repeat' first | with_reducible exact h1 _ _ | with_reducible exact h2 _ _ | last_step h

theorem powI_last (h : PHold I J P) (x : Itv T) (n : Int) : Last I (powI P x n) := by
  have h1 := fun n => powNat_last h x n
  have h2 := fun r => multInv_last h r
  unfold powI
  repeat' first | with_reducible exact h1 _ | with_reducible exact h2 _ | last_step h

theorem sqrtI_last (h : PHold I J P) (x : Itv T) : Last I (sqrtI P x) := by
  unfold sqrtI
  last_auto h

theorem squareI_last (h : PHold I J P) (x : Itv T) : Last I (squareI P x) := by
  unfold squareI
  last_auto h

theorem rootStep_last (h : PHold I J P) (tk x : T) (k : Int) (y : Itv T) :
    Last I (rootStep P tk x k y) := by
  unfold rootStep
  refine (median_last h _).bind fun y0 => (powI_last h _ _).bind fun p => (subIT_last h _ _).bind fun num => ?_
  refine (powI_last h _ _).bind fun q => (mulTI_last h _ _).bind fun den => (divII_last h _ _).bind fun d => ?_
  exact (subTI_last h _ _).bind fun s => Last.lift _

theorem rootLoop_last (h : PHold I J P) (tk x : T) (k : Int) (fuel : Nat) (y : Itv T) :
    Last I (rootLoop P tk x k fuel y) := by
  induction fuel generalizing y with
  | zero => exact Last.lift _
  | succ n ih =>
    unfold rootLoop
    refine (rootStep_last h _ _ _ _).bind fun yy => ?_
    exact (Last.lift _).bind fun b => Last.ite (Last.lift _) (ih _)

theorem rootAux_last (h : PHold I J P) (fuel : Nat) (x : T) (k : Int) :
    Last I (rootAux P fuel x k) :=
  (h.cur _).bind fun tk => rootLoop_last h tk x k fuel _

theorem rootAuxDn_last (h : PHold J J P) (fuel : Nat) (x : T) (k : Int) : Last J (rootAuxDn P fuel x k) := by
  have h1 := fun v => rootAux_last h fuel v k
  unfold rootAuxDn
  repeat' first | with_reducible exact h1 _ | last_step h

theorem rootAuxUp_last (h : PHold J J P) (fuel : Nat) (x : T) (k : Int) : Last J (rootAuxUp P fuel x k) := by
  have h1 := fun v => rootAux_last h fuel v k
  unfold rootAuxUp
  repeat' first | with_reducible exact h1 _ | last_step h

theorem nthRoot_last (h : PHold J J P) (ndebug : Bool) (fuel : Nat) (x : Itv T) (k : Int) : Last J (nthRoot P ndebug fuel x k) := by
  have h1 := fun v => rootAuxUp_last h.unprot fuel v k
  have h2 := fun v => rootAuxDn_last h.unprot fuel v k
  unfold nthRoot
  repeat' first | with_reducible exact h1 _ | with_reducible exact h2 _ | last_step h

/-! ## transc.hpp -/

theorem increasingI_last (h : PHold I J P) (f : Fn) (x : Itv T) : Last I (increasingI f P x) := by
  unfold increasingI mk2
  last_auto h

theorem logI_last (h : PHold I J P) (x : Itv T) : Last I (logI P x) := by
  unfold logI
  last_auto h

theorem cosAux_last (K : PiConst T) (same : Bool) (fuel : Nat) (x : Itv T) {I : Inv W} {P : Policies (M W) T}
    (h : PHold I J P) : Last I (cosAux K same fuel P x) := by
  induction fuel generalizing same x P I with
  | zero => exact Last.lift _
  | succ n ih =>
    have h1 := fun x => fmodAux_last h.unprot true x (piTwiceI K)
    have h2 := fun x => width_last h.unprot x
    have h3 := fun x => subII_last h.unprot x (piI K)
    have h4 := fun x => ih true x h.unprot
    have h5 := fun r => backI_last J same P.chk r
    unfold cosAux
    repeat' first | with_reducible exact h1 _ | with_reducible exact h2 _ | with_reducible exact h3 _ | with_reducible exact h4 _ | with_reducible exact h5 _ | last_step h

theorem cosI_last (h : PHold I J P) (K : PiConst T) (fuel : Nat) (x : Itv T) :
    Last I (cosI K fuel P x) := cosAux_last K false fuel x h

theorem sinI_last (h : PHold I J P) (K : PiConst T) (fuel : Nat) (x : Itv T) : Last I (sinI K fuel P x) := by
  have h1 := fun x => subII_last h.unprot x (piHalfI K)
  have h2 := fun x => cosAux_last K true fuel x h.unprot
  unfold sinI
  repeat' first | with_reducible exact h1 _ | with_reducible exact h2 _ | last_step h

theorem tanI_last (h : PHold I J P) (K : PiConst T) (x : Itv T) : Last I (tanI K P x) := by
  have h1 := fun x => fmodAux_last h.unprot true x (piI K)
  have h2 := fun x => subII_last h.unprot x (piI K)
  unfold tanI
  repeat' first | with_reducible exact h1 _ | with_reducible exact h2 _ | last_step h

theorem asinI_last (h : PHold I J P) (K : PiConst T) (x : Itv T) : Last I (asinI K P x) := by
  unfold asinI
  last_auto h

theorem acosI_last (h : PHold I J P) (K : PiConst T) (x : Itv T) : Last I (acosI K P x) := by
  unfold acosI
  last_auto h

theorem coshI_last (h : PHold I J P) (x : Itv T) : Last I (coshI P x) := by
  unfold coshI
  last_auto h

theorem acoshI_last (h : PHold I J P) (x : Itv T) : Last I (acoshI P x) := by
  unfold acoshI
  last_auto h

theorem atanhI_last (h : PHold I J P) (x : Itv T) : Last I (atanhI P x) := by
  unfold atanhI
  last_auto h

theorem ctorSrc_last (h : PHold I J P) (v : Src T) : Last I (ctorSrc P v) := by
  unfold ctorSrc
  last_auto h

theorem ctorSrc2_last (h : PHold I J P) (l u : Src T) (le : Bool) : Last I (ctorSrc2 P l u le) := by
  unfold ctorSrc2
  last_auto h

theorem ctorItv_last (h : PHold I J P) (e : Res Bool) (l u : Src T) : Last I (ctorItv P e l u) := by
  unfold ctorItv
  last_auto h

theorem Call.last {i : Bool} (h : PHold I J P) (hi : i = true → I = J) {α : Type} (c : Call T α) (hc : c.Protected i) :
    Last I (c.run P) := by
  cases c with
  | addII x y => exact addII_last h x y
  | addTI x y => exact addTI_last h x y
  | addIT x y => exact addIT_last h x y
  | subII x y => exact subII_last h x y
  | subTI x y => exact subTI_last h x y
  | subIT x y => exact subIT_last h x y
  | mulII x y => exact mulII_last h x y
  | mulTI x y => exact mulTI_last h x y
  | mulIT x y => exact mulIT_last h x y
  | divII x y => exact divII_last h x y
  | divTI x y => exact divTI_last h x y
  | divIT x y => exact divIT_last h x y
  | addTT x y => exact addTT_last h x y
  | subTT x y => exact subTT_last h x y
  | mulTT x y => exact mulTT_last h x y
  | divTT x y => exact divTT_last h x y
  | addIInt x n => exact addIInt_last h x n
  | addIntI n y => exact addIntI_last h n y
  | subIInt x n => exact subIInt_last h x n
  | subIntI n y => exact subIntI_last h n y
  | mulIInt x n => exact mulIInt_last h x n
  | mulIntI n y => exact mulIntI_last h n y
  | divIInt x n => exact divIInt_last h x n
  | divIntI n y => exact divIntI_last h n y
  | fmodII x y => exact fmodII_last h x y
  | fmodIT x y => exact fmodIT_last h x y
  | fmodTI x y => exact fmodTI_last h x y
  | divisionPart1 x y => exact divisionPart1_last h x y
  | divisionPart2 x y b => exact divisionPart2_last h x y b
  | multInv x => exact multInv_last h x
  | pow x k => exact powI_last h x k
  | sqrt x => exact sqrtI_last h x
  | square x => exact squareI_last h x
  | nthRoot nd fuel x k => obtain rfl := hi hc; exact nthRoot_last h nd fuel x k
  | width x => exact width_last h x
  | median x => exact median_last h x
  | widen x v => exact widen_last h x v
  | bisect x => exact bisect_last h x
  | exp x => exact increasingI_last h .exp x
  | log x => exact logI_last h x
  | cos K fuel x => exact cosI_last h K fuel x
  | sin K fuel x => exact sinI_last h K fuel x
  | tan K x => exact tanI_last h K x
  | asin K x => exact asinI_last h K x
  | acos K x => exact acosI_last h K x
  | atan x => exact increasingI_last h .atan x
  | sinh x => exact increasingI_last h .sinh x
  | cosh x => exact coshI_last h x
  | tanh x => exact increasingI_last h .tanh x
  | asinh x => exact increasingI_last h .asinh x
  | acosh x => exact acoshI_last h x
  | atanh x => exact atanhI_last h x
  | ctorSrc v => exact ctorSrc_last h v
  | ctorSrc2 l u le => exact ctorSrc2_last h l u le
  | ctorItv e l u => exact ctorItv_last h e l u
  | chk f => exact Last.lift _


theorem Prog.last {i : Bool} {α : Type} (p : Prog T α) {I : Inv W} {P : Policies (M W) T} (h : PHold I J P)
    (hi : i = true → I = J) (hp : p.All (fun i => Call.Protected i) i) : Last I (p.run P) := by
  induction p generalizing I P i with
  | ret a => exact Last.pure _
  | fail e => exact Last.lift _
  | call c k ih => exact (c.last h hi hp.1).bind fun b => ih b h hi (hp.2 b)
  | region body k ih ih' => exact (h.scope (ih h.unprot (fun _ => rfl) hp.1)).bind fun b => ih' b h hi (hp.2 b)

theorem TProg.last {i : Bool} {α : Type} (p : TProg T α) {I I' : Inv W} {P P0 : Policies (M W) T} (h0 : PHold I' J P0)
    (hJ : ∀ {β : Type} {a : M W β}, Last I' a → Last J a) (hI : ∀ {β : Type} {a : M W β}, Last I' a → Last I a)
    (h : PHold I J P) (hi : i = true → I = J) (hp : p.All (fun i => Call.Protected i) i) : Last I (p.run P0 P) := by
  induction p generalizing I P i with
  | ret a => unfold TProg.run; exact Last.pure _
  | fail e => unfold TProg.run; exact Last.lift _
  | call b c k ih =>
    unfold TProg.run
    refine Last.bind ?_ fun b => ih b hI h hi (hp.2 b)
    cases b with
    | true => exact hI (c.last h0 (i := false) (fun h => by cases h) (by simpa using hp.1))
    | false => exact c.last h hi (by simpa using hp.1)
  | region b body k ih ih' =>
    unfold TProg.run
    refine Last.bind ?_ fun b => ih' b hI h hi (hp.2 b)
    have hb := ih hJ h.unprot (fun _ => rfl) hp.1
    cases b with
    | true => exact hI (h0.scope hb)
    | false => exact h.scope hb
  | attempt body k ih ih' =>
    unfold TProg.run
    refine Last.bind (ih hI h hi hp.1).attempt fun r => ?_
    cases r with
    | ok b => exact ih' _ hI h hi (hp.2 _)
    | error e => exact Last.ite (ih' _ hI h hi (hp.2 _)) (Last.lift _)

/-! ## The policies of the library -/

section
variable {c : Ctl} {L : CtlLaws c}

theorem evalIn_last (I : Inv c.W) {α : Type} (f : RMode → Option α) : Last I (evalIn c f) := fun _ hs => ⟨I.refl _ hs, hs⟩

theorem dn_last {α : Type} (f : RMode → Option α) : Last (inner L .std) (dn c f) := fun s hs =>
  ⟨((dn_sim (L := L) f) s hs).2.1, ((dn_simC (L := L) f) s hs).2.1.2 hs⟩

theorem upw_last {α : Type} (f : RMode → Option α) : Last (inner L .std) (upw c f) := fun s hs =>
  ⟨((upw_sim (L := L) f) s hs).2.1, ((upw_simC (L := L) f) s hs).2.1.2 hs⟩

theorem nr_last {α : Type} (f : RMode → Option α) : Last (inner L .std) (nr c f) := fun s hs =>
  ⟨((nr_sim (L := L) f) s hs).2.1, ((nr_simC (L := L) f) s hs).2.1.2 hs⟩

theorem upNeg_last (f : RMode → Option T) : Last (inner L .std) (upNeg c f) := (evalIn_last _ f).bind fun _ => Last.lift _

theorem up_last : Last (inner L .std) (M.modify c.upward) := fun s hs =>
  ⟨L.same_up _ hs.1, L.valid_up _ hs.1, fun h => by cases h⟩

theorem dnUp_last {α : Type} (f : RMode → Option α) : Last (inner L .std) (dnUp c f) :=
  (dn_last f).bind fun _ => up_last.bind fun _ => Last.pure _

theorem nrUp_last {α : Type} (f : RMode → Option α) : Last (inner L .std) (nrUp c f) :=
  (nr_last f).bind fun _ => up_last.bind fun _ => Last.pure _

theorem arithOf_last (k : RKind) (lib : Lib T) : AHold (inner L .std) (arithOf c k lib) := by
  cases k with
  | exact => constructor <;> intros <;> first | exact evalIn_last _ _ | exact Last.pure _ | exact Last.lift _
  | std => constructor <;> intros <;> first | exact dn_last _ | exact upw_last _ | exact nr_last _
  | opp =>
    constructor
    case fnDown =>
      intro f x
      change Last _ ((transcOpp c lib).1 f x)
      unfold transcOpp
      dsimp only
      refine Last.ite ?_ (dnUp_last _)
      exact (evalIn_last _ _).bind fun v => (Last.lift _).bind fun nv => Last.lift _
    all_goals intros; first | exact dnUp_last _ | exact nrUp_last _ | exact upNeg_last _ | exact evalIn_last _ _ | exact Last.lift _

theorem scope_last (k : RKind) (A : Arith (M c.W) T) {α : Type} {a : M c.W α} (h : Last (inner L .std) a) :
    Last (outer L) ((saveState (T := T) c (initOf c k) A).scope a) := by
  intro s hs
  have hv : L.valid (initOf c k s.cw) := by cases k <;> first | exact hs | exact L.valid_up _ hs
  have hsm : L.same s.cw (initOf c k s.cw) := by cases k <;> first | exact L.same_refl _ | exact L.same_up _ hs
  have h2 := (h { s with cw := initOf c k s.cw } ⟨hv, fun h => by cases h⟩).1
  have e : ((saveState c (initOf c k) A).scope a s).2.cw = c.set (c.get s.cw) (a { s with cw := initOf c k s.cw }).2.cw := rfl
  have hr := L.restore s.cw _ hs (L.same_trans _ _ _ hsm h2)
  rw [e, hr]
  exact ⟨rfl, hs⟩
end

theorem Last.anywhere {c : Ctl} {L : CtlLaws c} {I : Inv c.W} (hI : ∀ w, I.Pre w → L.valid w) {α : Type} {a : M c.W α}
    (h : Last (outer L) a) : Last I a := by
  intro s hs
  have e : s.cw = (a s).2.cw := (h s (hI _ hs)).1
  exact ⟨e ▸ I.refl _ hs, e ▸ hs⟩

theorem Env.hold (V : Env T) : ∃ J, PHold (outer V.laws) J V.P ∧ ∀ w, J.Pre w → V.laws.valid w := by
  obtain ⟨c, L, k, lib, chk, nd⟩ := V
  cases k with
  | exact =>
    have h : AHold (outer L) (arithOf c .exact lib) := by
      constructor <;> intros <;> first | exact evalIn_last _ _ | exact Last.pure _ | exact Last.lift _
    exact ⟨outer L, ⟨fun h => h, fun h => h, h, h, evalIn_last _, evalIn_last _⟩, fun _ h => h⟩
  | std => exact ⟨inner L .std, ⟨scope_last .std _, fun h => h, arithOf_last .std lib, arithOf_last .std lib, evalIn_last _, evalIn_last _⟩, fun _ h => h.1⟩
  | opp => exact ⟨inner L .std, ⟨scope_last .opp _, fun h => h, arithOf_last .opp lib, arithOf_last .opp lib, evalIn_last _, evalIn_last _⟩, fun _ h => h.1⟩

end BI
