import Verif.Spec.Raise
/-! # Which outcomes other than a value are possible -/

namespace BI

/-- The computation fails only with outcomes in `E`. -/
def RR {α : Type} (E : Err → Prop) (r : Res α) : Prop := ∀ e, r = .error e → E e

/-- The same for the machine, from all states. -/
def RM {W α : Type} (E : Err → Prop) (a : M W α) : Prop := ∀ s e, (a s).1 = .error e → E e

namespace RR
variable {E : Err → Prop} {α β : Type}

theorem ok (a : α) : RR E (.ok a : Res α) := by intro e h; cases h
theorem pure (a : α) : RR E (Pure.pure a : Res α) := by intro e h; cases h
theorem err {e : Err} (h : E e) : RR E (.error e : Res α) := by intro e' h'; cases h'; exact h

theorem bind {a : Res α} {f : α → Res β} (ha : RR E a) (hf : ∀ x, a = .ok x → RR E (f x)) : RR E (a >>= f) := by
  intro e h
  cases a with
  | error e' => exact ha e' rfl |> fun k => by cases h; exact k
  | ok x => exact hf x rfl e h

theorem ite {c : Prop} [Decidable c] {a b : Res α} (ha : c → RR E a) (hb : ¬c → RR E b) : RR E (if c then a else b) := by
  split
  · exact ha ‹_›
  · exact hb ‹_›

theorem ofOpt {o : Option α} (h : o.isSome ∨ E .base) : RR E (ofOpt o) := by
  cases o with
  | some a => exact ok a
  | none => exact err (h.resolve_left (by simp))

theorem mono {F : Err → Prop} {a : Res α} (h : RR E a) (hEF : ∀ e, E e → F e) : RR F a := fun e he => hEF e (h e he)
end RR

namespace RM
variable {W : Type} {E : Err → Prop} {α β γ δ : Type}

theorem pure (a : α) : RM E (Pure.pure a : M W α) := by intro s e h; cases h

theorem lift {r : Res α} (h : RR E r) : RM E (BI.lift r : M W α) := fun _ e he => h e he

theorem bind {a : M W α} {f : α → M W β} (ha : RM E a) (hf : ∀ x, RM E (f x)) : RM E (a >>= f) := by
  intro s e h
  change (M.bind a f s).1 = _ at h
  unfold M.bind at h
  have h1 := ha s
  rcases hs : a s with ⟨o, s'⟩
  rw [hs] at h h1
  cases o with
  | error e' => cases h; exact h1 _ rfl
  | ok x => exact hf x s' e h

/-- The continuation may use the value of a lifted computation. -/
theorem bindL {r : Res α} {f : α → M W β} (ha : RR E r) (hf : ∀ x, r = .ok x → RM E (f x)) :
    RM E (BI.lift r >>= f : M W β) := by
  intro s e h
  cases r with
  | error e' => cases h; exact ha _ rfl
  | ok x => exact hf x rfl s e h

theorem ite {c : Prop} [Decidable c] {a b : M W α} (ha : c → RM E a) (hb : ¬c → RM E b) :
    RM E (if c then a else b) := by
  split
  · exact ha ‹_›
  · exact hb ‹_›

theorem choose {a b : M W α} (ha : RM E a) (hb : RM E b) : RM E (M.choose a b) := by
  intro s e h
  unfold M.choose at h
  by_cases hs : s.sched 0 = true
  · simp only [if_pos hs] at h; exact ha _ _ h
  · simp only [if_neg hs] at h; exact hb _ _ h

theorem any2 {a : M W α} {b : M W β} (ha : RM E a) (hb : RM E b) : RM E (M.any2 a b) :=
  choose (ha.bind fun _ => hb.bind fun _ => RM.pure _) (hb.bind fun _ => ha.bind fun _ => RM.pure _)

theorem any3 {a : M W α} {b : M W β} {c : M W γ} (ha : RM E a) (hb : RM E b) (hc : RM E c) : RM E (M.any3 a b c) :=
  choose (ha.bind fun _ => (hb.any2 hc).bind fun _ => RM.pure _)
    (choose (hb.bind fun _ => (ha.any2 hc).bind fun _ => RM.pure _) (hc.bind fun _ => (ha.any2 hb).bind fun _ => RM.pure _))

theorem pair {a : M W α} {b : M W β} (ha : RM E a) (hb : RM E b) : RM E (BI.pair a b) := ha.any2 hb

theorem quad {a : M W α} {b : M W β} {c : M W γ} {d : M W δ} (ha : RM E a) (hb : RM E b) (hc : RM E c) (hd : RM E d) :
    RM E (BI.quad a b c d) :=
  choose (choose (ha.bind fun _ => (hb.any3 hc hd).bind fun _ => RM.pure _) (hb.bind fun _ => (ha.any3 hc hd).bind fun _ => RM.pure _))
    (choose (hc.bind fun _ => (ha.any3 hb hd).bind fun _ => RM.pure _) (hd.bind fun _ => (ha.any3 hb hc).bind fun _ => RM.pure _))

theorem modify (f : W → W) : RM E (M.modify f) := by intro s e h; cases h

theorem mono {F : Err → Prop} {a : M W α} (h : RM E a) (hEF : ∀ e, E e → F e) : RM F a :=
  fun s e he => hEF e (h s e he)

theorem evalIn {c : Ctl} {f : RMode → Option α} (h : (∀ r, (f r).isSome) ∨ E .base) : RM E (evalIn c f) :=
  fun _ e he => RR.ofOpt (h.imp (fun h => h _) id) e he
end RM

section
variable {W : Type} {T : Type} [Num T] {E : Err → Prop}

/-- A rounding object whose arithmetic fails only with outcomes in `E`. -/
structure ARM (E : Err → Prop) (A : Arith (M W) T) : Prop where
  convDown : ∀ v : Src T, (¬v.Partial ∨ E .base) → RM E (A.convDown v)
  convUp : ∀ v : Src T, (¬v.Partial ∨ E .base) → RM E (A.convUp v)
  addDown : ∀ x y, RM E (A.addDown x y)
  addUp : ∀ x y, RM E (A.addUp x y)
  subDown : ∀ x y, RM E (A.subDown x y)
  subUp : ∀ x y, RM E (A.subUp x y)
  mulDown : ∀ x y, RM E (A.mulDown x y)
  mulUp : ∀ x y, RM E (A.mulUp x y)
  divDown : ∀ x y, RM E (A.divDown x y)
  divUp : ∀ x y, RM E (A.divUp x y)
  median : ∀ x y, RM E (A.median x y)
  sqrtDown : ∀ x, RM E (A.sqrtDown x)
  sqrtUp : ∀ x, RM E (A.sqrtUp x)
  intDown : ∀ x, RM E (A.intDown x)
  intUp : ∀ x, RM E (A.intUp x)
  fnDown : ∀ f x, RM E (A.fnDown f x)
  fnUp : ∀ f x, RM E (A.fnUp f x)

/-- Policies that fail only with outcomes in `E`. -/
structure PRM (E : Err → Prop) (P : Policies (M W) T) : Prop where
  rnd : ARM E P.rnd.toArith
  unp : ARM E P.unp.toArith
  scope : ∀ {α : Type} {a : M W α}, RM E a → RM E (P.rnd.scope a)
  scopeU : ∀ {α : Type} {a : M W α}, RM E a → RM E (P.unp.scope a)
  cur : ∀ n : Int, RM E (P.cur (fun r => (Num.ofInt r n : Option T)))
  curSrc : ∀ v : Src T, (¬v.Partial ∨ E .base) → RM E (P.cur v.conv)
  neg : ∀ x : T, RR E (ofOpt (Num.neg x))
  isNan : ∀ x, RR E (P.chk.isNan x)
  isEmpty : ∀ x y, RR E (P.chk.isEmpty x y)
  emptyLower : RR E P.chk.emptyLower
  emptyUpper : RR E P.chk.emptyUpper
  posInf : RR E P.chk.posInf
  negInf : RR E P.chk.negInf
  nan : ∀ x, testI P.chk x = .ok true → RR E P.chk.nan

theorem PRM.unprot {P : Policies (M W) T} (h : PRM E P) : PRM E P.unprot where
  rnd := h.unp
  unp := h.unp
  scope := h.scopeU
  scopeU := h.scopeU
  cur := h.cur
  curSrc := h.curSrc
  neg := h.neg
  isNan := h.isNan
  isEmpty := h.isEmpty
  emptyLower := h.emptyLower
  emptyUpper := h.emptyUpper
  posInf := h.posInf
  negInf := h.negInf
  nan := h.nan

set_option hygiene false in
/-- Basic steps; `h1` … `h6` are facts about the functions called. -/
macro "rm_step" h:term : tactic => `(tactic| first
  | assumption
  | with_reducible exact h1 _ | with_reducible exact h1 _ _ | with_reducible exact RM.lift (h1 _) | with_reducible exact RM.lift (h1 _ _)
  | with_reducible exact h2 _ | with_reducible exact h2 _ _ | with_reducible exact RM.lift (h2 _) | with_reducible exact RM.lift (h2 _ _)
  | with_reducible exact h3 _ | with_reducible exact h3 _ _ | with_reducible exact RM.lift (h3 _) | with_reducible exact RM.lift (h3 _ _)
  | with_reducible exact h4 _ | with_reducible exact h4 _ _ | with_reducible exact RM.lift (h4 _) | with_reducible exact RM.lift (h4 _ _)
  | with_reducible exact h5 _ | with_reducible exact h5 _ _ | with_reducible exact RM.lift (h5 _) | with_reducible exact RM.lift (h5 _ _)
  | with_reducible exact h6 _ | with_reducible exact h6 _ _ | with_reducible exact RM.lift (h6 _) | with_reducible exact RM.lift (h6 _ _)
  | with_reducible exact RM.pure _
  | with_reducible exact RR.pure _
  | with_reducible exact RR.ok _
  | with_reducible exact PRM.isNan $h _
  | with_reducible exact PRM.isEmpty $h _ _
  | with_reducible exact PRM.emptyLower $h
  | with_reducible exact PRM.emptyUpper $h
  | with_reducible exact PRM.posInf $h
  | with_reducible exact PRM.negInf $h
  | with_reducible exact PRM.neg $h _
  | with_reducible exact PRM.nan $h _ ‹_›
  | with_reducible exact PRM.cur $h _
  | with_reducible exact ARM.addDown (PRM.rnd $h) _ _ | with_reducible exact ARM.addUp (PRM.rnd $h) _ _
  | with_reducible exact ARM.subDown (PRM.rnd $h) _ _ | with_reducible exact ARM.subUp (PRM.rnd $h) _ _
  | with_reducible exact ARM.mulDown (PRM.rnd $h) _ _ | with_reducible exact ARM.mulUp (PRM.rnd $h) _ _
  | with_reducible exact ARM.divDown (PRM.rnd $h) _ _ | with_reducible exact ARM.divUp (PRM.rnd $h) _ _
  | with_reducible exact ARM.median (PRM.rnd $h) _ _
  | with_reducible exact ARM.sqrtDown (PRM.rnd $h) _ | with_reducible exact ARM.sqrtUp (PRM.rnd $h) _
  | with_reducible exact ARM.intDown (PRM.rnd $h) _ | with_reducible exact ARM.intUp (PRM.rnd $h) _
  | with_reducible exact ARM.fnDown (PRM.rnd $h) _ _ | with_reducible exact ARM.fnUp (PRM.rnd $h) _ _
  | with_reducible refine RM.bindL ?_ (fun _ _ => ?_)
  | with_reducible refine RM.bind ?_ (fun _ => ?_)
  | with_reducible refine RR.bind ?_ (fun _ _ => ?_)
  | with_reducible refine RM.ite (fun _ => ?_) (fun _ => ?_)
  | with_reducible refine RR.ite (fun _ => ?_) (fun _ => ?_)
  | with_reducible refine RM.pair ?_ ?_
  | with_reducible refine RM.quad ?_ ?_ ?_ ?_
  | with_reducible refine PRM.scope $h ?_
  | with_reducible refine RM.lift ?_)

macro "rm_auto" h:term : tactic => `(tactic| ((try dsimp only); repeat' (rm_step $h)))

variable {P : Policies (M W) T}

section res
variable (h : PRM E P) (x y : Itv T) (t u : T)
include h

theorem testI_rr : RR E (testI P.chk x) := by unfold testI; rm_auto h
theorem testII_rr : RR E (testII P.chk P.chk x y) := by unfold testII; rm_auto h
theorem testTI_rr : RR E (testTI P.chk t x) := by unfold testTI; rm_auto h
theorem testIT_rr : RR E (testIT P.chk x t) := by unfold testIT; rm_auto h
theorem testT_rr : RR E (testT P.chk t) := by unfold testT; rm_auto h
theorem testTT_rr : RR E (testTT P.chk t u) := by unfold testTT; rm_auto h
theorem emptyI_rr : RR E (emptyI P.chk) := by unfold emptyI; rm_auto h
theorem wholeI_rr : RR E (wholeI P.chk) := by unfold wholeI; rm_auto h
theorem reItv_rr : RR E (reItv P.chk P.chk x) := by have := emptyI_rr h; unfold reItv; rm_auto h
theorem ctorT_rr : RR E (ctorT P.chk t) := by have := emptyI_rr h; unfold ctorT; rm_auto h
theorem ctorTT_rr : RR E (ctorTT P.chk t u) := by have := emptyI_rr h; unfold ctorTT; rm_auto h
theorem hullTT_rr : RR E (hullTT P.chk t u) := by have := emptyI_rr h; unfold hullTT; rm_auto h
theorem checkedLower_rr : RR E (checkedLower P.chk x) := by
  have := testI_rr h x
  unfold checkedLower
  refine this.bind fun b hb => ?_
  cases b
  · exact RR.pure _
  · exact h.nan x hb
theorem checkedUpper_rr : RR E (checkedUpper P.chk x) := by
  have := testI_rr h x
  unfold checkedUpper
  refine this.bind fun b hb => ?_
  cases b
  · exact RR.pure _
  · exact h.nan x hb
theorem isEmptyI_rr : RR E (isEmptyI P.chk x) := testI_rr h x
theorem zeroIn_rr : RR E (zeroIn P.chk x) := by have := testI_rr h x; unfold zeroIn; rm_auto h
theorem inI_rr : RR E (inI P.chk t x) := by have := testTI_rr h x t; unfold inI; rm_auto h
theorem subset_rr : RR E (subset P.chk x y) := by
  have := isEmptyI_rr h x; have := isEmptyI_rr h y; unfold subset; rm_auto h
theorem properSubset_rr : RR E (properSubset P.chk P.chk x y) := by
  have := isEmptyI_rr h x; have := isEmptyI_rr h y; unfold properSubset; rm_auto h
theorem overlap_rr : RR E (overlap P.chk P.chk x y) := by have := testII_rr h x y; unfold overlap; rm_auto h
theorem singleton_rr : RR E (singleton P.chk x) := by have := isEmptyI_rr h x; unfold singleton; rm_auto h
theorem equal_rr : RR E (equal P.chk P.chk x y) := by
  have := isEmptyI_rr h x; have := isEmptyI_rr h y; unfold equal; rm_auto h
theorem intersect_rr : RR E (intersect P.chk x y) := by
  have := testII_rr h x y; have := emptyI_rr h; unfold intersect; rm_auto h
theorem hullII_rr : RR E (hullII P.chk x y) := by
  have := testI_rr h x; have := testI_rr h y; have := emptyI_rr h; unfold hullII; rm_auto h
theorem hullIT_rr : RR E (hullIT P.chk x t) := by
  have := testI_rr h x; have := testT_rr h t; have := emptyI_rr h; unfold hullIT; rm_auto h
theorem hullTI_rr : RR E (hullTI P.chk t x) := by
  have := testI_rr h x; have := testT_rr h t; have := emptyI_rr h; unfold hullTI; rm_auto h
theorem norm_rr : RR E (norm P.chk x) := by
  have := testI_rr h x
  unfold norm
  refine this.bind fun b hb => ?_
  cases b
  · exact (h.neg _).bind fun _ _ => RR.pure _
  · exact h.nan x hb
theorem negI_rr : RR E (negI P.chk x) := by
  have := testI_rr h x; have := emptyI_rr h; unfold negI; rm_auto h
theorem absI_rr : RR E (absI P.chk x) := by
  have := testI_rr h x; have := emptyI_rr h; have := negI_rr h x; unfold absI; rm_auto h
theorem maxII_rr : RR E (maxII P.chk x y) := by
  have := testII_rr h x y; have := emptyI_rr h; unfold maxII; rm_auto h
theorem maxIT_rr : RR E (maxIT P.chk x t) := by
  have := testIT_rr h x t; have := emptyI_rr h; unfold maxIT; rm_auto h
theorem maxTI_rr : RR E (maxTI P.chk t x) := by
  have := testTI_rr h x t; have := emptyI_rr h; unfold maxTI; rm_auto h
theorem minII_rr : RR E (minII P.chk x y) := by
  have := testII_rr h x y; have := emptyI_rr h; unfold minII; rm_auto h
theorem minIT_rr : RR E (minIT P.chk x t) := by
  have := testIT_rr h x t; have := emptyI_rr h; unfold minIT; rm_auto h
theorem minTI_rr : RR E (minTI P.chk t x) := by
  have := testTI_rr h x t; have := emptyI_rr h; unfold minTI; rm_auto h
end res

section mach
variable (h : PRM E P) (x y : Itv T) (t u : T)
include h

theorem negM_rm : RM E (negM t : M W T) := by have := h.neg t; unfold negM; rm_auto h

theorem addII_rm : RM E (addII P x y) := by
  have := testII_rr h x y; have := emptyI_rr h; unfold addII mk2; rm_auto h
theorem addTI_rm : RM E (addTI P t y) := by
  have := testTI_rr h y t; have := emptyI_rr h; unfold addTI mk2; rm_auto h
theorem addIT_rm : RM E (addIT P x t) := addTI_rm h x t
theorem subII_rm : RM E (subII P x y) := by
  have := testII_rr h x y; have := emptyI_rr h; unfold subII mk2; rm_auto h
theorem subTI_rm : RM E (subTI P t y) := by
  have := testTI_rr h y t; have := emptyI_rr h; unfold subTI mk2; rm_auto h
theorem subIT_rm : RM E (subIT P x t) := by
  have := testIT_rr h x t; have := emptyI_rr h; unfold subIT mk2; rm_auto h
theorem mulII_rm : RM E (mulII P x y) := by
  have := testII_rr h x y; have := emptyI_rr h; unfold mulII mulBody mk2; rm_auto h
theorem mulTI_rm : RM E (mulTI P t y) := by
  have := testTI_rr h y t; have := emptyI_rr h; unfold mulTI mk2; rm_auto h
theorem mulIT_rm : RM E (mulIT P x t) := mulTI_rm h x t
theorem divNonZeroII_rm : RM E (divNonZeroII P x y) := by unfold divNonZeroII mk2; rm_auto h
theorem divNonZeroTI_rm : RM E (divNonZeroTI P t y) := by unfold divNonZeroTI mk2; rm_auto h
theorem divPositiveI_rm : RM E (divPositiveI P x t) := by
  have := wholeI_rr h; unfold divPositiveI mkNegInf mkPosInf; rm_auto h
theorem divPositiveT_rm : RM E (divPositiveT P t u) := by unfold divPositiveT mkNegInf mkPosInf; rm_auto h
theorem divNegativeI_rm : RM E (divNegativeI P x t) := by
  have := wholeI_rr h; unfold divNegativeI mkNegInf mkPosInf; rm_auto h
theorem divNegativeT_rm : RM E (divNegativeT P t u) := by unfold divNegativeT mkNegInf mkPosInf; rm_auto h
theorem divZeroI_rm : RM E (divZeroI P x) := by have := wholeI_rr h; unfold divZeroI; rm_auto h
theorem divZeroT_rm : RM E (divZeroT P t) := by have := wholeI_rr h; unfold divZeroT; rm_auto h
theorem divZeroPart1_rm : RM E (divZeroPart1 P x y) := by
  have := wholeI_rr h; unfold divZeroPart1 mkNegInf; rm_auto h
theorem divZeroPart2_rm : RM E (divZeroPart2 P x y) := by unfold divZeroPart2 mkPosInf; rm_auto h
theorem divII_rm : RM E (divII P x y) := by
  have := testII_rr h x y; have := emptyI_rr h; have := zeroIn_rr h y; have := divZeroI_rm h x
  have := divNegativeI_rm h x y.lower; have := divPositiveI_rm h x y.upper; have := divNonZeroII_rm h x y
  unfold divII; rm_auto h
theorem divTI_rm : RM E (divTI P t y) := by
  have := testTI_rr h y t; have := emptyI_rr h; have := zeroIn_rr h y; have := divZeroT_rm h t
  have := divNegativeT_rm h t y.lower; have := divPositiveT_rm h t y.upper; have := divNonZeroTI_rm h y t
  unfold divTI; rm_auto h
theorem divIT_rm : RM E (divIT P x t) := by
  have := testIT_rr h x t; have := emptyI_rr h; unfold divIT mk2; rm_auto h
theorem addTT_rm : RM E (addTT P t u) := by
  have := testTT_rr h t u; have := emptyI_rr h; unfold addTT mk2; rm_auto h
theorem subTT_rm : RM E (subTT P t u) := by
  have := testTT_rr h t u; have := emptyI_rr h; unfold subTT mk2; rm_auto h
theorem mulTT_rm : RM E (mulTT P t u) := by
  have := testTT_rr h t u; have := emptyI_rr h; unfold mulTT mk2; rm_auto h
theorem divTT_rm : RM E (divTT P t u) := by
  have := testTT_rr h t u; have := emptyI_rr h; unfold divTT mk2; rm_auto h

theorem width_rm : RM E (width P x) := by have := testI_rr h x; unfold width; rm_auto h
theorem median_rm : RM E (median P x) := by
  unfold median
  refine RM.bindL (testI_rr h x) fun b hb => ?_
  cases b
  · exact h.scope (h.rnd.median _ _)
  · exact RM.lift (h.nan x hb)
theorem widen_rm : RM E (widen P x t) := by
  have := testI_rr h x; have := emptyI_rr h; unfold widen mk2; rm_auto h
theorem bisect_rm : RM E (bisect P x) := by
  have := testI_rr h x; have := emptyI_rr h; have := median_rm h x; unfold bisect; rm_auto h

theorem backI_rm (b : Bool) : RM E (backI b P.chk x : M W (Itv T)) := by
  cases b
  · exact RM.lift (reItv_rr h x)
  · exact RM.pure _

theorem fmodAux_rm (b : Bool) : RM E (fmodAux b P x y) := by
  have := testII_rr h x y; have := emptyI_rr h
  have h1 := fun n => mulTI_rm h.unprot y n
  have h2 := fun z => subII_rm h.unprot x z
  have h3 := fun z => backI_rm h z b
  unfold fmodAux; rm_auto h
theorem fmodII_rm : RM E (fmodII P x y) := fmodAux_rm h x y false
theorem fmodIT_rm : RM E (fmodIT P x t) := by
  have := testIT_rr h x t; have := emptyI_rr h
  have h1 := fun n z => mulTI_rm h.unprot z n
  have h2 := fun z => subII_rm h.unprot x z
  have h3 := fun z => reItv_rr h z
  have h4 := ctorT_rr h t
  unfold fmodIT; rm_auto h
theorem fmodTI_rm : RM E (fmodTI P t y) := by
  have := testTI_rr h y t; have := emptyI_rr h
  have h1 := fun n => mulTI_rm h.unprot y n
  have h2 := fun z => subTI_rm h.unprot z t
  have h3 := fun z => reItv_rr h z
  unfold fmodTI; rm_auto h
theorem divisionPart1_rm : RM E (divisionPart1 P x y) := by
  have := testII_rr h x y; have := emptyI_rr h; have := zeroIn_rr h y; have := divZeroPart1_rm h x y
  have := divNegativeI_rm h x y.lower; have := divPositiveI_rm h x y.upper; have := divNonZeroII_rm h x y
  unfold divisionPart1; rm_auto h
theorem divisionPart2_rm (b : Bool) : RM E (divisionPart2 P x y b) := by
  have := emptyI_rr h; have := divZeroPart2_rm h x y; unfold divisionPart2; rm_auto h
theorem multInv_rm : RM E (multInv P x) := by
  have := testI_rr h x; have := emptyI_rr h; have := zeroIn_rr h x; have := wholeI_rr h
  unfold multInv mkNegInf mkPosInf mk2; rm_auto h

omit h in
theorem powLoop_rm {mul : T → T → M W T} (hm : ∀ a b, RM E (mul a b)) (n : Nat) : ∀ a b, RM E (powLoop mul n a b) := by
  induction n using Nat.strongRecOn with
  | _ n ih =>
    intro a b
    rw [powLoop]
    refine RM.ite (fun _ => RM.pure _) fun hn => (hm _ _).bind fun a' => ?_
    refine RM.bind (RM.ite (fun _ => hm _ _) fun _ => RM.pure _) fun b' => ih _ (by omega) _ _

theorem powUp_rm (n : Nat) : RM E (powAux P.rnd.mulUp t n) := powLoop_rm h.rnd.mulUp _ _ _
theorem powDown_rm (n : Nat) : RM E (powAux P.rnd.mulDown t n) := powLoop_rm h.rnd.mulDown _ _ _

theorem powNat_rm (n : Nat) : RM E (powNat P x n) := by
  have := testI_rr h x; have := emptyI_rr h
  have h1 := fun t => ctorT_rr h t
  have h2 := fun t => powUp_rm h t n
  have h3 := fun t => powDown_rm h t n
  have h4 := fun t => negM_rm h t
  unfold powNat mk2; rm_auto h

theorem powI_rm (k : Int) (hk : k ≠ intMin ∨ E .ub) : RM E (powI P x k) := by
  have h1 := fun n => powNat_rm h x n
  have h2 := fun z => multInv_rm h z
  unfold powI
  refine RM.bindL (testI_rr h x) fun _ _ => RM.ite (fun _ => RM.lift (emptyI_rr h)) fun _ => RM.ite (fun _ => ?_) fun _ => h1 _
  refine RM.ite (fun e => RM.lift (RR.err (hk.resolve_left (not_not.2 e)))) fun _ => (h1 _).bind fun _ => h2 _

theorem sqrtI_rm : RM E (sqrtI P x) := by
  have := testI_rr h x; have := emptyI_rr h; unfold sqrtI; rm_auto h
theorem squareI_rm : RM E (squareI P x) := by
  have := testI_rr h x; have := emptyI_rr h; have h4 := fun t => negM_rm h t; unfold squareI mk2; rm_auto h

theorem rootStep_rm (k : Int) (hk : 0 < k ∨ E .ub) : RM E (rootStep P t u k y) := by
  have h1 := median_rm h y
  have h2 := fun z => powI_rm h z k (hk.imp (fun h => by unfold intMin; omega) id)
  have h3 := fun z => powI_rm h z (k - 1) (hk.imp (fun h => by unfold intMin; omega) id)
  have h4 := fun z w => subIT_rm h z w
  have h5 := fun z w => mulTI_rm h z w
  have h6 := fun z w => divII_rm h z w
  have h7 := fun z w => subTI_rm h z w
  have h8 := fun z w => intersect_rr h z w
  unfold rootStep
  exact h1.bind fun _ => (h2 _).bind fun _ => (h4 _ _).bind fun _ => (h3 _).bind fun _ => (h5 _ _).bind fun _ =>
    (h6 _ _).bind fun _ => (h7 _ _).bind fun _ => RM.lift (h8 _ _)

theorem rootLoop_rm (k : Int) (hk : 0 < k ∨ E .ub) (hf : E .fuel) (n : Nat) : ∀ y, RM E (rootLoop P t u k n y) := by
  induction n with
  | zero => exact fun y => RM.lift (RR.err hf)
  | succ n ih =>
    intro y
    rw [rootLoop]
    exact (rootStep_rm h y t u k hk).bind fun z => RM.bindL (equal_rr h y z) fun b _ => RM.ite (fun _ => RM.pure _) fun _ => ih _

theorem rootAux_rm (k : Int) (hk : 0 < k ∨ E .ub) (hf : E .fuel) (n : Nat) : RM E (rootAux P n t k) :=
  (h.cur k).bind fun _ => rootLoop_rm h _ _ k hk hf n _

theorem rootAuxDn_rm (k : Int) (hk : 0 < k ∨ E .ub) (hf : E .fuel) (n : Nat) : RM E (rootAuxDn P n t k) := by
  have h1 := fun t => rootAux_rm h t k hk hf n
  unfold rootAuxDn; rm_auto h
theorem rootAuxUp_rm (k : Int) (hk : 0 < k ∨ E .ub) (hf : E .fuel) (n : Nat) : RM E (rootAuxUp P n t k) := by
  have h1 := fun t => rootAux_rm h t k hk hf n
  unfold rootAuxUp; rm_auto h

theorem nthRoot_rm (nd : Bool) (k : Int) (hk : 0 < k ∨ E .ub) (ha : 0 < k ∨ nd = true ∨ E .assertion) (hf : E .fuel) (n : Nat) :
    RM E (nthRoot P nd n x k) := by
  have := testI_rr h x; have := emptyI_rr h
  have h1 := fun t => rootAuxUp_rm h.unprot t k hk hf n
  have h2 := fun t => rootAuxDn_rm h.unprot t k hk hf n
  have h3 := fun t => negM_rm h t
  have h4 : RR E (assertRes nd (decide (0 < k))) := by
    unfold assertRes
    refine RR.ite (fun _ => RR.ok _) fun hn => RR.err ?_
    rcases ha with ha | ha | ha
    · exact absurd (by simp [ha]) hn
    · exact absurd (by simp [ha]) hn
    · exact ha
  unfold nthRoot; rm_auto h

theorem increasingI_rm (f : Fn) : RM E (increasingI f P x) := by
  have := testI_rr h x; have := emptyI_rr h; unfold increasingI mk2; rm_auto h
theorem logI_rm : RM E (logI P x) := by
  have := testI_rr h x; have := emptyI_rr h; unfold logI; rm_auto h
theorem asinI_rm (K : PiConst T) : RM E (asinI K P x) := by
  have := testI_rr h x; have := emptyI_rr h; have h3 := fun t => negM_rm h t; unfold asinI; rm_auto h
theorem acosI_rm (K : PiConst T) : RM E (acosI K P x) := by
  have := testI_rr h x; have := emptyI_rr h; unfold acosI; rm_auto h
theorem coshI_rm : RM E (coshI P x) := by
  have := testI_rr h x; have := emptyI_rr h; have h3 := fun t => negM_rm h t; unfold coshI mk2; rm_auto h
theorem acoshI_rm : RM E (acoshI P x) := by
  have := testI_rr h x; have := emptyI_rr h; unfold acoshI; rm_auto h
theorem atanhI_rm : RM E (atanhI P x) := by
  have := testI_rr h x; have := emptyI_rr h; unfold atanhI; rm_auto h
theorem tanI_rm (K : PiConst T) : RM E (tanI K P x) := by
  have := testI_rr h x; have := emptyI_rr h; have := wholeI_rr h
  have h1 := fun z => fmodAux_rm h.unprot x z true
  have h2 := fun z w => subII_rm h.unprot z w
  have h3 := fun t => negM_rm h t
  unfold tanI mk2; rm_auto h
end mach

theorem cosAux_rm (K : PiConst T) (hf : E .fuel) (n : Nat) :
    ∀ (P : Policies (M W) T), PRM E P → ∀ (b : Bool) (x : Itv T), RM E (cosAux K b n P x) := by
  induction n with
  | zero => exact fun P h b x => RM.lift (RR.err hf)
  | succ n ih =>
    intro P h b x
    have := testI_rr h x; have := emptyI_rr h
    have h1 := fun z => fmodAux_rm h.unprot x z true
    have h2 := fun z => width_rm h.unprot z
    have h3 := fun z w => subII_rm h.unprot z w
    have h4 := ih P.unprot h.unprot true
    have h5 := fun z => negI_rr h z
    have h6 := fun z => backI_rm h z b
    rw [cosAux]
    unfold mk2
    rm_auto h

theorem sinI_rm (h : PRM E P) (K : PiConst T) (hf : E .fuel) (n : Nat) (x : Itv T) : RM E (sinI K n P x) := by
  have := testI_rr h x; have := emptyI_rr h
  have h3 := fun w => subII_rm h.unprot x w
  have h4 := cosAux_rm K hf n P.unprot h.unprot true
  have h5 := fun z => reItv_rr h z
  unfold sinI; rm_auto h

theorem ctorSrc_rm (h : PRM E P) (v : Src T) (hv : ¬v.Partial ∨ E .base) : RM E (ctorSrc P v) := by
  unfold ctorSrc
  exact (h.curSrc v hv).bind fun t => RM.bindL (h.isNan t) fun _ _ => RM.ite (fun _ => RM.lift (emptyI_rr h)) fun _ =>
    h.scope ((h.rnd.convDown v hv).bind fun _ => (h.rnd.convUp v hv).bind fun _ => RM.pure _)

theorem ctorSrc2_rm (h : PRM E P) (l u : Src T) (b : Bool) (hl : ¬l.Partial ∨ E .base) (hu : ¬u.Partial ∨ E .base) :
    RM E (ctorSrc2 P l u b) := by
  unfold ctorSrc2
  refine (h.curSrc l hl).bind fun t => RM.bindL (h.isNan t) fun _ _ => RM.ite (fun _ => RM.lift (emptyI_rr h)) fun _ => ?_
  refine (h.curSrc u hu).bind fun t => RM.bindL (h.isNan t) fun _ _ => RM.ite (fun _ => RM.lift (emptyI_rr h)) fun _ => ?_
  exact RM.ite (fun _ => RM.lift (emptyI_rr h)) fun _ =>
    h.scope ((h.rnd.convDown l hl).bind fun _ => (h.rnd.convUp u hu).bind fun _ => RM.pure _)

theorem ctorItv_rm (h : PRM E P) (t : Res Bool) (ht : RR E t) (l u : Src T) (hl : ¬l.Partial ∨ E .base)
    (hu : ¬u.Partial ∨ E .base) : RM E (ctorItv P t l u) := by
  unfold ctorItv
  exact RM.bindL ht fun _ _ => RM.ite (fun _ => RM.lift (emptyI_rr h)) fun _ =>
    h.scope ((h.rnd.convDown l hl).bind fun _ => (h.rnd.convUp u hu).bind fun _ => RM.pure _)

/-- All calls. -/
theorem Call.rm (h : PRM E P) {α : Type} (c : Call T α) (hc : ∀ e, c.Own P.chk e → E e) : RM E (c.run P) := by
  have src : ∀ {v : Src T}, (v.Partial → E .base) → ¬v.Partial ∨ E .base := fun {v} k => by
    by_cases hv : v.Partial
    · exact .inr (k hv)
    · exact .inl hv
  cases c with
  | addII x y => exact addII_rm h x y
  | addTI x y => exact addTI_rm h y x
  | addIT x y => exact addIT_rm h x y
  | subII x y => exact subII_rm h x y
  | subTI x y => exact subTI_rm h y x
  | subIT x y => exact subIT_rm h x y
  | mulII x y => exact mulII_rm h x y
  | mulTI x y => exact mulTI_rm h y x
  | mulIT x y => exact mulIT_rm h x y
  | divII x y => exact divII_rm h x y
  | divTI x y => exact divTI_rm h y x
  | divIT x y => exact divIT_rm h x y
  | addTT x y => exact addTT_rm h x y
  | subTT x y => exact subTT_rm h x y
  | mulTT x y => exact mulTT_rm h x y
  | divTT x y => exact divTT_rm h x y
  | addIInt x n => exact (h.cur n).bind fun t => addIT_rm h x t
  | addIntI n y => exact (h.cur n).bind fun t => addTI_rm h y t
  | subIInt x n => exact (h.cur n).bind fun t => subIT_rm h x t
  | subIntI n y => exact (h.cur n).bind fun t => subTI_rm h y t
  | mulIInt x n => exact (h.cur n).bind fun t => mulIT_rm h x t
  | mulIntI n y => exact (h.cur n).bind fun t => mulTI_rm h y t
  | divIInt x n => exact (h.cur n).bind fun t => divIT_rm h x t
  | divIntI n y => exact (h.cur n).bind fun t => divTI_rm h y t
  | fmodII x y => exact fmodII_rm h x y
  | fmodIT x y => exact fmodIT_rm h x y
  | fmodTI x y => exact fmodTI_rm h y x
  | divisionPart1 x y => exact divisionPart1_rm h x y
  | divisionPart2 x y b => exact divisionPart2_rm h x y b
  | multInv x => exact multInv_rm h x
  | pow x k =>
    refine powI_rm h x k ?_
    by_cases hk : k = intMin
    · exact .inr (hc _ ⟨rfl, hk⟩)
    · exact .inl hk
  | sqrt x => exact sqrtI_rm h x
  | square x => exact squareI_rm h x
  | nthRoot nd fuel x k =>
    refine nthRoot_rm h x nd k ?_ ?_ (hc _ (.inl rfl)) fuel
    · by_cases hk : 0 < k
      · exact .inl hk
      · exact .inr (hc _ (.inr ⟨by omega, .inl rfl⟩))
    · by_cases hk : 0 < k
      · exact .inl hk
      · cases nd
        · exact .inr (.inr (hc _ (.inr ⟨by omega, .inr ⟨rfl, rfl⟩⟩)))
        · exact .inr (.inl rfl)
  | width x => exact width_rm h x
  | median x => exact median_rm h x
  | widen x v => exact widen_rm h x v
  | bisect x => exact bisect_rm h x
  | exp x => exact increasingI_rm h x _
  | log x => exact logI_rm h x
  | cos K fuel x => exact cosAux_rm K (hc _ rfl) fuel P h false x
  | sin K fuel x => exact sinI_rm h K (hc _ rfl) fuel x
  | tan K x => exact tanI_rm h x K
  | asin K x => exact asinI_rm h x K
  | acos K x => exact acosI_rm h x K
  | atan x => exact increasingI_rm h x _
  | sinh x => exact increasingI_rm h x _
  | cosh x => exact coshI_rm h x
  | tanh x => exact increasingI_rm h x _
  | asinh x => exact increasingI_rm h x _
  | acosh x => exact acoshI_rm h x
  | atanh x => exact atanhI_rm h x
  | ctorSrc v => exact ctorSrc_rm h v (src fun hv => hc _ ⟨rfl, hv⟩)
  | ctorSrc2 l u le => exact ctorSrc2_rm h l u le (src fun hv => hc _ ⟨rfl, .inl hv⟩) (src fun hv => hc _ ⟨rfl, .inr hv⟩)
  | ctorItv t l u =>
    exact ctorItv_rm h t (fun e he => hc _ (.inl he)) l u (src fun hv => hc _ (.inr ⟨rfl, .inl hv⟩))
      (src fun hv => hc _ (.inr ⟨rfl, .inr hv⟩))
  | chk f => exact RM.lift fun e he => hc _ he

/-- All programs. -/
theorem Prog.rm : {α : Type} → (p : Prog T α) → {P : Policies (M W) T} → PRM E P → (∀ e, p.Own P.chk e → E e) →
    RM E (p.run P)
  | _, .ret _, _, _, _ => RM.pure _
  | _, .fail _, _, _, hp => RM.lift (RR.err (hp _ rfl))
  | _, .call c k, _, h, hp =>
    (c.rm h fun e he => hp e (.inl he)).bind fun b => (k b).rm h fun e he => hp e (.inr ⟨b, he⟩)
  | _, .region body k, _, h, hp =>
    (h.scope (body.rm h.unprot fun e he => hp e (.inl he))).bind fun b => (k b).rm h fun e he => hp e (.inr ⟨b, he⟩)

end

/-! ## The policies of a configuration -/

section
variable {T : Type} [Num T]

theorem ChkSpec.rr_isEmpty (sp : ChkSpec) (nd : Bool) (l u : T) (E : Err → Prop) : RR E ((sp.eval T nd).isEmpty l u) := by
  induction sp with
  | base => exact RR.ok _
  | noEmpty c ih => exact RR.ok _
  | noNan c ih => exact ih
  | catchNan c ih => exact ih

theorem ChkSpec.isNan_noNaN (sp : ChkSpec) (nd : Bool) (x : T) (h : Num.hasNaN T = false) :
    (sp.eval T nd).isNan x = .ok false := by
  induction sp with
  | base => simp [ChkSpec.eval, chkBase, h]
  | noEmpty c ih => exact ih
  | noNan c ih => rfl
  | catchNan c ih => simp only [ChkSpec.eval, chkCatchNan, ih]; rfl

theorem ChkSpec.rr_isNan (sp : ChkSpec) (nd : Bool) (x : T) (E : Err → Prop)
    (h : sp.catchesNan = true → Num.hasNaN T = true → E .invalidNumber) : RR E ((sp.eval T nd).isNan x) := by
  by_cases hn : Num.hasNaN T = false
  · rw [sp.isNan_noNaN nd x hn]; exact RR.ok _
  replace h : sp.catchesNan = true → E .invalidNumber := fun k => h k (by simpa using hn)
  clear hn
  induction sp with
  | base => exact RR.ok _
  | noEmpty c ih => exact ih h
  | noNan c ih => exact RR.ok _
  | catchNan c ih =>
    simp only [ChkSpec.eval, chkCatchNan]
    have key : ∀ c : ChkSpec, c.seesNan = false → c.catchesNan = false → (c.eval T nd).isNan x = .ok false := by
      intro c
      induction c with
      | base => intro h; cases h
      | noEmpty c ih => exact ih
      | noNan c ih => intros; rfl
      | catchNan c ih =>
        intro _ h
        have h' : c.seesNan = false ∧ c.catchesNan = false := by simpa [ChkSpec.catchesNan] using h
        simp only [ChkSpec.eval, chkCatchNan, ih h'.1 h'.2]; rfl
    by_cases hc : (c.seesNan || c.catchesNan) = true
    · refine RR.bind (ih fun h' => h hc) fun b _ => ?_
      cases b
      · exact RR.pure _
      · exact RR.err (h hc)
    · have h' : c.seesNan = false ∧ c.catchesNan = false := by simpa using hc
      rw [key c h'.1 h'.2]
      exact RR.pure _

theorem ChkSpec.rr_empty (sp : ChkSpec) (nd : Bool) (E : Err → Prop) (h : sp.forbidsEmpty = true → E .emptyCreated) :
    RR E (sp.eval T nd).emptyLower ∧ RR E (sp.eval T nd).emptyUpper := by
  induction sp with
  | base => exact ⟨RR.ok _, RR.ok _⟩
  | noEmpty c ih => exact ⟨RR.err (h rfl), RR.err (h rfl)⟩
  | noNan c ih => exact ih h
  | catchNan c ih => exact ih h

theorem rr_assert {nd b : Bool} {E : Err → Prop} (h : nd = false → b = false → E .assertion) : RR E (assertRes nd b) := by
  unfold assertRes
  refine RR.ite (fun _ => RR.ok _) fun hn => RR.err ?_
  have : b = false ∧ nd = false := by simpa using hn
  exact h this.2 this.1

theorem ChkSpec.rr_inf (sp : ChkSpec) (nd : Bool) (E : Err → Prop) (h : nd = false → Num.hasInf T = false → E .assertion)
    (hb : (Num.neg (Num.infinity : T)).isSome ∨ E .base) :
    RR E (sp.eval T nd).posInf ∧ RR E (sp.eval T nd).negInf := by
  induction sp with
  | base => exact ⟨(rr_assert h).bind fun _ _ => RR.pure _, (rr_assert h).bind fun _ _ => RR.ofOpt hb⟩
  | noEmpty c ih => exact ih
  | noNan c ih => exact ih
  | catchNan c ih => exact ih

theorem ChkSpec.rr_nan (sp : ChkSpec) (nd : Bool) (E : Err → Prop)
    (h : nd = false → Num.hasNaN T = false → sp.forbidsEmpty = false → E .assertion) {l u : T}
    (ht : (sp.eval T nd).isEmpty l u = .ok true) : RR E (sp.eval T nd).nan := by
  induction sp with
  | base => exact (rr_assert fun a b => h a b rfl).bind fun _ _ => RR.pure _
  | noEmpty c ih => cases ht
  | noNan c ih => exact ih h ht
  | catchNan c ih => exact ih h ht

variable (V : Env T)

theorem Env.arm {E : Err → Prop} (hb : TotalBase T V.lib ∨ E .base) : ARM E (arithOf V.ctl V.kind V.lib) := by
  have ev : ∀ {f : RMode → Option T}, (TotalBase T V.lib → ∀ r, (f r).isSome) → RM E (evalIn V.ctl f) :=
    fun h => RM.evalIn (hb.imp (fun k => h k) id)
  have md : ∀ (g : V.ctl.W → V.ctl.W) {f : RMode → Option T}, (TotalBase T V.lib → ∀ r, (f r).isSome) →
      RM E (do M.modify g; evalIn V.ctl f) := fun g _ h => (RM.modify g).bind fun _ => ev h
  have ng : ∀ x : T, RM E (negM x : M V.ctl.W T) := fun x => RM.lift (RR.ofOpt (hb.imp (fun k => k.neg x) id))
  have un : ∀ {f : RMode → Option T}, (TotalBase T V.lib → ∀ r, (f r).isSome) → RM E (upNeg V.ctl f) :=
    fun h => (ev h).bind fun x => ng x
  have m3 : ∀ (g g' : V.ctl.W → V.ctl.W) {f : RMode → Option T}, (TotalBase T V.lib → ∀ r, (f r).isSome) →
      RM E (do M.modify g; let r ← evalIn V.ctl f; M.modify g'; pure r) :=
    fun g g' _ h => (RM.modify g).bind fun _ => (ev h).bind fun _ => (RM.modify g').bind fun _ => RM.pure _
  have fl : ∀ o : Option T, (TotalBase T V.lib → o.isSome) → RM E (lift (ofOpt o) : M V.ctl.W T) :=
    fun o h => RM.lift (RR.ofOpt (hb.imp (fun k => h k) id))
  have hs : ∀ (k : TotalBase T V.lib) r (x y : T), (halfSum r x y).isSome := by
    intro k r x y
    obtain ⟨s, e⟩ := Option.isSome_iff_exists.1 (k.add r x y)
    unfold halfSum; rw [e]; exact k.div r s _
  have nb : ∀ (k : TotalBase T V.lib) (x : T) (g : T → Option T), (∀ z, (g z).isSome) → ((Num.neg x).bind g).isSome := by
    intro k x g hg
    obtain ⟨s, e⟩ := Option.isSome_iff_exists.1 (k.neg x)
    rw [e]; exact hg s
  have sc : ∀ {v : Src T}, (¬v.Partial ∨ E .base) → RM E (evalIn V.ctl v.conv) := fun {v} h =>
    RM.evalIn (h.imp (fun k r => Option.isSome_iff_ne_none.2 fun e => k ⟨r, .inl e⟩) id)
  have sn : ∀ {v : Src T}, (¬v.Partial ∨ E .base) → RM E (evalIn V.ctl v.negConv) := fun {v} h =>
    RM.evalIn (h.imp (fun k r => Option.isSome_iff_ne_none.2 fun e => k ⟨r, .inr e⟩) id)
  cases hk : V.kind
  · exact {
      convDown := fun v h => sc h
      convUp := fun v h => sc h
      addDown := fun x y => ev fun k r => k.add r x y
      addUp := fun x y => ev fun k r => k.add r x y
      subDown := fun x y => ev fun k r => k.sub r x y
      subUp := fun x y => ev fun k r => k.sub r x y
      mulDown := fun x y => ev fun k r => k.mul r x y
      mulUp := fun x y => ev fun k r => k.mul r x y
      divDown := fun x y => ev fun k r => k.div r x y
      divUp := fun x y => ev fun k r => k.div r x y
      median := fun x y => ev fun k r => hs k r x y
      sqrtDown := fun x => ev fun k r => k.sqrt r x
      sqrtUp := fun x => ev fun k r => k.sqrt r x
      intDown := fun x => fl _ fun k => k.floor x
      intUp := fun x => fl _ fun k => k.ceil x
      fnDown := fun f x => ev fun k r => k.lib f r x
      fnUp := fun f x => ev fun k r => k.lib f r x }
  · exact {
      convDown := fun v h => (RM.modify _).bind fun _ => sc h
      convUp := fun v h => (RM.modify _).bind fun _ => sc h
      addDown := fun x y => md _ fun k r => k.add r x y
      addUp := fun x y => md _ fun k r => k.add r x y
      subDown := fun x y => md _ fun k r => k.sub r x y
      subUp := fun x y => md _ fun k r => k.sub r x y
      mulDown := fun x y => md _ fun k r => k.mul r x y
      mulUp := fun x y => md _ fun k r => k.mul r x y
      divDown := fun x y => md _ fun k r => k.div r x y
      divUp := fun x y => md _ fun k r => k.div r x y
      median := fun x y => md _ fun k r => hs k r x y
      sqrtDown := fun x => md _ fun k r => k.sqrt r x
      sqrtUp := fun x => md _ fun k r => k.sqrt r x
      intDown := fun x => md _ fun k r => k.rint r x
      intUp := fun x => md _ fun k r => k.rint r x
      fnDown := fun f x => md _ fun k r => k.lib f r x
      fnUp := fun f x => md _ fun k r => k.lib f r x }
  · exact {
      convDown := fun v h => (sn h).bind fun x => ng x
      convUp := fun v h => sc h
      addDown := fun x y => un fun k r => nb k x _ fun z => k.sub r z y
      addUp := fun x y => ev fun k r => k.add r x y
      subDown := fun x y => un fun k r => k.sub r y x
      subUp := fun x y => ev fun k r => k.sub r x y
      mulDown := fun x y => un fun k r => nb k y _ fun z => k.mul r x z
      mulUp := fun x y => ev fun k r => k.mul r x y
      divDown := fun x y => un fun k r => nb k y _ fun z => k.div r x z
      divUp := fun x y => ev fun k r => k.div r x y
      median := fun x y => m3 _ _ fun k r => hs k r x y
      sqrtDown := fun x => m3 _ _ fun k r => k.sqrt r x
      sqrtUp := fun x => ev fun k r => k.sqrt r x
      intDown := fun x => un fun k r => nb k x _ fun z => k.rint r z
      intUp := fun x => ev fun k r => k.rint r x
      fnDown := fun f x => by
        change RM E (if f.negForm then _ else _)
        refine RM.ite (fun _ => ?_) fun _ => m3 _ _ fun k r => k.lib f r x
        exact (ev fun k r => k.lib f r x).bind fun v => (ng v).bind fun w => ng w
      fnUp := fun f x => ev fun k r => k.lib f r x }

/-- The policies of a configuration raise what `MayRaise` says. -/
theorem Env.prm {E : Err → Prop} (hE : ∀ e, V.MayRaise e → E e) : PRM E V.P := by
  have hb : TotalBase T V.lib ∨ E .base := by
    by_cases h : TotalBase T V.lib
    · exact .inl h
    · exact .inr (hE .base h)
  have hA := V.arm hb
  have hchk : V.P.chk = V.checks.eval T V.ndebug := by
    unfold Env.P libPolicies; split <;> rfl
  have hA1 : ARM E V.P.rnd.toArith := by
    unfold Env.P libPolicies; split <;> rename_i hk <;> rw [hk] at hA <;> exact hA
  have hA2 : ARM E V.P.unp.toArith := by
    unfold Env.P libPolicies; split <;> rename_i hk <;> rw [hk] at hA <;> exact hA
  have hinf : RR E (V.checks.eval T V.ndebug).posInf ∧ RR E (V.checks.eval T V.ndebug).negInf :=
    V.checks.rr_inf _ _ (fun a b => hE .assertion ⟨a, .inl b⟩) (hb.imp (fun k => k.neg _) id)
  have hemp : RR E (V.checks.eval T V.ndebug).emptyLower ∧ RR E (V.checks.eval T V.ndebug).emptyUpper :=
    V.checks.rr_empty _ _ fun h => hE .emptyCreated h
  have hprot : ∀ {α : Type} (i : V.ctl.W → V.ctl.W) {a : M V.ctl.W α}, RM E a →
      RM E (fun s => let r := a { s with cw := i s.cw }; (r.1, { r.2 with cw := V.ctl.set (V.ctl.get s.cw) r.2.cw })) :=
    fun i a h s e he => h _ _ he
  exact {
    rnd := hA1
    unp := hA2
    scope := by
      intro α a h
      unfold Env.P libPolicies
      split
      · exact h
      · exact hprot _ h
      · exact hprot _ h
    scopeU := by
      intro α a h
      unfold Env.P libPolicies
      split <;> exact h
    cur := by
      intro n
      have : RM E (evalIn V.ctl fun r => (Num.ofInt r n : Option T)) := RM.evalIn (hb.imp (fun k r => k.ofInt r n) id)
      unfold Env.P libPolicies
      split <;> exact this
    curSrc := by
      intro v h
      have : RM E (evalIn V.ctl v.conv) :=
        RM.evalIn (h.imp (fun k r => Option.isSome_iff_ne_none.2 fun e => k ⟨r, .inl e⟩) id)
      unfold Env.P libPolicies
      split <;> exact this
    neg := fun x => RR.ofOpt (hb.imp (fun k => k.neg x) id)
    isNan := fun x => by rw [hchk]; exact V.checks.rr_isNan _ _ _ fun a b => hE .invalidNumber ⟨a, b⟩
    isEmpty := fun x y => by rw [hchk]; exact V.checks.rr_isEmpty _ _ _ _
    emptyLower := by rw [hchk]; exact hemp.1
    emptyUpper := by rw [hchk]; exact hemp.2
    posInf := by rw [hchk]; exact hinf.1
    negInf := by rw [hchk]; exact hinf.2
    nan := fun x hx => by
      rw [hchk] at hx ⊢
      exact V.checks.rr_nan _ _ (fun a b c => hE .assertion ⟨a, .inr ⟨b, c⟩⟩) hx }

end
end BI
