import Verif.Model.Examples
import Verif.Spec.Switches
/-! # The counter does not disturb: outcomes and control words are those of the machine without it -/

set_option linter.unusedSectionVars false

namespace BI

/-- Forget the counter. -/
def St.bare {c : Ctl} (s : St c.counting.W) : St c.W := ⟨s.cw.1, s.sched⟩

/-- The computation with the counter does what the other one does. -/
def Erase {c : Ctl} {α : Type} (a : M c.counting.W α) (b : M c.W α) : Prop :=
  ∀ s : St c.counting.W, b s.bare = ((a s).1, (a s).2.bare)

namespace Erase
variable {c : Ctl} {α β γ δ : Type}

theorem lift (r : Res α) : Erase (c := c) (BI.lift r) (BI.lift r) := fun _ => rfl
theorem pure (a : α) : Erase (c := c) (Pure.pure a) (Pure.pure a) := fun _ => rfl

theorem bind {a : M c.counting.W α} {b : M c.W α} {f : α → M c.counting.W β} {g : α → M c.W β} (h : Erase a b)
    (hf : ∀ x, Erase (f x) (g x)) : Erase (a >>= f) (b >>= g) := by
  intro s
  change M.bind b g s.bare = ((M.bind a f s).1, (M.bind a f s).2.bare)
  unfold M.bind
  rw [h s]
  rcases a s with ⟨_ | x, s'⟩
  · rfl
  · exact hf x s'

theorem ite {p : Prop} [Decidable p] {a a' : M c.counting.W α} {b b' : M c.W α} (h1 : Erase a b) (h2 : Erase a' b') :
    Erase (if p then a else a') (if p then b else b') := by
  by_cases h : p
  · rw [if_pos h, if_pos h]; exact h1
  · rw [if_neg h, if_neg h]; exact h2

theorem choose {a a' : M c.counting.W α} {b b' : M c.W α} (h1 : Erase a b) (h2 : Erase a' b') :
    Erase (M.choose a a') (M.choose b b') := by
  intro s
  unfold M.choose
  change (if s.sched 0 then _ else _) = _
  by_cases hs : s.sched 0 = true
  · simp only [if_pos hs]; exact h1 { s with sched := fun n => s.sched (n + 1) }
  · simp only [if_neg hs]; exact h2 { s with sched := fun n => s.sched (n + 1) }

section
variable {a : M c.counting.W α} {a' : M c.W α} {b : M c.counting.W β} {b' : M c.W β} {d : M c.counting.W γ} {d' : M c.W γ}
  {e : M c.counting.W δ} {e' : M c.W δ}

theorem any2 (ha : Erase a a') (hb : Erase b b') : Erase (M.any2 a b) (M.any2 a' b') :=
  choose (ha.bind fun _ => hb.bind fun _ => pure _) (hb.bind fun _ => ha.bind fun _ => pure _)

theorem any3 (ha : Erase a a') (hb : Erase b b') (hd : Erase d d') : Erase (M.any3 a b d) (M.any3 a' b' d') :=
  choose (ha.bind fun _ => (hb.any2 hd).bind fun _ => pure _)
    (choose (hb.bind fun _ => (ha.any2 hd).bind fun _ => pure _) (hd.bind fun _ => (ha.any2 hb).bind fun _ => pure _))

theorem quad (ha : Erase a a') (hb : Erase b b') (hd : Erase d d') (he : Erase e e') :
    Erase (BI.quad a b d e) (BI.quad a' b' d' e') :=
  choose (choose (ha.bind fun _ => (hb.any3 hd he).bind fun _ => pure _) (hb.bind fun _ => (ha.any3 hd he).bind fun _ => pure _))
    (choose (hd.bind fun _ => (ha.any3 hb he).bind fun _ => pure _) (he.bind fun _ => (ha.any3 hb hd).bind fun _ => pure _))

theorem pair (ha : Erase a a') (hb : Erase b b') : Erase (BI.pair a b) (BI.pair a' b') := ha.any2 hb
end

theorem mk2 {a b : M c.counting.W α} {a' b' : M c.W α} (ha : Erase a a') (hb : Erase b b') :
    Erase (BI.mk2 a b) (BI.mk2 a' b') := (ha.pair hb).bind fun _ => pure _

theorem evalIn (f : RMode → Option α) : Erase (BI.evalIn c.counting f) (BI.evalIn c f) := fun _ => rfl

theorem modify {f : c.counting.W → c.counting.W} {g : c.W → c.W} (h : ∀ w, (f w).1 = g w.1) :
    Erase (M.modify f) (M.modify g) := fun s => by
  change (Except.ok (), (⟨g s.cw.1, s.sched⟩ : St c.W)) = (Except.ok (), ⟨(f s.cw).1, s.sched⟩)
  rw [h]

end Erase

section
variable {c : Ctl} {T : Type} [Num T] {α : Type}

/-- Operation by operation. -/
structure AErase (A : Arith (M c.counting.W) T) (B : Arith (M c.W) T) : Prop where
  convDown : ∀ v, Erase (A.convDown v) (B.convDown v)
  convUp : ∀ v, Erase (A.convUp v) (B.convUp v)
  addDown : ∀ x y, Erase (A.addDown x y) (B.addDown x y)
  addUp : ∀ x y, Erase (A.addUp x y) (B.addUp x y)
  subDown : ∀ x y, Erase (A.subDown x y) (B.subDown x y)
  subUp : ∀ x y, Erase (A.subUp x y) (B.subUp x y)
  mulDown : ∀ x y, Erase (A.mulDown x y) (B.mulDown x y)
  mulUp : ∀ x y, Erase (A.mulUp x y) (B.mulUp x y)
  divDown : ∀ x y, Erase (A.divDown x y) (B.divDown x y)
  divUp : ∀ x y, Erase (A.divUp x y) (B.divUp x y)
  median : ∀ x y, Erase (A.median x y) (B.median x y)
  sqrtDown : ∀ x, Erase (A.sqrtDown x) (B.sqrtDown x)
  sqrtUp : ∀ x, Erase (A.sqrtUp x) (B.sqrtUp x)
  intDown : ∀ x, Erase (A.intDown x) (B.intDown x)
  intUp : ∀ x, Erase (A.intUp x) (B.intUp x)
  fnDown : ∀ f x, Erase (A.fnDown f x) (B.fnDown f x)
  fnUp : ∀ f x, Erase (A.fnUp f x) (B.fnUp f x)

theorem negM_erase (x : T) : Erase (c := c) (negM x) (negM x) := Erase.lift _
theorem dn_erase (f : RMode → Option α) : Erase (dn c.counting f) (dn c f) :=
  (Erase.modify fun _ => rfl).bind fun _ => Erase.evalIn f
theorem upw_erase (f : RMode → Option α) : Erase (upw c.counting f) (upw c f) :=
  (Erase.modify fun _ => rfl).bind fun _ => Erase.evalIn f
theorem nr_erase (f : RMode → Option α) : Erase (nr c.counting f) (nr c f) :=
  (Erase.modify fun _ => rfl).bind fun _ => Erase.evalIn f
theorem upNeg_erase (f : RMode → Option T) : Erase (upNeg c.counting f) (upNeg c f) :=
  (Erase.evalIn f).bind fun _ => negM_erase _
theorem dnUp_erase (f : RMode → Option α) : Erase (dnUp c.counting f) (dnUp c f) :=
  (Erase.modify fun _ => rfl).bind fun _ => (Erase.evalIn f).bind fun _ => (Erase.modify fun _ => rfl).bind fun _ => Erase.pure _
theorem nrUp_erase (f : RMode → Option α) : Erase (nrUp c.counting f) (nrUp c f) :=
  (Erase.modify fun _ => rfl).bind fun _ => (Erase.evalIn f).bind fun _ => (Erase.modify fun _ => rfl).bind fun _ => Erase.pure _

theorem arith_exact_erase (lib : Lib T) : AErase (arithOf c.counting .exact lib) (arithOf c .exact lib) where
  convDown _ := fun _ => rfl
  convUp _ := fun _ => rfl
  addDown _ _ := fun _ => rfl
  addUp _ _ := fun _ => rfl
  subDown _ _ := fun _ => rfl
  subUp _ _ := fun _ => rfl
  mulDown _ _ := fun _ => rfl
  mulUp _ _ := fun _ => rfl
  divDown _ _ := fun _ => rfl
  divUp _ _ := fun _ => rfl
  median _ _ := fun _ => rfl
  sqrtDown _ := fun _ => rfl
  sqrtUp _ := fun _ => rfl
  intDown _ := Erase.lift _
  intUp _ := Erase.lift _
  fnDown f x := fun _ => rfl
  fnUp _ _ := fun _ => rfl

theorem arith_std_erase (lib : Lib T) : AErase (arithOf c.counting .std lib) (arithOf c .std lib) where
  convDown _ := dn_erase (c := c) _
  convUp _ := upw_erase (c := c) _
  addDown _ _ := dn_erase (c := c) _
  addUp _ _ := upw_erase (c := c) _
  subDown _ _ := dn_erase (c := c) _
  subUp _ _ := upw_erase (c := c) _
  mulDown _ _ := dn_erase (c := c) _
  mulUp _ _ := upw_erase (c := c) _
  divDown _ _ := dn_erase (c := c) _
  divUp _ _ := upw_erase (c := c) _
  median _ _ := nr_erase (c := c) _
  sqrtDown _ := dn_erase (c := c) _
  sqrtUp _ := upw_erase (c := c) _
  intDown _ := dn_erase (c := c) _
  intUp _ := upw_erase (c := c) _
  fnDown f x := dn_erase (c := c) _
  fnUp _ _ := upw_erase (c := c) _

theorem arith_opp_erase (lib : Lib T) : AErase (arithOf c.counting .opp lib) (arithOf c .opp lib) where
  convDown _ := upNeg_erase (c := c) _
  convUp _ := fun _ => rfl
  addDown _ _ := upNeg_erase (c := c) _
  addUp _ _ := fun _ => rfl
  subDown _ _ := upNeg_erase (c := c) _
  subUp _ _ := fun _ => rfl
  mulDown _ _ := upNeg_erase (c := c) _
  mulUp _ _ := fun _ => rfl
  divDown _ _ := upNeg_erase (c := c) _
  divUp _ _ := fun _ => rfl
  median _ _ := nrUp_erase (c := c) _
  sqrtDown _ := dnUp_erase (c := c) _
  sqrtUp _ := fun _ => rfl
  intDown _ := upNeg_erase (c := c) _
  intUp _ := fun _ => rfl
  fnDown f x := by
    have h0 : Erase (c := c) (do let v ← evalIn c.counting (fun r => lib f r x); let nv ← negM v; negM nv)
        (do let v ← evalIn c (fun r => lib f r x); let nv ← negM v; negM nv) :=
      (Erase.evalIn _).bind fun _ => (negM_erase _).bind fun _ => negM_erase _
    have h2 : Erase (dnUp c.counting (fun r => lib f r x)) (dnUp c (fun r => lib f r x)) := dnUp_erase (c := c) _
    cases f <;> first | exact h2 | exact h0
  fnUp _ _ := fun _ => rfl

theorem arithOf_erase (k : RKind) (lib : Lib T) : AErase (arithOf c.counting k lib) (arithOf c k lib) := by
  cases k
  · exact arith_exact_erase lib
  · exact arith_std_erase lib
  · exact arith_opp_erase lib

/-- Policies. -/
structure PErase (P : Policies (M c.counting.W) T) (Q : Policies (M c.W) T) : Prop where
  chk : P.chk = Q.chk
  rnd : AErase P.rnd.toArith Q.rnd.toArith
  unp : AErase P.unp.toArith Q.unp.toArith
  scope : ∀ {α : Type} {a : M c.counting.W α} {b : M c.W α}, Erase a b → Erase (P.rnd.scope a) (Q.rnd.scope b)
  scopeU : ∀ {α : Type} {a : M c.counting.W α} {b : M c.W α}, Erase a b → Erase (P.unp.scope a) (Q.unp.scope b)
  cur : ∀ {α : Type} (f : RMode → Option α), Erase (P.cur f) (Q.cur f)

theorem PErase.unprot {P : Policies (M c.counting.W) T} {Q : Policies (M c.W) T} (h : PErase P Q) :
    PErase P.unprot Q.unprot := ⟨h.chk, h.unp, h.unp, h.scopeU, h.scopeU, h.cur⟩

theorem protPolicies_erase (k : RKind) (lib : Lib T) (C : Checking T) :
    PErase (protPolicies c.counting k lib C) (protPolicies c k lib C) where
  chk := rfl
  rnd := arithOf_erase k lib
  unp := arithOf_erase k lib
  scope := fun {α a b} h s => by
    have e := h { s with cw := initOf c.counting k s.cw }
    have hi : (initOf c.counting k s.cw).1 = initOf c k s.cw.1 := by cases k <;> rfl
    have hb : (St.bare { s with cw := initOf c.counting k s.cw } : St c.W) = { s.bare with cw := initOf c k s.bare.cw } := by
      change (⟨_, _⟩ : St c.W) = ⟨_, _⟩
      rw [hi]; rfl
    rw [hb] at e
    change ((b { s.bare with cw := initOf c k s.bare.cw }).1,
      ({ (b { s.bare with cw := initOf c k s.bare.cw }).2 with
        cw := c.set (c.get s.bare.cw) (b { s.bare with cw := initOf c k s.bare.cw }).2.cw } : St c.W)) = _
    rw [e]
    rfl
  scopeU := fun h => h
  cur := fun f => Erase.evalIn f

theorem barePolicies_erase (k : RKind) (lib : Lib T) (C : Checking T) :
    PErase (barePolicies c.counting k lib C) (barePolicies c k lib C) where
  chk := rfl
  rnd := arithOf_erase k lib
  unp := arithOf_erase k lib
  scope := fun h => h
  scopeU := fun h => h
  cur := fun f => Erase.evalIn f

theorem libPolicies_erase (k : RKind) (lib : Lib T) (C : Checking T) :
    PErase (libPolicies c.counting k lib C) (libPolicies c k lib C) := by
  cases k
  · exact barePolicies_erase _ lib C
  · exact protPolicies_erase _ lib C
  · exact protPolicies_erase _ lib C

variable {P : Policies (M c.counting.W) T} {Q : Policies (M c.W) T}

/-- Follow the structure of the two computations; further facts are looked up in the context. -/
macro "erase_all" h:ident : tactic => `(tactic|
  repeat' first
    | with_reducible exact Erase.lift _
    | with_reducible exact Erase.pure _
    | with_reducible exact negM_erase _
    | with_reducible refine Erase.ite ?_ ?_
    | with_reducible refine Erase.bind ?_ (fun _ => ?_)
    | with_reducible refine Erase.mk2 ?_ ?_
    | with_reducible refine Erase.quad ?_ ?_ ?_ ?_
    | with_reducible refine PErase.scope $h ?_
    | with_reducible exact (PErase.rnd $h).addDown _ _
    | with_reducible exact (PErase.rnd $h).addUp _ _
    | with_reducible exact (PErase.rnd $h).subDown _ _
    | with_reducible exact (PErase.rnd $h).subUp _ _
    | with_reducible exact (PErase.rnd $h).mulDown _ _
    | with_reducible exact (PErase.rnd $h).mulUp _ _
    | with_reducible exact (PErase.rnd $h).divDown _ _
    | with_reducible exact (PErase.rnd $h).divUp _ _
    | with_reducible exact (PErase.rnd $h).median _ _
    | with_reducible exact (PErase.rnd $h).sqrtDown _
    | with_reducible exact (PErase.rnd $h).sqrtUp _
    | with_reducible exact (PErase.rnd $h).intDown _
    | with_reducible exact (PErase.rnd $h).intUp _
    | with_reducible exact (PErase.rnd $h).convDown _
    | with_reducible exact (PErase.rnd $h).convUp _
    | with_reducible exact (PErase.rnd $h).fnDown _ _
    | with_reducible exact (PErase.rnd $h).fnUp _ _
    | with_reducible exact PErase.cur $h _
    | solve_by_elim -symm -exfalso)

theorem addII_erase (h : PErase P Q) (x y : Itv T) : Erase (addII P x y) (addII Q x y) := by
  unfold addII
  rw [h.chk]
  erase_all h

theorem addTI_erase (h : PErase P Q) (x : T) (y : Itv T) : Erase (addTI P x y) (addTI Q x y) := by
  unfold addTI
  rw [h.chk]
  erase_all h

theorem subII_erase (h : PErase P Q) (x y : Itv T) : Erase (subII P x y) (subII Q x y) := by
  unfold subII
  rw [h.chk]
  erase_all h

theorem subTI_erase (h : PErase P Q) (x : T) (y : Itv T) : Erase (subTI P x y) (subTI Q x y) := by
  unfold subTI
  rw [h.chk]
  erase_all h

theorem subIT_erase (h : PErase P Q) (x : Itv T) (y : T) : Erase (subIT P x y) (subIT Q x y) := by
  unfold subIT
  rw [h.chk]
  erase_all h

theorem mulII_erase (h : PErase P Q) (x y : Itv T) : Erase (mulII P x y) (mulII Q x y) := by
  unfold mulII mulBody
  rw [h.chk]
  erase_all h

theorem mulTI_erase (h : PErase P Q) (x : T) (y : Itv T) : Erase (mulTI P x y) (mulTI Q x y) := by
  unfold mulTI
  rw [h.chk]
  erase_all h

theorem divNonZeroII_erase (h : PErase P Q) (x y : Itv T) : Erase (divNonZeroII P x y) (divNonZeroII Q x y) := by
  unfold divNonZeroII
  erase_all h

theorem divNonZeroTI_erase (h : PErase P Q) (x : T) (y : Itv T) : Erase (divNonZeroTI P x y) (divNonZeroTI Q x y) := by
  unfold divNonZeroTI
  erase_all h

theorem divPositiveI_erase (h : PErase P Q) (x : Itv T) (y : T) : Erase (divPositiveI P x y) (divPositiveI Q x y) := by
  unfold divPositiveI mkNegInf mkPosInf
  rw [h.chk]
  erase_all h

theorem divNegativeI_erase (h : PErase P Q) (x : Itv T) (y : T) : Erase (divNegativeI P x y) (divNegativeI Q x y) := by
  unfold divNegativeI mkNegInf mkPosInf
  rw [h.chk]
  erase_all h

theorem divPositiveT_erase (h : PErase P Q) (x y : T) : Erase (divPositiveT P x y) (divPositiveT Q x y) := by
  unfold divPositiveT mkNegInf mkPosInf
  rw [h.chk]
  erase_all h

theorem divNegativeT_erase (h : PErase P Q) (x y : T) : Erase (divNegativeT P x y) (divNegativeT Q x y) := by
  unfold divNegativeT mkNegInf mkPosInf
  rw [h.chk]
  erase_all h

theorem divZeroPart1_erase (h : PErase P Q) (x y : Itv T) : Erase (divZeroPart1 P x y) (divZeroPart1 Q x y) := by
  unfold divZeroPart1 mkNegInf
  rw [h.chk]
  erase_all h

theorem divZeroPart2_erase (h : PErase P Q) (x y : Itv T) : Erase (divZeroPart2 P x y) (divZeroPart2 Q x y) := by
  unfold divZeroPart2 mkPosInf
  rw [h.chk]
  erase_all h

theorem divII_erase (h : PErase P Q) (x y : Itv T) : Erase (divII P x y) (divII Q x y) := by
  unfold divII divZeroI
  rw [h.chk]
  have h1 := divNegativeI_erase h
  have h2 := divPositiveI_erase h
  have h3 := divNonZeroII_erase h
  erase_all h

theorem divTI_erase (h : PErase P Q) (x : T) (y : Itv T) : Erase (divTI P x y) (divTI Q x y) := by
  unfold divTI divZeroT
  rw [h.chk]
  have h1 := divNegativeT_erase h
  have h2 := divPositiveT_erase h
  have h3 := divNonZeroTI_erase h
  erase_all h

theorem divIT_erase (h : PErase P Q) (x : Itv T) (y : T) : Erase (divIT P x y) (divIT Q x y) := by
  unfold divIT
  rw [h.chk]
  erase_all h

theorem addTT_erase (h : PErase P Q) (x y : T) : Erase (addTT P x y) (addTT Q x y) := by
  unfold addTT
  rw [h.chk]
  erase_all h

theorem subTT_erase (h : PErase P Q) (x y : T) : Erase (subTT P x y) (subTT Q x y) := by
  unfold subTT
  rw [h.chk]
  erase_all h

theorem mulTT_erase (h : PErase P Q) (x y : T) : Erase (mulTT P x y) (mulTT Q x y) := by
  unfold mulTT
  rw [h.chk]
  erase_all h

theorem divTT_erase (h : PErase P Q) (x y : T) : Erase (divTT P x y) (divTT Q x y) := by
  unfold divTT
  rw [h.chk]
  erase_all h

theorem backI_erase (same : Bool) (C : Checking T) (r : Itv T) : Erase (c := c) (backI same C r) (backI same C r) := by
  cases same
  · exact Erase.lift _
  · exact Erase.pure _

theorem fmodAux_erase (h : PErase P Q) (same : Bool) (x y : Itv T) : Erase (fmodAux same P x y) (fmodAux same Q x y) := by
  have h1 := mulTI_erase h.unprot
  have h2 := subII_erase h.unprot
  have h3 := backI_erase (c := c) (T := T)
  unfold fmodAux
  rw [h.chk]
  erase_all h

theorem fmodIT_erase (h : PErase P Q) (x : Itv T) (y : T) : Erase (fmodIT P x y) (fmodIT Q x y) := by
  unfold fmodIT
  rw [h.chk]
  have h1 := mulTI_erase h.unprot
  have h2 := subII_erase h.unprot
  have h3 := subTI_erase h.unprot
  erase_all h

theorem fmodTI_erase (h : PErase P Q) (x : T) (y : Itv T) : Erase (fmodTI P x y) (fmodTI Q x y) := by
  unfold fmodTI
  rw [h.chk]
  have h1 := mulTI_erase h.unprot
  have h2 := subII_erase h.unprot
  have h3 := subTI_erase h.unprot
  erase_all h

theorem divisionPart1_erase (h : PErase P Q) (x y : Itv T) : Erase (divisionPart1 P x y) (divisionPart1 Q x y) := by
  unfold divisionPart1
  rw [h.chk]
  have h1 := divNegativeI_erase h
  have h2 := divPositiveI_erase h
  have h3 := divNonZeroII_erase h
  have h4 := divZeroPart1_erase h
  erase_all h

theorem divisionPart2_erase (h : PErase P Q) (x y : Itv T) (b : Bool) : Erase (divisionPart2 P x y b) (divisionPart2 Q x y b) := by
  unfold divisionPart2
  rw [h.chk]
  have h4 := divZeroPart2_erase h
  erase_all h

theorem multInv_erase (h : PErase P Q) (x : Itv T) : Erase (multInv P x) (multInv Q x) := by
  unfold multInv mkNegInf mkPosInf
  rw [h.chk]
  erase_all h

theorem powLoop_erase {f : T → T → M c.counting.W T} {g : T → T → M c.W T} (hm : ∀ x y, Erase (f x y) (g x y)) (n : Nat)
    (x y : T) : Erase (powLoop f n x y) (powLoop g n x y) := by
  induction n using Nat.strong_induction_on generalizing x y with
  | _ n ih =>
    rw [powLoop, powLoop]
    by_cases hn : n = 0
    · rw [if_pos hn, if_pos hn]; exact Erase.pure _
    · rw [if_neg hn, if_neg hn]
      exact (hm _ _).bind fun x => (Erase.ite (hm _ _) (Erase.pure _)).bind fun y => ih (n / 2) (by omega) x y

theorem powNat_erase (h : PErase P Q) (x : Itv T) (n : Nat) : Erase (powNat P x n) (powNat Q x n) := by
  have h1 : ∀ x, Erase (powAux P.rnd.mulDown x n) (powAux Q.rnd.mulDown x n) := fun x => powLoop_erase h.rnd.mulDown _ _ _
  have h2 : ∀ x, Erase (powAux P.rnd.mulUp x n) (powAux Q.rnd.mulUp x n) := fun x => powLoop_erase h.rnd.mulUp _ _ _
  unfold powNat
  rw [h.chk]
  erase_all h

theorem powI_erase (h : PErase P Q) (x : Itv T) (k : Int) : Erase (powI P x k) (powI Q x k) := by
  have h1 := powNat_erase h
  have h2 := multInv_erase h
  unfold powI
  rw [h.chk]
  erase_all h

theorem sqrtI_erase (h : PErase P Q) (x : Itv T) : Erase (sqrtI P x) (sqrtI Q x) := by
  unfold sqrtI
  rw [h.chk]
  erase_all h

theorem squareI_erase (h : PErase P Q) (x : Itv T) : Erase (squareI P x) (squareI Q x) := by
  unfold squareI
  rw [h.chk]
  erase_all h

theorem width_erase (h : PErase P Q) (x : Itv T) : Erase (width P x) (width Q x) := by
  unfold width
  rw [h.chk]
  erase_all h

theorem median_erase (h : PErase P Q) (x : Itv T) : Erase (median P x) (median Q x) := by
  unfold median
  rw [h.chk]
  erase_all h

theorem widen_erase (h : PErase P Q) (x : Itv T) (y : T) : Erase (widen P x y) (widen Q x y) := by
  unfold widen
  rw [h.chk]
  erase_all h

theorem bisect_erase (h : PErase P Q) (x : Itv T) : Erase (bisect P x) (bisect Q x) := by
  unfold bisect
  rw [h.chk]
  have h1 := median_erase h
  erase_all h

theorem rootLoop_erase (h : PErase P Q) (tk x : T) (k : Int) (fuel : Nat) (y : Itv T) :
    Erase (rootLoop P tk x k fuel y) (rootLoop Q tk x k fuel y) := by
  induction fuel generalizing y with
  | zero => exact Erase.lift _
  | succ n ih =>
    have h1 := median_erase h
    have h2 := powI_erase h
    have h3 := subIT_erase h
    have h4 := mulTI_erase h
    have h5 := divII_erase h
    have h6 := subTI_erase h
    unfold rootLoop rootStep
    rw [h.chk]
    erase_all h

theorem rootAux_erase (h : PErase P Q) (fuel : Nat) (x : T) (k : Int) : Erase (rootAux P fuel x k) (rootAux Q fuel x k) := by
  have h1 := rootLoop_erase h
  unfold rootAux
  erase_all h

theorem rootAuxDn_erase (h : PErase P Q) (fuel : Nat) (x : T) (k : Int) :
    Erase (rootAuxDn P fuel x k) (rootAuxDn Q fuel x k) := by
  have h1 := rootAux_erase h
  unfold rootAuxDn
  erase_all h

theorem rootAuxUp_erase (h : PErase P Q) (fuel : Nat) (x : T) (k : Int) :
    Erase (rootAuxUp P fuel x k) (rootAuxUp Q fuel x k) := by
  have h1 := rootAux_erase h
  unfold rootAuxUp
  erase_all h

theorem nthRoot_erase (h : PErase P Q) (nd : Bool) (fuel : Nat) (x : Itv T) (k : Int) :
    Erase (nthRoot P nd fuel x k) (nthRoot Q nd fuel x k) := by
  have h1 := rootAuxUp_erase h.unprot
  have h2 := rootAuxDn_erase h.unprot
  unfold nthRoot
  rw [h.chk]
  erase_all h

theorem increasingI_erase (h : PErase P Q) (f : Fn) (x : Itv T) : Erase (increasingI f P x) (increasingI f Q x) := by
  unfold increasingI
  rw [h.chk]
  erase_all h

theorem cosAux_erase (h : PErase P Q) (K : PiConst T) (same : Bool) (fuel : Nat) (x : Itv T) :
    Erase (cosAux K same fuel P x) (cosAux K same fuel Q x) := by
  induction fuel generalizing P Q same x with
  | zero => exact Erase.lift _
  | succ n ih =>
    have h1 := fmodAux_erase h.unprot
    have h2 := width_erase h.unprot
    have h3 := subII_erase h.unprot
    have h4 := ih h.unprot
    have h5 := backI_erase (c := c) (T := T)
    clear ih
    unfold cosAux
    rw [h.chk]
    erase_all h

theorem sinI_erase (h : PErase P Q) (K : PiConst T) (fuel : Nat) (x : Itv T) : Erase (sinI K fuel P x) (sinI K fuel Q x) := by
  have h3 := subII_erase h.unprot
  have h4 := cosAux_erase h.unprot
  unfold sinI
  rw [h.chk]
  erase_all h

theorem tanI_erase (h : PErase P Q) (K : PiConst T) (x : Itv T) : Erase (tanI K P x) (tanI K Q x) := by
  have h1 := fmodAux_erase h.unprot
  have h3 := subII_erase h.unprot
  unfold tanI
  rw [h.chk]
  erase_all h

theorem asinI_erase (h : PErase P Q) (K : PiConst T) (x : Itv T) : Erase (asinI K P x) (asinI K Q x) := by
  unfold asinI
  rw [h.chk]
  erase_all h

theorem acosI_erase (h : PErase P Q) (K : PiConst T) (x : Itv T) : Erase (acosI K P x) (acosI K Q x) := by
  unfold acosI
  rw [h.chk]
  erase_all h

theorem logI_erase (h : PErase P Q) (x : Itv T) : Erase (logI P x) (logI Q x) := by
  unfold logI
  rw [h.chk]
  erase_all h

theorem coshI_erase (h : PErase P Q) (x : Itv T) : Erase (coshI P x) (coshI Q x) := by
  unfold coshI
  rw [h.chk]
  erase_all h

theorem acoshI_erase (h : PErase P Q) (x : Itv T) : Erase (acoshI P x) (acoshI Q x) := by
  unfold acoshI
  rw [h.chk]
  erase_all h

theorem atanhI_erase (h : PErase P Q) (x : Itv T) : Erase (atanhI P x) (atanhI Q x) := by
  unfold atanhI
  rw [h.chk]
  erase_all h

theorem ctorSrc_erase (h : PErase P Q) (v : Src T) : Erase (ctorSrc P v) (ctorSrc Q v) := by
  unfold ctorSrc
  rw [h.chk]
  erase_all h

theorem ctorSrc2_erase (h : PErase P Q) (l u : Src T) (le : Bool) : Erase (ctorSrc2 P l u le) (ctorSrc2 Q l u le) := by
  unfold ctorSrc2
  rw [h.chk]
  erase_all h

theorem ctorItv_erase (h : PErase P Q) (e : Res Bool) (l u : Src T) : Erase (ctorItv P e l u) (ctorItv Q e l u) := by
  unfold ctorItv
  rw [h.chk]
  erase_all h

theorem Call.erase (h : PErase P Q) (q : Call T α) : Erase (q.run P) (q.run Q) := by
  cases q with
  | addII x y => exact addII_erase h x y
  | addTI x y => exact addTI_erase h x y
  | addIT x y => exact addTI_erase h y x
  | subII x y => exact subII_erase h x y
  | subTI x y => exact subTI_erase h x y
  | subIT x y => exact subIT_erase h x y
  | mulII x y => exact mulII_erase h x y
  | mulTI x y => exact mulTI_erase h x y
  | mulIT x y => exact mulTI_erase h y x
  | divII x y => exact divII_erase h x y
  | divTI x y => exact divTI_erase h x y
  | divIT x y => exact divIT_erase h x y
  | addTT x y => exact addTT_erase h x y
  | subTT x y => exact subTT_erase h x y
  | mulTT x y => exact mulTT_erase h x y
  | divTT x y => exact divTT_erase h x y
  | addIInt x n => exact (h.cur _).bind fun t => addTI_erase h t x
  | addIntI n y => exact (h.cur _).bind fun t => addTI_erase h t y
  | subIInt x n => exact (h.cur _).bind fun t => subIT_erase h x t
  | subIntI n y => exact (h.cur _).bind fun t => subTI_erase h t y
  | mulIInt x n => exact (h.cur _).bind fun t => mulTI_erase h t x
  | mulIntI n y => exact (h.cur _).bind fun t => mulTI_erase h t y
  | divIInt x n => exact (h.cur _).bind fun t => divIT_erase h x t
  | divIntI n y => exact (h.cur _).bind fun t => divTI_erase h t y
  | fmodII x y => exact fmodAux_erase h false x y
  | fmodIT x y => exact fmodIT_erase h x y
  | fmodTI x y => exact fmodTI_erase h x y
  | divisionPart1 x y => exact divisionPart1_erase h x y
  | divisionPart2 x y b => exact divisionPart2_erase h x y b
  | multInv x => exact multInv_erase h x
  | pow x k => exact powI_erase h x k
  | sqrt x => exact sqrtI_erase h x
  | square x => exact squareI_erase h x
  | nthRoot nd fuel x k => exact nthRoot_erase h nd fuel x k
  | width x => exact width_erase h x
  | median x => exact median_erase h x
  | widen x v => exact widen_erase h x v
  | bisect x => exact bisect_erase h x
  | exp x => exact increasingI_erase h .exp x
  | log x => exact logI_erase h x
  | cos K fuel x => exact cosAux_erase h K false fuel x
  | sin K fuel x => exact sinI_erase h K fuel x
  | tan K x => exact tanI_erase h K x
  | asin K x => exact asinI_erase h K x
  | acos K x => exact acosI_erase h K x
  | atan x => exact increasingI_erase h .atan x
  | sinh x => exact increasingI_erase h .sinh x
  | cosh x => exact coshI_erase h x
  | tanh x => exact increasingI_erase h .tanh x
  | asinh x => exact increasingI_erase h .asinh x
  | acosh x => exact acoshI_erase h x
  | atanh x => exact atanhI_erase h x
  | ctorSrc v => exact ctorSrc_erase h v
  | ctorSrc2 l u le => exact ctorSrc2_erase h l u le
  | ctorItv e l u => exact ctorItv_erase h e l u
  | chk f =>
    change Erase (lift (f P.chk)) (lift (f Q.chk))
    rw [h.chk]; exact Erase.lift _

theorem Prog.erase (h : PErase P Q) (q : Prog T α) : Erase (q.run P) (q.run Q) := by
  induction q generalizing P Q with
  | ret a => exact Erase.pure _
  | fail e => exact Erase.lift _
  | call d k ih => exact (d.erase h).bind fun b => ih b h
  | region body k ih ih' => exact (h.scope (ih h.unprot)).bind fun b => ih' b h

end
end BI
