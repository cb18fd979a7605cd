import Verif.Proofs.CutFns
import Verif.Spec.Handler
/-! # Programs and formulas respect the relation of Proofs/Cut.lean -/

set_option linter.unusedSectionVars false

namespace BI
variable {G : CutRel} {W : Type} {T : Type} [Num T] {P : Policies (M W) T} {C C' : Checking T}

theorem LibFn.rcut (h : CCut G C C') {α : Type} {f : Checking T → Res α} (hf : LibFn f) : RCut G (f C) (f C') := by
  have err : ∀ {α : Type} (e : Err), RCut G (.error e : Res α) (.error e) := fun _ => RCut.refl _
  cases hf with
  | plain r => exact RCut.refl _
  | empty => exact emptyI_rcut h
  | whole => exact wholeI_rcut h
  | ctorT v => exact ctorT_rcut h v
  | ctorTT l u => exact ctorTT_rcut h l u
  | hullTT l u => exact hullTT_rcut h l u
  | lower x => exact checkedLower_rcut h x
  | upper x => exact checkedUpper_rcut h x
  | isEmpty x => exact testI_rcut h x
  | zeroIn x => exact zeroIn_rcut h x
  | inI t x => exact inI_rcut h t x
  | subset x y => exact subset_rcut h x y
  | properSubset x y => exact properSubset_rcut h x y
  | overlap x y => exact overlap_rcut h x y
  | singleton x => exact singleton_rcut h x
  | equal x y => exact equal_rcut h x y
  | intersect x y => exact intersect_rcut h x y
  | hullII x y => exact hullII_rcut h x y
  | hullIT x t => exact hullIT_rcut h x t
  | hullTI t x => exact hullTI_rcut h t x
  | norm x => exact norm_rcut h x
  | neg x => exact negI_rcut h x
  | abs x => exact absI_rcut h x
  | maxII x y => exact maxII_rcut h x y
  | maxIT x t => exact maxIT_rcut h x t
  | maxTI t x => exact maxTI_rcut h t x
  | minII x y => exact minII_rcut h x y
  | minIT x t => exact minIT_rcut h x t
  | minTI t x => exact minTI_rcut h t x
  | cmpII r x y => exact cmpII_rcut h r x y
  | cmpIT r x t => exact cmpIT_rcut h r x t
  | certainII r x y => exact (testII_rcut h x y).bind fun _ => RCut.ite (RCut.refl _) (RCut.refl _)
  | certainIT r x t => exact (testIT_rcut h x t).bind fun _ => RCut.ite (RCut.refl _) (RCut.refl _)
  | possibleII r x y => exact (testII_rcut h x y).bind fun _ => RCut.ite (RCut.refl _) (RCut.refl _)
  | possibleIT r x t => exact (testIT_rcut h x t).bind fun _ => RCut.ite (RCut.refl _) (RCut.refl _)
  | triII r x y => exact (testII_rcut h x y).bind fun _ => RCut.ite (RCut.refl _) (RCut.refl _)
  | triIT r x t => exact (testIT_rcut h x t).bind fun _ => RCut.ite (RCut.refl _) (RCut.refl _)
  | lexII r x y => exact (testII_rcut h x y).bind fun _ => RCut.ite (RCut.refl _) (RCut.refl _)
  | lexIT r x t => exact (testIT_rcut h x t).bind fun _ => RCut.ite (RCut.refl _) (RCut.refl _)
  | setII r x y =>
    cases r
    · exact properSubset_rcut h x y
    · exact subset_rcut h x y
    · exact properSubset_rcut h y x
    · exact subset_rcut h y x
    · exact equal_rcut h y x
    · exact (equal_rcut h y x).bind fun _ => RCut.refl _

theorem Call.cut (h : PCut G P C') {α : Type} (c : Call T α) (hc : c.Library) : MCut G (c.run P) (c.run (P.recheck C')) := by
  cases c with
  | addII x y => exact addII_cut h x y
  | addTI x y => exact addTI_cut h x y
  | addIT x y => exact addIT_cut h x y
  | subII x y => exact subII_cut h x y
  | subTI x y => exact subTI_cut h x y
  | subIT x y => exact subIT_cut h x y
  | mulII x y => exact mulII_cut h x y
  | mulTI x y => exact mulTI_cut h x y
  | mulIT x y => exact mulIT_cut h x y
  | divII x y => exact divII_cut h x y
  | divTI x y => exact divTI_cut h x y
  | divIT x y => exact divIT_cut h x y
  | addTT x y => exact addTT_cut h x y
  | subTT x y => exact subTT_cut h x y
  | mulTT x y => exact mulTT_cut h x y
  | divTT x y => exact divTT_cut h x y
  | addIInt x n => exact addIInt_cut h x n
  | addIntI n y => exact addIntI_cut h n y
  | subIInt x n => exact subIInt_cut h x n
  | subIntI n y => exact subIntI_cut h n y
  | mulIInt x n => exact mulIInt_cut h x n
  | mulIntI n y => exact mulIntI_cut h n y
  | divIInt x n => exact divIInt_cut h x n
  | divIntI n y => exact divIntI_cut h n y
  | fmodII x y => exact fmodII_cut h x y
  | fmodIT x y => exact fmodIT_cut h x y
  | fmodTI x y => exact fmodTI_cut h x y
  | divisionPart1 x y => exact divisionPart1_cut h x y
  | divisionPart2 x y b => exact divisionPart2_cut h x y b
  | multInv x => exact multInv_cut h x
  | pow x k => exact powI_cut h x k
  | sqrt x => exact sqrtI_cut h x
  | square x => exact squareI_cut h x
  | nthRoot nd fuel x k => exact nthRoot_cut h nd fuel x k
  | width x => exact width_cut h x
  | median x => exact median_cut h x
  | widen x v => exact widen_cut h x v
  | bisect x => exact bisect_cut h x
  | exp x => exact increasingI_cut h .exp x
  | log x => exact logI_cut h x
  | cos K fuel x => exact cosI_cut h K fuel x
  | sin K fuel x => exact sinI_cut h K fuel x
  | tan K x => exact tanI_cut h K x
  | asin K x => exact asinI_cut h K x
  | acos K x => exact acosI_cut h K x
  | atan x => exact increasingI_cut h .atan x
  | sinh x => exact increasingI_cut h .sinh x
  | cosh x => exact coshI_cut h x
  | tanh x => exact increasingI_cut h .tanh x
  | asinh x => exact increasingI_cut h .asinh x
  | acosh x => exact acoshI_cut h x
  | atanh x => exact atanhI_cut h x
  | ctorSrc v => exact ctorSrc_cut h v
  | ctorSrc2 l u le => exact ctorSrc2_cut h l u le
  | ctorItv e l u => exact ctorItv_cut h e l u
  | chk f => exact MCut.lift (LibFn.rcut h.chk hc)

theorem Prog.cut {α : Type} (p : Prog T α) (hp : p.Library) {P : Policies (M W) T} (h : PCut G P C') :
    MCut G (p.run P) (p.run (P.recheck C')) := by
  induction p generalizing P with
  | ret a => exact MCut.refl _
  | fail e => exact MCut.refl _
  | call c k ih => exact (c.cut h hp.1).bind fun b => ih b (hp.2 b) h
  | region body k ih1 ih2 => exact (h.scope (ih1 hp.1 h.unprot)).bind fun b => ih2 b (hp.2 b) h

/-! ## With and without `NDEBUG` -/

/-- Two policies; with assertions enabled (`b`) on the left, disabled on the right. -/
theorem assert_rcut {b b' : Bool} (hb : b = b' ∨ b' = true ∧ G .assertion none) (t : Bool) :
    RCut G (assertRes b t) (assertRes b' t) := by
  rcases hb with rfl | ⟨rfl, hG⟩
  · exact RCut.refl _
  · cases b
    · cases t
      · exact .inr ⟨.assertion, rfl, .inl hG⟩
      · exact RCut.refl _
    · exact RCut.refl _

theorem nthRoot_nd (h : G .assertion none) (P : Policies (M W) T) (fuel : Nat) (x : Itv T) (k : Int) :
    MCut G (nthRoot P false fuel x k) (nthRoot P true fuel x k) := by
  unfold nthRoot
  refine (MCut.refl _).bind fun b => MCut.ite (MCut.refl _) ?_
  exact (MCut.lift (assert_rcut (.inr ⟨rfl, h⟩) _)).bind fun _ => MCut.refl _

theorem MCut.trans_none {α : Type} {a b c : M W α} (hG : ∀ e e', ¬G e (some e')) (h1 : MCut G a b) (h2 : MCut G b c) :
    MCut G a c := fun s => by
  rcases h1 s with h | ⟨e, h, h' | ⟨e', h', _⟩⟩
  · rcases h2 s with h3 | ⟨e, h3, h4⟩
    · exact .inl (h3.trans h)
    · rcases h4 with h4 | ⟨e', h4, _⟩
      · exact .inr ⟨e, h ▸ h3, .inl h4⟩
      · exact absurd h4 (hG _ _)
  · exact .inr ⟨e, h, .inl h'⟩
  · exact absurd h' (hG _ _)

theorem Call.cut_nd (hG : G .assertion none) (hG' : ∀ e e', ¬G e (some e')) (h : PCut G P C') {α : Type} (c : Call T α)
    (hc : c.Library) : MCut G ((c.ndebug false).run P) ((c.ndebug true).run (P.recheck C')) := by
  cases c with
  | nthRoot nd fuel x k => exact (nthRoot_nd hG P fuel x k).trans_none hG' (nthRoot_cut h true fuel x k)
  | _ => exact Call.cut h _ hc

theorem Prog.cut_nd (hG : G .assertion none) (hG' : ∀ e e', ¬G e (some e')) {α : Type} (p : Prog T α) (hp : p.Library)
    {P : Policies (M W) T} (h : PCut G P C') : MCut G ((p.ndebug false).run P) ((p.ndebug true).run (P.recheck C')) := by
  induction p generalizing P with
  | ret a => exact MCut.refl _
  | fail e => exact MCut.refl _
  | call c k ih => exact (c.cut_nd hG hG' h hp.1).bind fun b => ih b (hp.2 b) h
  | region body k ih1 ih2 => exact (h.scope (ih1 hp.1 h.unprot)).bind fun b => ih2 b (hp.2 b) h

/-! ## Formulas -/

theorem BinOp.cutII (h : PCut G P C') (o : BinOp) (x y : Itv T) : MCut G (o.II P x y) (o.II (P.recheck C') x y) := by
  cases o
  · exact addII_cut h x y
  · exact subII_cut h x y
  · exact mulII_cut h x y
  · exact divII_cut h x y
  · exact MCut.lift (minII_rcut h.chk x y)
  · exact MCut.lift (maxII_rcut h.chk x y)
  · exact MCut.lift (hullII_rcut h.chk x y)

theorem BinOp.cutTI (h : PCut G P C') (o : BinOp) (x : T) (y : Itv T) : MCut G (o.TI P x y) (o.TI (P.recheck C') x y) := by
  cases o
  · exact addTI_cut h x y
  · exact subTI_cut h x y
  · exact mulTI_cut h x y
  · exact divTI_cut h x y
  · exact MCut.lift (minTI_rcut h.chk x y)
  · exact MCut.lift (maxTI_rcut h.chk x y)
  · exact MCut.lift (hullTI_rcut h.chk x y)

theorem BinOp.cutIT (h : PCut G P C') (o : BinOp) (x : Itv T) (y : T) : MCut G (o.IT P x y) (o.IT (P.recheck C') x y) := by
  cases o
  · exact addIT_cut h x y
  · exact subIT_cut h x y
  · exact mulIT_cut h x y
  · exact divIT_cut h x y
  · exact MCut.lift (minIT_rcut h.chk x y)
  · exact MCut.lift (maxIT_rcut h.chk x y)
  · exact MCut.lift (hullIT_rcut h.chk x y)

theorem UnOp.cut (h : PCut G P C') (o : UnOp) (x : Itv T) : MCut G (o.I P x) (o.I (P.recheck C') x) := by
  cases o
  · exact MCut.refl _
  · exact MCut.lift (negI_rcut h.chk x)
  · exact MCut.lift (absI_rcut h.chk x)
  · exact squareI_cut h x
  · exact sqrtI_cut h x
  · exact multInv_cut h x

theorem Fn.cut (h : PCut G P C') (K : PiConst T) (fuel : Nat) (f : Fn) (x : Itv T) :
    MCut G (f.I K fuel P x) (f.I K fuel (P.recheck C') x) := by
  cases f
  · exact increasingI_cut h .exp x
  · exact logI_cut h x
  · exact sinI_cut h K fuel x
  · exact cosI_cut h K fuel x
  · exact tanI_cut h K x
  · exact asinI_cut h K x
  · exact acosI_cut h K x
  · exact increasingI_cut h .atan x
  · exact increasingI_cut h .sinh x
  · exact coshI_cut h x
  · exact increasingI_cut h .tanh x
  · exact increasingI_cut h .asinh x
  · exact acoshI_cut h x
  · exact atanhI_cut h x

theorem Expr.cut (h : PCut G P C') (K : PiConst T) (fuel : Nat) (ρ : Nat → Itv T) (e : Expr T) :
    MCut G (e.eval K fuel P ρ) (e.eval K fuel (P.recheck C') ρ) := by
  induction e with
  | var i => exact MCut.refl _
  | num t => exact MCut.lift (ctorT_rcut h.chk t)
  | un o e ih => exact ih.bind fun x => o.cut h x
  | pow e k ih => exact ih.bind fun x => powI_cut h x k
  | bin o a b iha ihb => exact (iha.pair ihb).bind fun p => o.cutII h p.1 p.2
  | binL o t e ih => exact ih.bind fun x => o.cutTI h t x
  | binR o e t ih => exact ih.bind fun x => o.cutIT h x t
  | inter a b iha ihb => exact (iha.pair ihb).bind fun p => MCut.lift (intersect_rcut h.chk _ _)
  | fn f e ih => exact ih.bind fun x => f.cut h K fuel x

/-! ## The policies of the library -/

theorem saveState_cut {c : Ctl} (init : c.W → c.W) (A : Arith (M c.W) T) {α : Type} {a b : M c.W α} (h : MCut G a b) :
    MCut G ((saveState c init A).scope a) ((saveState c init A).scope b) := fun s => by
  have h := h { s with cw := init s.cw }
  unfold saveState
  dsimp only
  rcases h with h | ⟨e, h1, h | ⟨e', h, h2⟩⟩
  · rw [h]; exact .inl rfl
  · exact .inr ⟨e, h1, .inl h⟩
  · refine .inr ⟨e, h1, .inr ⟨e', h, ?_⟩⟩
    rw [h2]

theorem lib_pcut (ct : Ctl) (k : RKind) (lib : Lib T) (h : CCut G C C') :
    PCut G (libPolicies ct k lib C) C' ∧ (libPolicies ct k lib C).recheck C' = libPolicies ct k lib C' := by
  cases k
  · exact ⟨⟨h, fun h => h, fun h => h⟩, rfl⟩
  · exact ⟨⟨h, fun h => saveState_cut _ _ h, fun h => h⟩, rfl⟩
  · exact ⟨⟨h, fun h => saveState_cut _ _ h, fun h => h⟩, rfl⟩

end BI
