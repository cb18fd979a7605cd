import Verif.Proofs.ClientSim
import Verif.Proofs.FloatLaws
import Verif.Model.Conv
/-! # The `opp` and the `std` arithmetic agree on floating-point formats -/

set_option linter.unusedSectionVars false

namespace BI
variable {f : Fmt}

theorem opp_eq_std' (lib lib' : Lib (Fl f)) : ∃ cd fd fu,
    pureArith .opp lib' = { pureArith .std lib with convDown := cd, fnDown := fd, fnUp := fu } ∧
      ∀ v : Src (Fl f), v.Opposite → cd v = (pureArith .std lib).convDown v := by
  refine ⟨_, _, _, opp_eq_std lib', fun v hv => ?_⟩
  change negRes (v.negConv .up) = ofOpt (v.conv .down)
  rw [← hv]
  cases v.negConv .up <;> rfl

section
variable {T : Type} [Num T] (A : Arith Res T) (cd : Src T → Res T) (fd fu : Fn → T → Res T) (C : Checking T)

theorem rootLoop_indep (tk x : T) (k : Int) (fuel : Nat) (y : Itv T) :
    rootLoop (purePolicies { A with convDown := cd, fnDown := fd, fnUp := fu } C) tk x k fuel y =
      rootLoop (purePolicies A C) tk x k fuel y := by
  induction fuel generalizing y with
  | zero => rfl
  | succ n ih =>
    unfold rootLoop
    simp only [ih]
    rfl

theorem nthRoot_indep (nd : Bool) (fuel : Nat) (x : Itv T) (k : Int) :
    nthRoot (purePolicies { A with convDown := cd, fnDown := fd, fnUp := fu } C) nd fuel x k =
      nthRoot (purePolicies A C) nd fuel x k := by
  unfold nthRoot rootAuxUp rootAuxDn rootAux
  simp only [pure_unprot, rootLoop_indep]
  rfl
end
end BI

namespace BI
variable {f : Fmt}
section
variable {T : Type} [Num T] (A : Arith Res T) (cd : Src T → Res T) (fd fu : Fn → T → Res T) (C : Checking T)

theorem Call.run_indep (hcd : ∀ v : Src T, v.Opposite → cd v = A.convDown v) {α : Type} (c : Call T α) (hc : c.Arithmetic) :
    c.run (purePolicies { A with convDown := cd, fnDown := fd, fnUp := fu } C) = c.run (purePolicies A C) := by
  cases c with
  | ctorSrc v =>
    change BI.ctorSrc (purePolicies _ C) v = BI.ctorSrc (purePolicies _ C) v
    unfold BI.ctorSrc purePolicies
    dsimp only
    rw [hcd _ hc]
  | ctorSrc2 l u le =>
    change BI.ctorSrc2 (purePolicies _ C) l u le = BI.ctorSrc2 (purePolicies _ C) l u le
    unfold BI.ctorSrc2 purePolicies
    dsimp only
    rw [hcd _ hc]
  | ctorItv e l u =>
    change BI.ctorItv (purePolicies _ C) e l u = BI.ctorItv (purePolicies _ C) e l u
    unfold BI.ctorItv purePolicies
    dsimp only
    rw [hcd _ hc]
  | nthRoot nd fuel x k => exact nthRoot_indep A cd fd fu C _ _ _ _
  | _ => first | rfl | exact hc.elim

theorem Prog.run_indep (hcd : ∀ v : Src T, v.Opposite → cd v = A.convDown v) {i : Bool} {α : Type} (p : Prog T α)
    (hp : p.All (fun _ => Call.Arithmetic) i) :
    p.run (purePolicies { A with convDown := cd, fnDown := fd, fnUp := fu } C) = p.run (purePolicies A C) := by
  induction p generalizing i with
  | ret a => rfl
  | fail e => rfl
  | call c k ih =>
    unfold Prog.run
    rw [c.run_indep A cd fd fu C hcd hp.1]
    congr 1
    funext b
    exact ih b (hp.2 b)
  | region body k ih ih' =>
    unfold Prog.run
    simp only [pure_unprot, pure_scope]
    rw [ih hp.1]
    congr 1
    funext b
    exact ih' b (hp.2 b)
end

/-- Signed integers other than 0 and the smallest one have an opposite. -/
theorem srcInt_opposite (w : ℕ) {n : Int} (h0 : n ≠ 0) (hn : n ≠ -2 ^ (w - 1)) : (srcInt w n : Src (Fl f)).Opposite := by
  unfold Src.Opposite srcInt
  dsimp only
  rw [if_neg hn]
  change some (rnd f .up false ((-n : Int) : ℚ)).neg = some (rnd f .down false (n : ℚ))
  have e := rnd_neg_rat (f := f) false (n : ℚ)
  rw [Int.cast_neg, e]
  unfold rnd
  rw [if_neg (by exact_mod_cast h0), if_neg (by exact_mod_cast h0)]

/-- All numbers of a floating-point type have an opposite. -/
theorem srcFl_opposite {g : Fmt} (a : Fl g) : (srcFl a : Src (Fl f)).Opposite := by
  unfold Src.Opposite srcFl
  cases a with
  | nan => rfl
  | inf s => cases s <;> rfl
  | zero s => cases s <;> rfl
  | nz q h =>
    change some (rnd f .up (decide (-q < 0)) (-q)).neg = some (rnd f .down (decide (q < 0)) q)
    rw [rnd_neg_rat]
    unfold rnd
    rw [if_neg h.1, if_neg h.1]
end BI
