import Verif.Spec.Refine
import Verif.Proofs.Isotone
import Verif.Proofs.PolicyChange
/-! # Runs of formulas that return an interval or create an empty one -/

namespace BI

theorem Ends.sim_error {W : Type} {I : Inv W} {α : Type} {a : M W α} {e : Err} (h : Ends I (· = e) a (.error e)) : Sim I a (.error e) :=
  fun s hs => by
    obtain ⟨h1, -, h2⟩ := h s hs
    obtain ⟨e', he, h3⟩ := h2 _ rfl
    exact ⟨by rw [h3, show e' = e from he], h1, fun z hz => by cases hz⟩

section
variable {T : Type} [Num T] [Val T] [NumLaws T] {U : Env T} {D D' : EReal → EReal → Prop} {K : PiConst T} {n : ℕ} {ρ : ℕ → Itv T} {e : Expr T}

theorem Expr.fine_runs (hU : U.Ok D D') {z : Itv T} (h : Fine U (fun P => e.eval K n P ρ) (e.eval K n U.pp ρ) z) :
    U.Returns (e.eval K n U.P ρ) (· = z) ∧ U.Returns (U.P.rnd.scope (e.eval K n U.P.unprot ρ)) (· = z) := by
  obtain ⟨J, hJ⟩ := U.sim hU.kindOk
  exact ⟨U.returns_of (h.2 hJ).sim (Post.of_ok ⟨z, rfl, rfl⟩), U.returns_of (hJ.scope (h.2 hJ.unprot).sim) (Post.of_ok ⟨z, rfl, rfl⟩)⟩

theorem Expr.gone_runs (hU : U.Ok D D') (hh : U.checks.forbidsEmpty = true ∨ e.hullFree = true)
    (h : Gone U (e.hullFree = true) Void (fun P => e.eval K n P ρ) (e.eval K n U.pp ρ)) :
    U.YieldsEmpty (e.eval K n U.P ρ) ∧ U.YieldsEmpty (U.P.rnd.scope (e.eval K n U.P.unprot ρ)) := by
  obtain ⟨J, hJ⟩ := U.sim hU.kindOk
  unfold Env.YieldsEmpty
  split
  · next hE =>
    have := fun {I J : Inv U.ctl.W} {P : Policies (M U.ctl.W) T} (hP : PSim I J P U.B U.C) => (h.1 hE hP).sim_error
    exact ⟨U.throws_of (this hJ) rfl, U.throws_of (hJ.scope (this hJ.unprot)) rfl⟩
  · next hE =>
    obtain ⟨z, hz, hv⟩ := h.2 (by simpa using hE) (hh.resolve_left hE)
    exact ⟨U.returns_of (Expr.eval_sim hJ ρ e z hz) (Post.of_ok ⟨z, rfl, hv⟩),
      U.returns_of (hJ.scope (Expr.eval_sim hJ.unprot ρ e z hz)) (Post.of_ok ⟨z, rfl, hv⟩)⟩

theorem Expr.hullFree_conv {T U : Type} (φ : T → U) (e : Expr T) : (e.conv φ).hullFree = e.hullFree := by
  induction e <;> simp_all [Expr.conv, Expr.hullFree]
end

end BI
