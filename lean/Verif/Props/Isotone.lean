import Verif.Proofs.IsotoneNoInf
import Verif.Props.NoInf
import Verif.Props.TrigIso
/-!
# C69: whole formulas on nested and on divided operands

`e.eval K fuel V.P ρ` evaluates the formula `e` with the intervals `ρ` for its variables; `e.Value v r` states that `r` is a
value of `e` at the point `v`. C13 is about single operations.
-/

set_option linter.unusedSectionVars false

namespace BI
open Set

variable {T : Type} [Num T] [Val T] [NumLaws T] (V : Env T)

private theorem run_ok (hV : V.Tight) {K : PiConst T} {fuel : ℕ} {ρ : ℕ → Itv T} {e : Expr T} {z : Itv T} {Q : Itv T → Prop}
    (h : e.eval K fuel V.pp ρ = .ok z) (hQ : Q z) : V.Returns (e.eval K fuel V.P ρ) Q :=
  V.run hV (fun _ hp => Expr.eval_sim hp ρ e z h) (Post.of_ok ⟨z, rfl, hQ⟩)

private theorem region_ok (hV : V.Tight) {K : PiConst T} {fuel : ℕ} {ρ : ℕ → Itv T} {e : Expr T} {z : Itv T} {Q : Itv T → Prop}
    (h : e.eval K fuel V.pp ρ = .ok z) (hQ : Q z) : V.Returns (V.P.rnd.scope (e.eval K fuel V.P.unprot ρ)) Q :=
  V.run hV (fun _ hp => hp.scope (Expr.eval_sim hp.unprot ρ e z h)) (Post.of_ok ⟨z, rfl, hQ⟩)

/-- If the operands become larger, the result becomes larger. What is missing: `sin`, `cos` and `tan` (see `C69_violated`),
and operations with unbounded results for base types without infinities, for which see `C69_debug_partial`. -/
theorem C69_isotone_partial (hV : V.Tight) (K : PiConst T) (fuel : ℕ) {ρ ρ' : ℕ → Itv T} (hρ : ∀ i, γ (ρ i) ⊆ γ (ρ' i)) (e : Expr T)
    (hs : e.Sharp V K (InfBase T)) (hd : ∃ v r, (∀ i, v i ∈ γ (ρ i)) ∧ e.Value v r) :
    V.Returns (e.eval K fuel V.P ρ) fun z => V.Returns (e.eval K fuel V.P ρ') fun z' => γ z ⊆ γ z' := by
  obtain ⟨v, r, hv, hr⟩ := hd
  intro s hs'
  obtain ⟨z, z', h1, h2, -, h3⟩ := Expr.eval_nested (fuel := fuel) ⟨s, hs'⟩ hV hρ e hs ⟨r, v, hv, hr⟩
  exact run_ok V hV h1 (run_ok V hV h2 h3) s hs'

/-- The same if one evaluation, or both, take place in a block that owns a rounding object. -/
theorem C69_region_partial (hV : V.Tight) (K : PiConst T) (fuel : ℕ) {ρ ρ' : ℕ → Itv T} (hρ : ∀ i, γ (ρ i) ⊆ γ (ρ' i)) (e : Expr T)
    (hs : e.Sharp V K (InfBase T)) (hd : ∃ v r, (∀ i, v i ∈ γ (ρ i)) ∧ e.Value v r) :
    (V.Returns (V.P.rnd.scope (e.eval K fuel V.P.unprot ρ)) fun z =>
      V.Returns (V.P.rnd.scope (e.eval K fuel V.P.unprot ρ')) fun z' => γ z ⊆ γ z') ∧
    (V.Returns (V.P.rnd.scope (e.eval K fuel V.P.unprot ρ)) fun z => V.Returns (e.eval K fuel V.P ρ') fun z' => γ z ⊆ γ z') ∧
    (V.Returns (e.eval K fuel V.P ρ) fun z => V.Returns (V.P.rnd.scope (e.eval K fuel V.P.unprot ρ')) fun z' => γ z ⊆ γ z') := by
  obtain ⟨v, r, hv, hr⟩ := hd
  refine ⟨fun s hs' => ?_, fun s hs' => ?_, fun s hs' => ?_⟩ <;>
    obtain ⟨z, z', h1, h2, -, h3⟩ := Expr.eval_nested (fuel := fuel) ⟨s, hs'⟩ hV hρ e hs ⟨r, v, hv, hr⟩
  · exact region_ok V hV h1 (region_ok V hV h2 h3) s hs'
  · exact region_ok V hV h1 (run_ok V hV h2 h3) s hs'
  · exact run_ok V hV h1 (region_ok V hV h2 h3) s hs'

/-- Base types without infinities in a debug build: an assertion stops the evaluation on the larger operands, or both
evaluations return and the results are nested. In particular, an evaluation that is not stopped is not stopped on smaller
operands either. What is missing: `sin`, `cos` and `tan`, as above, and builds with `NDEBUG` (see `C57_release`). -/
theorem C69_debug_partial (hV : V.Tight) (hn : V.NoInf) (K : PiConst T) (fuel : ℕ) {ρ ρ' : ℕ → Itv T} (hρ : ∀ i, γ (ρ i) ⊆ γ (ρ' i))
    (e : Expr T) (hs : e.Sharp V K True) (hd : ∃ v r, (∀ i, v i ∈ γ (ρ i)) ∧ e.Value v r) :
    (V.Returns (e.eval K fuel V.P ρ) fun z => V.Returns (e.eval K fuel V.P ρ') fun z' => γ z ⊆ γ z') ∨
      V.Throws (e.eval K fuel V.P ρ') .assertion := by
  obtain ⟨v, r, hv, hr⟩ := hd
  obtain ⟨h1, h2⟩ := hs.supported hV
  obtain ⟨N, hN, h⟩ := C14_debug_partial V hV.directed hn K ρ' e h1 ⟨v, r, fun i => hρ i (hv i), hr⟩
  have hN := hN h2
  subst hN
  rcases h with ⟨z', -, h⟩ | h
  · refine .inl fun s hs' => ?_
    rcases Expr.eval_nestedOr (fuel := fuel) ⟨s, hs'⟩ hV hn hρ e hs ⟨r, v, hv, hr⟩ with ⟨z, z', k1, k2, -, k3⟩ | k
    · exact run_ok V hV k1 (run_ok V hV k2 k3) s hs'
    · obtain ⟨J, hJ⟩ := V.sim hV.directed.kindOk
      obtain ⟨w, h, -⟩ := h fuel (Nat.zero_le _) s hs'
      obtain ⟨-, -, k'⟩ := Expr.eval_ends (K := K) (fuel := fuel) hJ ρ' e s hs'
      obtain ⟨e', -, k'⟩ := k' _ k
      cases h.symm.trans k'
  · exact .inr (h fuel (Nat.zero_le _))

/-- Division of the operands into pieces `σ j`, which together contain every point: the results for the pieces lie in the
result for the whole, and together they contain every value of the formula. -/
theorem C69_pieces_partial (hV : V.Tight) (K : PiConst T) (fuel : ℕ) {ι : Type} {ρ : ℕ → Itv T} {σ : ι → ℕ → Itv T}
    (hσ : ∀ j i, γ (σ j i) ⊆ γ (ρ i)) (hc : ∀ v : ℕ → ℝ, (∀ i, v i ∈ γ (ρ i)) → ∃ j, ∀ i, v i ∈ γ (σ j i)) (e : Expr T)
    (hs : e.Sharp V K (InfBase T)) (hd : ∃ v r, (∀ i, v i ∈ γ (ρ i)) ∧ e.Value v r) :
    V.Returns (e.eval K fuel V.P ρ) fun z =>
      (∀ j, (∃ v r, (∀ i, v i ∈ γ (σ j i)) ∧ e.Value v r) → V.Returns (e.eval K fuel V.P (σ j)) fun w => γ w ⊆ γ z) ∧
      ∀ v r, (∀ i, v i ∈ γ (ρ i)) → e.Value v r → ∃ j, V.Returns (e.eval K fuel V.P (σ j)) fun w => r ∈ γ w := by
  obtain ⟨v, r, hv, hr⟩ := hd
  intro s hs'
  obtain ⟨-, z, -, h2, -, -⟩ := Expr.eval_nested (fuel := fuel) ⟨s, hs'⟩ hV (ρ := ρ) (ρ' := ρ) (fun _ => subset_rfl) e hs ⟨r, v, hv, hr⟩
  refine run_ok V hV h2 ⟨fun j ⟨v, r, hv, hr⟩ => ?_, fun v r hv hr => ?_⟩ s hs'
  · obtain ⟨w, z', k1, k2, -, k3⟩ := Expr.eval_nested (fuel := fuel) ⟨s, hs'⟩ hV (hσ j) e hs ⟨r, v, hv, hr⟩
    cases h2.symm.trans k2
    exact run_ok V hV k1 k3
  · obtain ⟨j, hj⟩ := hc v hv
    obtain ⟨w, -, k1, -, k2, -⟩ := Expr.eval_nested (fuel := fuel) ⟨s, hs'⟩ hV (hσ j) e hs ⟨r, v, hj, hr⟩
    exact ⟨j, run_ok V hV k1 (k2 ⟨v, hj, hr⟩)⟩

/-- Bisection of one operand, as in the search for zeros (examples/findroot_demo.cpp): if the halves have the formula's
domain in common with `x`, both results lie in the result for `x`, and a value that neither of them contains is none. -/
theorem C69_bisect_partial (hV : V.Tight) (K : PiConst T) (fuel : ℕ) {x : Itv T} (e : Expr T) (hs : e.Sharp V K (InfBase T))
    (hb : V.Returns (bisect V.P x) (Halves x)) :
    V.Returns (bisect V.P x) fun p =>
      (∃ a ∈ γ p.1, ∃ r, e.Value (fun _ => a) r) → (∃ a ∈ γ p.2, ∃ r, e.Value (fun _ => a) r) →
      V.Returns (e.eval K fuel V.P fun _ => x) fun z => V.Returns (e.eval K fuel V.P fun _ => p.1) fun z₁ =>
        V.Returns (e.eval K fuel V.P fun _ => p.2) fun z₂ =>
          γ z₁ ∪ γ z₂ ⊆ γ z ∧ ∀ a ∈ γ x, ∀ r, e.Value (fun _ => a) r → r ∈ γ z₁ ∪ γ z₂ := by
  refine hb.mono fun p hp ⟨a, ha, r, hr⟩ ⟨b, hb, q, hq⟩ s hs' => ?_
  have h1 : γ p.1 ⊆ γ x := hp.1 ▸ subset_union_left
  have h2 : γ p.2 ⊆ γ x := hp.1 ▸ subset_union_right
  obtain ⟨z₁, z, k1, k2, k3, k4⟩ := Expr.eval_nested (fuel := fuel) (ρ := fun _ => p.1) (ρ' := fun _ => x) ⟨s, hs'⟩ hV (fun _ => h1) e hs
    ⟨r, fun _ => a, fun _ => ha, hr⟩
  obtain ⟨z₂, z', l1, l2, l3, l4⟩ := Expr.eval_nested (fuel := fuel) (ρ := fun _ => p.2) (ρ' := fun _ => x) ⟨s, hs'⟩ hV (fun _ => h2) e hs
    ⟨q, fun _ => b, fun _ => hb, hq⟩
  cases k2.symm.trans l2
  refine run_ok V hV k2 (run_ok V hV k1 (run_ok V hV l1 ⟨union_subset k4 l4, fun a ha r hr => ?_⟩)) s hs'
  rw [← hp.1] at ha
  exact ha.imp (fun h => k3 ⟨fun _ => a, fun _ => h, hr⟩) fun h => l3 ⟨fun _ => a, fun _ => h, hr⟩

/-- The claim does not hold for `cos(x)`. -/
theorem C69_violated (fuel : ℕ) : γ cosX ⊆ γ cosX' ∧ (γ cosX).Nonempty ∧
    dblStd.Returns ((Expr.fn .cos (.var 0)).eval piD2 (fuel + 2) dblStd.P fun _ => cosX) fun z =>
      dblStd.Returns ((Expr.fn .cos (.var 0)).eval piD2 (fuel + 2) dblStd.P fun _ => cosX') fun z' => ¬ γ z ⊆ γ z' := by
  obtain ⟨h1, h2, h3⟩ := C13_cos_not_isotone fuel
  exact ⟨h1, h2, h3⟩

/-! ## The hypotheses can be met -/

/-- `sqrt(x) / (y - 1) + pow(x, -3) * exp(y)` -/
noncomputable abbrev isoExpr : Expr (Fl .double) :=
  .bin .add (.bin .div (.un .sqrt (.var 0)) (.binR .sub (.var 1) (Num.lit 1))) (.bin .mul (.pow (.var 0) (-3)) (.fn .exp (.var 1)))

theorem isoExpr_sharp : isoExpr.Sharp dblStd (piDouble .near) (InfBase (Fl .double)) :=
  ⟨by simp, ⟨fun _ => fl_inf, ⟨by simp, fun _ => dblStd.fl_sqrtOk (by simp [dblStd]), trivial⟩, trivial⟩,
    ⟨by simp, ⟨by decide, fun _ => fl_inf, trivial⟩, ⟨⟨(C21_double .near), dblStd_fn .exp, (fun h => by cases h), rfl⟩, trivial⟩⟩⟩

theorem isoExpr_value : isoExpr.Value (fun i => if i = 0 then 1 else 0) 0 := by
  have h1 : val (Num.lit 1 : Fl .double) = some ((1 : ℝ) : EReal) := by rw [val_one]; rfl
  exact ⟨-1, 1, ⟨1, -1, ⟨1, rfl, by norm_num, by simp⟩, ⟨0, 1, rfl, h1, by change (-1 : ℝ) = 0 - 1; norm_num⟩, by norm_num, by norm_num⟩,
    ⟨1, 1, ⟨1, rfl, by norm_num, by norm_num⟩, ⟨0, rfl, trivial, Real.exp_zero.symm⟩, by change (1 : ℝ) = 1 * 1; norm_num⟩,
    by change (0 : ℝ) = -1 + 1; norm_num⟩

private theorem lit_sub {a b c d : ℤ} (ha : |a| ≤ 7) (hb : |b| ≤ 7) (hc : |c| ≤ 7) (hd : |d| ≤ 7) (h : c ≤ a) (h' : b ≤ d) :
    γ (litI a b : Itv (Fl .double)) ⊆ γ (litI c d : Itv (Fl .double)) := fun r hr => by
  rw [mem_litI ha hb] at hr
  rw [mem_litI hc hd]
  exact ⟨le_trans (by exact_mod_cast h) hr.1, hr.2.trans (by exact_mod_cast h')⟩

/-- `x = [1, 2]` in `[-1, 4]`, `y = [0, 1]` in `[0, 3]` -/
example := C69_isotone_partial dblStd dblStd_tight (piDouble .near) 0
  (ρ := fun i => if i = 0 then litI 1 2 else litI 0 1) (ρ' := fun i => if i = 0 then litI (-1) 4 else litI 0 3)
  (fun i => by split <;> exact lit_sub (by decide) (by decide) (by decide) (by decide) (by decide) (by decide)) isoExpr isoExpr_sharp
  ⟨_, _, fun i => by split <;> exact in_lit, isoExpr_value⟩

example := C69_region_partial dblStd dblStd_tight (piDouble .near) 0
  (ρ := fun i => if i = 0 then litI 1 2 else litI 0 1) (ρ' := fun i => if i = 0 then litI (-1) 4 else litI 0 3)
  (fun i => by split <;> exact lit_sub (by decide) (by decide) (by decide) (by decide) (by decide) (by decide)) isoExpr isoExpr_sharp
  ⟨_, _, fun i => by split <;> exact in_lit, isoExpr_value⟩

/-- The operand `y` stays `[0, 3]`, `x = [-1, 4]` is divided into `[-1, 1]` and `[0, 4]`. -/
example := C69_pieces_partial dblStd dblStd_tight (piDouble .near) 0 (ι := Bool) (ρ := fun i => if i = 0 then litI (-1) 4 else litI 0 3)
  (σ := fun j i => if i = 0 then (if j then litI (-1) 1 else litI 0 4) else litI 0 3)
  (fun j i => by
    split
    · cases j <;> exact lit_sub (by decide) (by decide) (by decide) (by decide) (by decide) (by decide)
    · exact subset_rfl)
  (fun v hv => by
    have h0 := hv 0
    change v 0 ∈ γ (litI (-1) 4 : Itv (Fl .double)) at h0
    rw [mem_litI (by decide) (by decide)] at h0
    refine ⟨decide (v 0 ≤ 0), fun i => ?_⟩
    by_cases hi : i = 0
    · subst hi
      by_cases h : v 0 ≤ 0
      · simp only [h, decide_true, if_true]
        rw [mem_litI (by decide) (by decide)]
        exact ⟨h0.1, h.trans (by norm_num)⟩
      · simp only [h, decide_false, if_true]
        change v 0 ∈ γ (litI 0 4 : Itv (Fl .double))
        rw [mem_litI (by decide) (by decide)]
        exact ⟨by push_cast; linarith, h0.2⟩
    · have := hv i
      simpa only [hi, if_false] using this) isoExpr isoExpr_sharp
  ⟨_, _, fun i => by split <;> exact in_lit, isoExpr_value⟩

/-- `x * x - x` on `[0, 4]` -/
example := C69_bisect_partial dblStd dblStd_tight (piDouble .near) 0 (x := litI 0 4) (.bin .sub (.bin .mul (.var 0) (.var 0)) (.var 0))
  ⟨by simp, ⟨by simp, trivial, trivial⟩, trivial⟩
  (C25_bisect_fl_partial dblStd (by simp [dblStd]) ⟨1, in_lit⟩ (a := 0) (b := 4) (NumLaws.lit 0 (by decide) |>.trans (by simp))
    (NumLaws.lit 4 (by decide) |>.trans (by norm_num)) (by
      have h := rep_abs_le (f := .double) (y := 4) ⟨4, 0, by decide, by decide, by decide, by norm_num⟩
      rw [show (0 : ℝ) + 4 = ((4 : ℚ) : ℝ) by norm_num, ← Rat.cast_abs]
      exact_mod_cast h))

/-- `1 / (x - y)` over rational numbers: with `x = [3, 4]`, `y = [1, 2]` in `[0, 2]` both evaluations return. -/
example := C69_debug_partial ratEnv ratEnv_tight ⟨rfl, rfl⟩ piGeneric 0 (ρ := fun i => if i = 0 then litI 3 4 else litI 1 2)
  (ρ' := fun i => if i = 0 then litI 3 4 else litI 0 2)
  (fun i r hr => by
    by_cases h : i = 0
    · simp only [if_pos h] at hr ⊢; exact hr
    · simp only [if_neg h] at hr ⊢
      rw [mem_litI (by decide) (by decide)] at hr ⊢
      exact ⟨le_trans (by norm_num) hr.1, hr.2⟩)
  (.un .inv (.bin .sub (.var 0) (.var 1))) ⟨fun _ => trivial, by simp, by simp, trivial, trivial⟩
  ⟨fun i => if i = 0 then 3 else 1, 2⁻¹, fun i => by dsimp only; split <;> exact in_lit, 2, ⟨3, 1, rfl, rfl, by change (2 : ℝ) = 3 - 1; norm_num⟩,
    by norm_num, rfl⟩

/-- With `x = [3, 4]` in `[1, 4]` the second one is stopped, as `x - y` then contains zero. -/
example := C69_debug_partial ratEnv ratEnv_tight ⟨rfl, rfl⟩ piGeneric 0 (ρ := fun i => if i = 0 then litI 3 4 else litI 1 2)
  (ρ' := fun i => if i = 0 then litI 1 4 else litI 1 2)
  (fun i r hr => by
    by_cases h : i = 0
    · simp only [if_pos h] at hr ⊢
      rw [mem_litI (by decide) (by decide)] at hr ⊢
      exact ⟨le_trans (by norm_num) hr.1, hr.2⟩
    · simp only [if_neg h] at hr ⊢; exact hr)
  (.un .inv (.bin .sub (.var 0) (.var 1))) ⟨fun _ => trivial, by simp, by simp, trivial, trivial⟩
  ⟨fun i => if i = 0 then 3 else 1, 2⁻¹, fun i => by dsimp only; split <;> exact in_lit, 2, ⟨3, 1, rfl, rfl, by change (2 : ℝ) = 3 - 1; norm_num⟩,
    by norm_num, rfl⟩

end BI
