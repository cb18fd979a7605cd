import Verif.Proofs.TwinFate
import Verif.Proofs.RefineNoInf
import Verif.Props.Isotone
import Verif.Props.Expr
import Verif.Props.Register
import Verif.Props.NoEmpty
import Verif.Props.PolicyChange
/-!
# C82: reproducibility

Two configurations `V`, `W` of one base type, both correctly rounded: platform, rounding kind, library, constants and checking policy may
differ. `C79_best_partial` compares any configuration with a correctly rounded one; here `sin`, `cos` and `tan` are allowed.
-/

set_option linter.unusedSectionVars false

namespace BI
open Set Twin

section
variable {T : Type} [Num T] [Val T] [NumLaws T]

/-- A formula with a value on the operands has, in both configurations, results with the same bounds, from whatever states the
evaluations start and also in blocks that own a rounding object. The operands need only have the same bounds, too. `N` bounds
the depth of the recursion in `cos`. What is missing: formulas without value (`C82_outcome_partial`), and operations with unbounded
results for base types without infinities (`C82_debug_partial`). -/
theorem C82_same_partial (V W : Env T) (hV : V.Tight) (hW : W.Tight) (hv : ∃ s : V.State, V.Valid s) (hw : ∃ s : W.State, W.Valid s)
    (K K' : PiConst T) {ρ ρ' : ℕ → Itv T} (hρ : ∀ i, γ (ρ i) = γ (ρ' i)) (e : Expr T) (hs : e.Exacting V K (InfBase T))
    (hs' : e.Exacting W K' (InfBase T)) (hd : ∃ v r, (∀ i, v i ∈ γ (ρ i)) ∧ e.Value v r) :
    ∃ z z' N, (∀ v r, (∀ i, v i ∈ γ (ρ i)) → e.Value v r → r ∈ γ z) ∧ val z.lower = val z'.lower ∧ val z.upper = val z'.upper ∧
      (e.nests = false → N = 0) ∧
      (∀ fuel ≥ N, V.Returns (e.eval K fuel V.P ρ) (· = z) ∧ V.Returns (V.P.rnd.scope (e.eval K fuel V.P.unprot ρ)) (· = z)) ∧
      ∀ fuel ≥ N, W.Returns (e.eval K' fuel W.P ρ') (· = z') ∧ W.Returns (W.P.rnd.scope (e.eval K' fuel W.P.unprot ρ')) (· = z') := by
  obtain ⟨v, r, h1, h2⟩ := hd
  obtain ⟨N, hN, z, z', hz, hz', he, hs⟩ := Twin.Expr.eval_twin hv hw hV hW hρ e hs hs' ⟨r, v, h1, h2⟩
  have ret : ∀ {U : Env T} {k : PiConst T} {σ : ℕ → Itv T} {n : ℕ} {w : Itv T}, U.Tight → e.eval k n U.pp σ = .ok w →
      U.Returns (e.eval k n U.P σ) (· = w) ∧ U.Returns (U.P.rnd.scope (e.eval k n U.P.unprot σ)) (· = w) := fun {U k σ n w} hU h =>
    ⟨U.run hU (fun _ hp => Expr.eval_sim hp σ e w h) (Post.of_ok ⟨w, rfl, rfl⟩),
      U.run hU (fun _ hp => hp.scope (Expr.eval_sim hp.unprot σ e w h)) (Post.of_ok ⟨w, rfl, rfl⟩)⟩
  exact ⟨z, z', N, fun v r h1 h2 => he ⟨v, h1, h2⟩, hs.val.1, hs.val.2, hN, fun n hn => ret hV (hz n hn), fun n hn => ret hW (hz' n hn)⟩

/-- Formulas with and without value: both configurations return results with the same bounds, or an empty interval is created in
both, which is thrown where the policy forbids it and returned where it does not. An expression with `hull` needs policies that
forbid empty intervals (`C80_hull_hides`). What is missing: operands without real numbers and `atanh` (`C80_infinite_point`),
operations with unbounded results for base types without infinities. -/
theorem C82_outcome_partial (V W : Env T) (hV : V.Tight) (hW : W.Tight) (hv : ∃ s : V.State, V.Valid s) (hw : ∃ s : W.State, W.Valid s)
    (K K' : PiConst T) {ρ ρ' : ℕ → Itv T} (hn : ∀ i, (γ (ρ i)).Nonempty) (hρ : ∀ i, γ (ρ i) = γ (ρ' i)) (e : Expr T)
    (hs : e.Exacting V K (InfBase T)) (hs' : e.Exacting W K' (InfBase T)) (hf : e.Finite)
    (hh : V.checks.forbidsEmpty = true ∧ W.checks.forbidsEmpty = true ∨ e.hullFree = true) :
    ∃ N, (e.nests = false → N = 0) ∧
      ((∃ z z', (γ z).Nonempty ∧ val z.lower = val z'.lower ∧ val z.upper = val z'.upper ∧ ∀ fuel ≥ N,
          (V.Returns (e.eval K fuel V.P ρ) (· = z) ∧ V.Returns (V.P.rnd.scope (e.eval K fuel V.P.unprot ρ)) (· = z)) ∧
          (W.Returns (e.eval K' fuel W.P ρ') (· = z') ∧ W.Returns (W.P.rnd.scope (e.eval K' fuel W.P.unprot ρ')) (· = z'))) ∨
        ∀ fuel ≥ N,
          (V.YieldsEmpty (e.eval K fuel V.P ρ) ∧ V.YieldsEmpty (V.P.rnd.scope (e.eval K fuel V.P.unprot ρ))) ∧
          (W.YieldsEmpty (e.eval K' fuel W.P ρ') ∧ W.YieldsEmpty (W.P.rnd.scope (e.eval K' fuel W.P.unprot ρ')))) := by
  obtain ⟨N, h1, h2⟩ := Twin.Expr.eval_fate hv hw hV hW (fun i => .of_gamma (hρ i) (hn i)) e hs hs' hf (e.hullFree = true) id
  refine ⟨N, h1, ?_⟩
  rcases h2 with ⟨z, z', hz, h2⟩ | h2
  · exact .inl ⟨z, z', hz.nonempty, hz.val.1, hz.val.2, fun n hn => ⟨Expr.fine_runs hV (h2 n hn).1, Expr.fine_runs hW (h2 n hn).2⟩⟩
  · exact .inr fun n hn => ⟨Expr.gone_runs hV (hh.imp_left And.left) (h2 n hn).1, Expr.gone_runs hW (hh.imp_left And.right) (h2 n hn).2⟩

/-- Base types without infinities in debug builds: the same bounds in both configurations, or an assertion stops both evaluations.
What is missing: `sin`, `cos` and `tan`, formulas without value, and builds with `NDEBUG` (see `C57_release`). -/
theorem C82_debug_partial (V W : Env T) (hV : V.Tight) (hW : W.Tight) (hn : V.NoInf) (hn' : W.NoInf) (hv : ∃ s : V.State, V.Valid s)
    (hw : ∃ s : W.State, W.Valid s) (K K' : PiConst T) (fuel fuel' : ℕ) {ρ ρ' : ℕ → Itv T} (hρ : ∀ i, γ (ρ i) = γ (ρ' i)) (e : Expr T)
    (hs : e.Sharp V K True) (hs' : e.Sharp W K' True) (hd : ∃ v r, (∀ i, v i ∈ γ (ρ i)) ∧ e.Value v r) :
    (∃ z z', (∀ v r, (∀ i, v i ∈ γ (ρ i)) → e.Value v r → r ∈ γ z) ∧ val z.lower = val z'.lower ∧ val z.upper = val z'.upper ∧
      V.Returns (e.eval K fuel V.P ρ) (· = z) ∧ W.Returns (e.eval K' fuel' W.P ρ') (· = z')) ∨
    (V.Throws (e.eval K fuel V.P ρ) .assertion ∧ W.Throws (e.eval K' fuel' W.P ρ') .assertion) := by
  obtain ⟨v, r, h1, h2⟩ := hd
  have hc : e.conv id = e := by
    clear hs hs' h2
    induction e <;> simp_all [Expr.conv]
  have hd : e.ValueIn ρ r := ⟨v, h1, h2⟩
  have hd' : e.ValueIn ρ' r := ⟨v, fun i => hρ i ▸ h1 i, h2⟩
  have a := Refine.Expr.eval_nestOr (φ := id) (fun _ => rfl) (K := K') (K' := K) (fuel := fuel') (fuel' := fuel) hv hW.directed hn' hV
    (ρ := ρ') (ρ' := ρ) (fun i => (hρ i).subset) e (hs'.supported hW).1 (by rw [hc]; exact hs) ⟨r, by rw [hc]; exact hd⟩
  have b := Refine.Expr.eval_nestOr (φ := id) (fun _ => rfl) (K := K) (K' := K') (fuel := fuel) (fuel' := fuel') hw hV.directed hn hW
    (ρ := ρ) (ρ' := ρ') (fun i => (hρ i).symm.subset) e (hs.supported hV).1 (by rw [hc]; exact hs') ⟨r, by rw [hc]; exact hd'⟩
  rw [hc] at a b
  have stop : ∀ {U : Env T} {k : PiConst T} {σ : ℕ → Itv T} {n : ℕ}, U.Tight → U.NoInf → e.Sharp U k True → e.ValueIn σ r →
      e.eval k n U.pp σ = .error .assertion → U.Throws (e.eval k n U.P σ) .assertion := by
    intro U k σ n hU hi hs hd h s hs₀
    obtain ⟨v, h1, h2⟩ := hd
    obtain ⟨N, hN, q⟩ := C14_debug_partial U hU.directed hi k σ e (hs.supported hU).1 ⟨v, r, h1, h2⟩
    have hN := hN (hs.supported hU).2
    subst hN
    rcases q with ⟨z, -, q⟩ | q
    · obtain ⟨J, hJ⟩ := U.sim hU.directed.kindOk
      obtain ⟨w, q, -⟩ := q n (Nat.zero_le _) s hs₀
      obtain ⟨-, -, q'⟩ := Expr.eval_ends (K := k) (fuel := n) hJ σ e s hs₀
      obtain ⟨e', -, q'⟩ := q' _ h
      cases q.symm.trans q'
    · exact q n (Nat.zero_le _) s hs₀
  have ret : ∀ {U : Env T} {k : PiConst T} {σ : ℕ → Itv T} {n : ℕ} {w : Itv T}, U.Tight → e.eval k n U.pp σ = .ok w →
      U.Returns (e.eval k n U.P σ) (· = w) := fun {U k σ n w} hU h =>
    U.run hU (fun _ hp => Expr.eval_sim hp σ e w h) (Post.of_ok ⟨w, rfl, rfl⟩)
  rcases a with ⟨z, z', a1, a2, a3, a4⟩ | a
  · rcases b with ⟨w', w, b1, b2, b3, b4⟩ | b
    · cases a1.symm.trans b2
      cases a2.symm.trans b1
      have hm := a3 hd
      obtain ⟨p, q, i⟩ := has_of_mem hm
      obtain ⟨p', q', i'⟩ := has_of_mem (a4 hm)
      obtain ⟨k1, k2⟩ := Refine.has_sub i i' a4
      obtain ⟨k3, k4⟩ := Refine.has_sub i' i b4
      exact .inl ⟨z, z', fun v r h1 h2 => a3 ⟨v, h1, h2⟩, by rw [i.lo, i'.lo, le_antisymm k1 k3], by rw [i.up, i'.up, le_antisymm k2 k4],
        ret hV a1, ret hW a2⟩
    · cases a1.symm.trans b
  · rcases b with ⟨w', w, b1, b2, b3, b4⟩ | b
    · cases a.symm.trans b1
    · exact .inr ⟨stop hV hn hs hd b, stop hW hn' hs' hd' a⟩
end

/-- For floating-point formats bounds with the same value are the same number, up to the sign of zero. -/
theorem C82_number {f : Fmt} {a b : Fl f} (h : val a = val b) : a = b ∨ ∃ s t, a = .zero s ∧ b = .zero t := by
  cases a with
  | nan => cases b with
    | nan => exact .inl rfl
    | inf t => cases t <;> cases h
    | zero t => cases h
    | nz q k => cases h
  | inf s => cases b with
    | nan => cases s <;> cases h
    | inf t => cases s <;> cases t <;> first | exact .inl rfl | cases h
    | zero t => cases s <;> cases h
    | nz q k => cases s <;> cases h
  | zero s => cases b with
    | nan => cases h
    | inf t => cases t <;> cases h
    | zero t => exact .inr ⟨s, t, rfl, rfl⟩
    | nz q k => exact absurd (Rat.cast_eq_zero.1 (EReal.coe_eq_zero.1 (Option.some.inj h).symm)) k.1
  | nz p k => cases b with
    | nan => cases h
    | inf t => cases t <;> cases h
    | zero t => exact absurd (Rat.cast_eq_zero.1 (EReal.coe_eq_zero.1 (Option.some.inj h))) k.1
    | nz q k' =>
      obtain rfl : p = q := by exact_mod_cast EReal.coe_eq_coe_iff.1 (Option.some.inj h)
      exact .inl rfl

/-! ## The hypotheses can be met

`tan` is not in the first example: `rounded_transc_opp` does not switch the direction for it, so the right side would not be correctly
rounded. -/

/-- `sin(x) * exp(y) + cos(x)`, with `rounded_transc_std` and strict checking on the one side, `rounded_transc_opp` without
checking on the other side. -/
noncomputable abbrev twinExpr : Expr (Fl .double) :=
  .bin .add (.bin .mul (.fn .sin (.var 0)) (.fn .exp (.var 1))) (.fn .cos (.var 0))

noncomputable abbrev dblBare : Env (Fl .double) := { dblOpp with checks := .base }

example : ∃ z z' N, val z.lower = val z'.lower ∧ val z.upper = val z'.upper ∧
    (∀ fuel ≥ N, dblStd.Returns (twinExpr.eval (piDouble .near) fuel dblStd.P fun _ => litI 0 4) (· = z)) ∧
    ∀ fuel ≥ N, dblBare.Returns (twinExpr.eval (piDouble .near) fuel dblBare.P fun _ => litI 0 4) (· = z') := by
  have hK := C21_double .near
  have hf : ∀ f : Fn, f.oppSwitches = true → dblBare.FnOk (IsRoundDown (Fl Fmt.double)) (IsRoundUp (Fl Fmt.double)) f := fun f h =>
    dblBare.ideal_ok f rfl (.inr ⟨rfl, h⟩)
  obtain ⟨z, z', N, -, h1, h2, -, h3, h4⟩ := C82_same_partial dblStd dblBare dblStd_tight dblOpp_tight
    ⟨(⟨(⟨.near, ()⟩ : FEnv Unit), fun _ => true⟩ : dblStd.State), trivial⟩
    ⟨(⟨(⟨.near, ()⟩ : FEnv Unit), fun _ => true⟩ : dblBare.State), trivial⟩ (piDouble .near) (piDouble .near) (ρ := fun _ => litI 0 4)
    (ρ' := fun _ => litI 0 4) (fun _ => rfl) twinExpr
    ⟨by simp, ⟨by simp, ⟨⟨hK, dblStd_fn .cos, (fun h => by cases h), fun _ => ⟨dblStd_int, fl_ieee⟩⟩, trivial⟩,
      ⟨hK, dblStd_fn .exp, (fun h => by cases h), fun h => by cases h⟩, trivial⟩,
      ⟨hK, dblStd_fn .cos, (fun h => by cases h), fun _ => ⟨dblStd_int, fl_ieee⟩⟩, trivial⟩
    ⟨by simp, ⟨by simp, ⟨⟨hK, hf .cos rfl, (fun h => by cases h), fun _ => ⟨dblOpp_int, fl_ieee⟩⟩, trivial⟩,
      ⟨hK, hf .exp rfl, (fun h => by cases h), fun h => by cases h⟩, trivial⟩,
      ⟨hK, hf .cos rfl, (fun h => by cases h), fun _ => ⟨dblOpp_int, fl_ieee⟩⟩, trivial⟩
    ⟨fun _ => 0, _, fun _ => in_lit, _, _, ⟨_, _, ⟨0, rfl, trivial, rfl⟩, ⟨0, rfl, trivial, rfl⟩, rfl⟩, ⟨0, rfl, trivial, rfl⟩, rfl⟩
  exact ⟨z, z', N, h1, h2, fun n hn => (h3 n hn).1, fun n hn => (h4 n hn).1⟩

/-- For `tan(x)`: with strict checking and without checking, both with `rounded_transc_std`. -/
noncomputable abbrev dblStdBare : Env (Fl .double) := { dblStd with checks := .base }

example : ∃ z z' N, val z.lower = val z'.lower ∧ val z.upper = val z'.upper ∧
    (∀ fuel ≥ N, dblStd.Returns ((Expr.fn .tan (.var 0)).eval (piDouble .near) fuel dblStd.P fun _ => litI 0 1) (· = z)) ∧
    ∀ fuel ≥ N, dblStdBare.Returns ((Expr.fn .tan (.var 0)).eval (piDouble .near) fuel dblStdBare.P fun _ => litI 0 1) (· = z') := by
  have hK := C21_double .near
  obtain ⟨z, z', N, -, h1, h2, -, h3, h4⟩ := C82_same_partial dblStd dblStdBare dblStd_tight dblStd_tight
    ⟨(⟨(⟨.near, ()⟩ : FEnv Unit), fun _ => true⟩ : dblStd.State), trivial⟩
    ⟨(⟨(⟨.near, ()⟩ : FEnv Unit), fun _ => true⟩ : dblStdBare.State), trivial⟩ (piDouble .near) (piDouble .near)
    (ρ := fun _ => litI 0 1) (ρ' := fun _ => litI 0 1) (fun _ => rfl) (.fn .tan (.var 0))
    ⟨⟨hK, dblStd_fn .tan, fun _ => fl_inf, fun _ => ⟨dblStd_int, fl_ieee⟩⟩, trivial⟩
    ⟨⟨hK, dblStd_fn .tan, fun _ => fl_inf, fun _ => ⟨dblStd_int, fl_ieee⟩⟩, trivial⟩
    ⟨fun _ => 0, _, fun _ => in_lit, 0, rfl, by change Real.cos 0 ≠ 0; simp, rfl⟩
  exact ⟨z, z', N, h1, h2, fun n hn => (h3 n hn).1, fun n hn => (h4 n hn).1⟩

/-- `sqrt(x - x - 1)` has no value, but the evaluation returns an interval; `sqrt(x)` of a negative interval is empty. -/
example (x : Itv (Fl .double)) (hx : (γ x).Nonempty) := C82_outcome_partial dblStd dblBare dblStd_tight dblOpp_tight
  ⟨(⟨(⟨.near, ()⟩ : FEnv Unit), fun _ => true⟩ : dblStd.State), trivial⟩
  ⟨(⟨(⟨.near, ()⟩ : FEnv Unit), fun _ => true⟩ : dblBare.State), trivial⟩ (piDouble .near) (piDouble .near) (ρ := fun _ => x)
  (ρ' := fun _ => x) (fun _ => hx) (fun _ => rfl) (.un .sqrt (.binR .sub (.bin .sub (.var 0) (.var 0)) (Num.lit 1)))
  ⟨by simp, fun _ => dblStd.fl_sqrtOk (by decide), by simp, trivial, trivial⟩ ⟨by simp, fun _ => dblBare.fl_sqrtOk (by decide), by simp, trivial, trivial⟩
  ⟨⟨trivial, trivial⟩, _, NumLaws.lit 1 (by decide)⟩ (.inr rfl)

/-- `1 / (x - y)` over rational numbers, with strict checking and without checking: both return, and for `b = 3` both are stopped. -/
example (b : ℤ) (hb : b = 2 ∨ b = 3) := C82_debug_partial ratEnv { ratEnv with checks := .base } rat_tight rat_tight ⟨rfl, rfl⟩ ⟨rfl, rfl⟩
  ⟨(⟨(⟨.near, ()⟩ : FEnv Unit), fun _ => true⟩ : ratEnv.State), trivial⟩ ⟨(⟨(⟨.near, ()⟩ : FEnv Unit), fun _ => true⟩ : ratEnv.State), trivial⟩
  piGeneric piGeneric 0 0 (ρ := fun i => if i = 0 then litI 3 4 else litI 1 b) (ρ' := fun i => if i = 0 then litI 3 4 else litI 1 b)
  (fun _ => rfl) (.un .inv (.bin .sub (.var 0) (.var 1))) ⟨fun _ => trivial, by simp, by simp, trivial, trivial⟩
  ⟨fun _ => trivial, by simp, by simp, trivial, trivial⟩
  ⟨fun i => if i = 0 then 3 else 1, 2⁻¹, fun i => by rcases hb with rfl | rfl <;> dsimp only <;> split <;> exact in_lit, 2,
    ⟨3, 1, rfl, rfl, by change (2 : ℝ) = 3 - 1; norm_num⟩, by norm_num, rfl⟩

end BI
