import Verif.Proofs.Expr
import Verif.Proofs.Instances
import Verif.Proofs.InstArith2
import Verif.Proofs.InstElem
/-!
# C14: the fundamental theorem of interval arithmetic

`Expr` is the language of formulas, `Expr.Value v e r` says that `r` is a value of the real formula `e` at the point `v`
(there is none where the formula is not defined), `e.Supported V K inf` that the base type has what the operations of `e`
ask for, and that `inf` holds if one of them can have an unbounded result. The number of nested calls of `sin` and `cos`
depends on the argument: the theorems about `e.eval K fuel` hold from some limit `N` on, and for any limit if the formula
calls neither.
-/

namespace BI
open Set

variable {T : Type} [Num T] [Val T] [NumLaws T] (V : Env T)

/-- An expression defined at one point at least of the operands evaluates, in any rounding mode and whatever the order
of evaluation of operands, to an interval that contains its value at every point of the operands where it is defined;
the rounding mode is left as it was. Missing from the full claim (`Expr.Supported`): powers with exponent `INT_MIN`, whose
negation overflows (`C47_min`), and operations with unbounded results in base types without infinities: in a debug build
they are in `C14_debug_partial`, with `NDEBUG` the claim is false (`C14_violated`). -/
theorem C14_expression_partial (hV : V.Directed) (K : PiConst T) (ρ : ℕ → Itv T) (e : Expr T) (hs : e.Supported V K (InfBase T))
    (hd : ∃ v r, (∀ i, v i ∈ γ (ρ i)) ∧ e.Value v r) :
    ∃ z N, (∀ v r, (∀ i, v i ∈ γ (ρ i)) → e.Value v r → r ∈ γ z) ∧ (e.nests = false → N = 0) ∧
      ∀ fuel ≥ N, V.Returns (e.eval K fuel V.P ρ) (· = z) := by
  obtain ⟨v, r, h1, h2⟩ := hd
  obtain ⟨q, N, hq, hN, h⟩ := e.eval_post (B := False) False.elim hV .inl ρ hs ⟨r, v, h1, h2⟩
  rcases hq with ⟨z, rfl, hz⟩ | ⟨e, ⟨⟨⟩, -⟩, -⟩
  exact ⟨z, N, fun v r h1 h2 => hz ⟨v, h1, h2⟩, hN, fun fuel hf =>
      V.run hV (fun _ hp => (h fuel hf hp).sim) (Post.of_ok ⟨z, rfl, rfl⟩)⟩

/-- The same in a block that owns a rounding object and computes with the unprotected type. -/
theorem C14_region_partial (hV : V.Directed) (K : PiConst T) (ρ : ℕ → Itv T) (e : Expr T) (hs : e.Supported V K (InfBase T))
    (hd : ∃ v r, (∀ i, v i ∈ γ (ρ i)) ∧ e.Value v r) :
    ∃ z N, (∀ v r, (∀ i, v i ∈ γ (ρ i)) → e.Value v r → r ∈ γ z) ∧ (e.nests = false → N = 0) ∧
      ∀ fuel ≥ N, V.Returns (V.P.rnd.scope (e.eval K fuel V.P.unprot ρ)) (· = z) := by
  obtain ⟨v, r, h1, h2⟩ := hd
  obtain ⟨q, N, hq, hN, h⟩ := e.eval_post (B := False) False.elim hV .inl ρ hs ⟨r, v, h1, h2⟩
  rcases hq with ⟨z, rfl, hz⟩ | ⟨e, ⟨⟨⟩, -⟩, -⟩
  exact ⟨z, N, fun v r h1 h2 => hz ⟨v, h1, h2⟩, hN, fun fuel hf =>
      V.run hV (fun _ hp => hp.scope (h fuel hf hp.unprot).sim) (Post.of_ok ⟨z, rfl, rfl⟩)⟩

/-- Base types without infinities in a debug build: the call returns an enclosure or is stopped by an assertion, never
anything else. Missing: exponents `INT_MIN`, as above. -/
theorem C14_debug_partial (hV : V.Directed) (hn : V.NoInf) (K : PiConst T) (ρ : ℕ → Itv T) (e : Expr T) (hs : e.Supported V K True)
    (hd : ∃ v r, (∀ i, v i ∈ γ (ρ i)) ∧ e.Value v r) :
    ∃ N, (e.nests = false → N = 0) ∧
      ((∃ z, (∀ v r, (∀ i, v i ∈ γ (ρ i)) → e.Value v r → r ∈ γ z) ∧ ∀ fuel ≥ N, V.Returns (e.eval K fuel V.P ρ) (· = z)) ∨
        ∀ fuel ≥ N, V.Throws (e.eval K fuel V.P ρ) .assertion) := by
  obtain ⟨v, r, h1, h2⟩ := hd
  obtain ⟨q, N, hq, hN, h⟩ := e.eval_post (fun _ => hn) hV (fun _ => .inr trivial) ρ hs ⟨r, v, h1, h2⟩
  obtain ⟨J, hJ⟩ := V.sim hV.kindOk
  refine ⟨N, hN, ?_⟩
  rcases hq with ⟨z, rfl, hz⟩ | ⟨e, -, rfl⟩
  · exact .inl ⟨z, fun v r h1 h2 => hz ⟨v, h1, h2⟩, fun fuel hf => V.returns_of (h fuel hf hJ).sim (Post.of_ok ⟨z, rfl, rfl⟩)⟩
  · refine .inr fun fuel hf s hs => ?_
    obtain ⟨k1, -, k2⟩ := h fuel hf hJ s hs
    obtain ⟨e', ⟨-, rfl⟩, k2⟩ := k2 e rfl
    exact ⟨k2, k1.symm⟩

/-- Inclusion isotonicity in its weakest useful form: narrowing the operands never invalidates an enclosure. -/
theorem C14_narrow_partial (hV : V.Directed) (K : PiConst T) (ρ ρ' : ℕ → Itv T) (e : Expr T) (hs : e.Supported V K (InfBase T))
    (hsub : ∀ i, γ (ρ' i) ⊆ γ (ρ i)) (hd : ∃ v r, (∀ i, v i ∈ γ (ρ' i)) ∧ e.Value v r) :
    ∃ z N, (∀ v r, (∀ i, v i ∈ γ (ρ' i)) → e.Value v r → r ∈ γ z) ∧ (e.nests = false → N = 0) ∧
      ∀ fuel ≥ N, V.Returns (e.eval K fuel V.P ρ) (· = z) := by
  obtain ⟨v, r, h1, h2⟩ := hd
  obtain ⟨z, N, a, b⟩ := C14_expression_partial V hV K ρ e hs ⟨v, r, fun i => hsub i (h1 i), h2⟩
  exact ⟨z, N, fun v r h1 h2 => a v r (fun i => hsub i (h1 i)) h2, b⟩

/-! ## The hypotheses can be met -/

/-- `sqrt(x) / (y - 1) + pow(x, -3) * y` -/
noncomputable abbrev demoExpr : Expr (Fl .double) :=
  .bin .add (.bin .div (.un .sqrt (.var 0)) (.binR .sub (.var 1) (Num.lit 1))) (.bin .mul (.pow (.var 0) (-3)) (.var 1))

/-- With `x = [-1, 4]`, `y = [0, 3]`; the value at `x = 1`, `y = 3` is `7/2`. -/
example : ∃ z, (demoExpr.eval (piDouble .near) 0 dbl.P (fun i => if i = 0 then litI (-1) 4 else litI 0 3)
      (⟨(⟨.near, ()⟩ : FEnv Unit), fun _ => true⟩ : dbl.State)).1 = .ok z ∧ (7 / 2 : ℝ) ∈ γ z := by
  have hv : ∀ i : ℕ, (if i = 0 then (1 : ℝ) else 3) ∈ γ (if i = 0 then litI (-1) 4 else litI 0 3 : Itv (Fl .double)) := by
    intro i; split <;> exact in_lit
  have h1 : val (Num.lit 1 : Fl .double) = some ((1 : ℝ) : EReal) := by rw [val_one]; rfl
  have hval : demoExpr.Value (fun i => if i = 0 then 1 else 3) (7 / 2) :=
    ⟨1 / 2, 3, ⟨1, 2, ⟨1, rfl, by norm_num, by simp⟩, ⟨3, 1, rfl, h1, by change (2 : ℝ) = 3 - 1; norm_num⟩,
      by norm_num, rfl⟩, ⟨1, 3, ⟨1, rfl, by norm_num, by norm_num⟩, rfl, by change (3 : ℝ) = 1 * 3; norm_num⟩,
      by change (7 / 2 : ℝ) = 1 / 2 + 3; norm_num⟩
  have hs : demoExpr.Supported dbl (piDouble .near) (InfBase (Fl .double)) :=
    ⟨by simp, ⟨fun _ => fl_inf, ⟨by simp, fun _ => dbl_sqrt.mono (fun h => h.2.1) fun h => h.2.1, trivial⟩, trivial⟩,
      ⟨by simp, ⟨dbl_tight.signed, by decide, fun _ => fl_inf, trivial⟩, trivial⟩⟩
  obtain ⟨z, N, hz, hN, h⟩ := C14_expression_partial dbl dbl_directed _ (fun i => if i = 0 then litI (-1) 4 else litI 0 3) _ hs
    ⟨_, _, hv, hval⟩
  obtain ⟨w, h', -, rfl⟩ := h 0 (hN rfl).le (⟨(⟨.near, ()⟩ : FEnv Unit), fun _ => true⟩ : dbl.State) trivial
  exact ⟨w, h', hz _ _ hv hval⟩

/-- `log(sin(x) + exp(y)) / x`, with `rounded_transc_std`; the value at `x = 0` does not exist, but at `x = π/2`, `y = 0`
it does. -/
noncomputable abbrev demoElem : Expr (Fl .double) :=
  .bin .div (.fn .log (.bin .add (.fn .sin (.var 0)) (.fn .exp (.var 1)))) (.var 0)

example : ∃ z N, (Real.log 2 / (Real.pi / 2)) ∈ γ z ∧ ∀ fuel ≥ N, dblStd.Returns
    (demoElem.eval (piDouble .near) fuel dblStd.P fun i => if i = 0 then litI (-1) 4 else litI 0 3) (· = z) := by
  have hv : ∀ i : ℕ, (if i = 0 then (Real.pi / 2 : ℝ) else 0) ∈ γ (if i = 0 then litI (-1) 4 else litI 0 3 : Itv (Fl .double)) := by
    intro i
    split
    · rw [mem_litI (by decide) (by decide)]
      have := Real.pi_pos
      have := Real.pi_lt_four
      constructor <;> push_cast <;> linarith
    · exact in_lit
  have hval : demoElem.Value (fun i => if i = 0 then Real.pi / 2 else 0) (Real.log 2 / (Real.pi / 2)) := by
    refine ⟨Real.log 2, Real.pi / 2, ⟨2, ⟨1, 1, ⟨Real.pi / 2, rfl, trivial, Real.sin_pi_div_two.symm⟩,
      ⟨0, rfl, trivial, Real.exp_zero.symm⟩, ?_⟩, ?_, rfl⟩, rfl, ?_, rfl⟩
    · change (2 : ℝ) = 1 + 1; norm_num
    · change (0 : ℝ) < 2; norm_num
    · have := Real.pi_pos; positivity
  have hK := (C21_double .near).brackets
  have hs : demoElem.Supported dblStd (piDouble .near) (InfBase (Fl .double)) :=
    ⟨fun _ => fl_inf, ⟨⟨hK, (dblStd_fn .log).directed, fun _ => fl_inf, fun h => by cases h⟩, (fun h => by cases h),
      ⟨⟨hK, (dblStd_fn .cos).directed, (fun h => by cases h), fun _ => ⟨dblStd_tight, dblStd_int, fl_ieee, (C21_double .near).pos⟩⟩, trivial⟩,
      ⟨hK, (dblStd_fn .exp).directed, (fun h => by cases h), fun h => by cases h⟩, trivial⟩, trivial⟩
  obtain ⟨z, N, hz, -, h⟩ := C14_expression_partial dblStd dblStd_tight.directed _ (fun i => if i = 0 then litI (-1) 4 else litI 0 3) _ hs
    ⟨_, _, hv, hval⟩
  exact ⟨z, N, hz _ _ hv hval, h⟩

example := C14_region_partial flt flt_directed piGeneric (fun _ => litI (-2) 3) (.bin .mul (.var 0) (.binL .sub (Num.lit 1) (.var 0)))
  ⟨by simp, trivial, by simp, trivial⟩
  ⟨fun _ => 2, -2, fun _ => in_lit, 2, -1, rfl, ⟨1, 2, by rw [val_one]; rfl, rfl, by change (-1 : ℝ) = 1 - 2; norm_num⟩,
    by change (-2 : ℝ) = 2 * -1; norm_num⟩
/-- `1 / (x - 1)` over the rational numbers: `[2, 3]` has an inverse, and a wider argument would meet an assertion. -/
example := C14_debug_partial ratEnv ratEnv_directed ⟨rfl, rfl⟩ piGeneric (fun _ => litI 3 4) (.un .inv (.binR .sub (.var 0) (Num.lit 1)))
  ⟨fun _ => trivial, (fun h => by cases h), trivial⟩
  ⟨fun _ => 3, 1 / 2, fun _ => in_lit, 2, ⟨3, 1, rfl, by rw [val_one]; rfl, by change (2 : ℝ) = 3 - 1; norm_num⟩, two_ne_zero, one_div 2⟩
example := C14_narrow_partial ratEnv rat_tight.directed piGeneric (fun _ => litI (-2) 3) (fun _ => litI 1 2) (.bin .hull (.var 0) (.var 1))
  ⟨by simp, trivial, trivial⟩ (fun _ r hr => by
    rw [mem_litI (by decide) (by decide)] at hr ⊢
    exact ⟨le_trans (by norm_num) hr.1, hr.2.trans (by norm_num)⟩)
  ⟨fun _ => 2, 2, fun _ => in_lit, 2, 2, rfl, rfl, by constructor <;> simp⟩

end BI
