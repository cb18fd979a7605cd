import Verif.Proofs.RefineFate
import Verif.Proofs.RefineNoInf
import Verif.Props.Isotone
import Verif.Props.Ctor
import Verif.Props.Register
/-!
# C79: one formula with two base types

`T` is a base type with directed rounding in some configuration `V`, `U` a base type that has all the numbers of `T` (`φ` maps
each to the same number) with correct rounding in the configuration `W`; for instance `float` and `double`, or the same type with a
poorer and a better library. C69 is the case of one type and one configuration.
-/

set_option linter.unusedSectionVars false

namespace BI
open Set Refine

section
variable {T U : Type} [Num T] [Val T] [NumLaws T] [Num U] [Val U] [NumLaws U]

private theorem ret {T : Type} [Num T] [Val T] [NumLaws T] (V : Env T) {D D' : EReal → EReal → Prop} (hV : V.Ok D D') {K : PiConst T}
    {fuel : ℕ} {ρ : ℕ → Itv T} {e : Expr T} {z : Itv T} {Q : Itv T → Prop} (h : e.eval K fuel V.pp ρ = .ok z) (hQ : Q z) :
    V.Returns (e.eval K fuel V.P ρ) Q ∧ V.Returns (V.P.rnd.scope (e.eval K fuel V.P.unprot ρ)) Q :=
  ⟨V.run hV (fun _ hp => Expr.eval_sim hp ρ e z h) (Post.of_ok ⟨z, rfl, hQ⟩),
    V.run hV (fun _ hp => hp.scope (Expr.eval_sim hp.unprot ρ e z h)) (Post.of_ok ⟨z, rfl, hQ⟩)⟩

/-- Only the type of the constants changes. -/
theorem C79_same_value {φ : T → U} (hφ : Lossless φ) (v : ℕ → ℝ) (e : Expr T) (r : ℝ) : (e.conv φ).Value v r ↔ e.Value v r := by
  induction e generalizing r with
  | var i => exact Iff.rfl
  | num t => change val (φ t) = _ ↔ _; rw [hφ]; rfl
  | un o e ih => simp only [Expr.conv, Expr.Value, ih]
  | pow e k ih => simp only [Expr.conv, Expr.Value, ih]
  | bin o e₁ e₂ ih₁ ih₂ => simp only [Expr.conv, Expr.Value, ih₁, ih₂]
  | binL o t e ih => simp only [Expr.conv, Expr.Value, ih, hφ t]
  | binR o e t ih => simp only [Expr.conv, Expr.Value, ih, hφ t]
  | inter e₁ e₂ ih₁ ih₂ => simp only [Expr.conv, Expr.Value, ih₁, ih₂]
  | fn f e ih => simp only [Expr.conv, Expr.Value, ih]

/-- The result in the finer type contains the values and lies in the result in the coarser type. What is missing: `sin`, `cos`
and `tan` (see `C79_violated`), and operations with unbounded results for base types without infinities, for which see
`C79_debug_partial`. -/
theorem C79_finer_partial (V : Env T) (W : Env U) (hV : V.Directed) (hW : W.Tight) {φ : T → U} (hφ : Lossless φ) (K : PiConst T)
    (K' : PiConst U) (fuel fuel' : ℕ) {ρ : ℕ → Itv T} {ρ' : ℕ → Itv U} (hρ : ∀ i, γ (ρ' i) ⊆ γ (ρ i)) (e : Expr T)
    (hs : e.Supported V K (InfBase T)) (hs' : (e.conv φ).Sharp W K' (InfBase U)) (hd : ∃ v r, (∀ i, v i ∈ γ (ρ' i)) ∧ e.Value v r) :
    W.Returns ((e.conv φ).eval K' fuel' W.P ρ') fun z' => (∀ v r, (∀ i, v i ∈ γ (ρ' i)) → e.Value v r → r ∈ γ z') ∧
      V.Returns (e.eval K fuel V.P ρ) fun z => γ z' ⊆ γ z := by
  obtain ⟨v, r, hv, hr⟩ := hd
  intro s hs₀
  obtain ⟨z', z, h1, h2, h3, h4⟩ := Refine.Expr.eval_nest (fuel := fuel) (fuel' := fuel') hφ ⟨s, hs₀⟩ hV hW hρ e hs hs'
    ⟨r, v, hv, (C79_same_value hφ v e r).2 hr⟩
  exact (ret W hW h1 ⟨fun v r hv hr => h3 ⟨v, hv, (C79_same_value hφ v e r).2 hr⟩, (ret V hV h2 h4).1⟩).1 s hs₀

/-- The same in blocks that own a rounding object, for both evaluations or only one of them. -/
theorem C79_region_partial (V : Env T) (W : Env U) (hV : V.Directed) (hW : W.Tight) {φ : T → U} (hφ : Lossless φ) (K : PiConst T)
    (K' : PiConst U) (fuel fuel' : ℕ) {ρ : ℕ → Itv T} {ρ' : ℕ → Itv U} (hρ : ∀ i, γ (ρ' i) ⊆ γ (ρ i)) (e : Expr T)
    (hs : e.Supported V K (InfBase T)) (hs' : (e.conv φ).Sharp W K' (InfBase U)) (hd : ∃ v r, (∀ i, v i ∈ γ (ρ' i)) ∧ e.Value v r) :
    (W.Returns (W.P.rnd.scope ((e.conv φ).eval K' fuel' W.P.unprot ρ')) fun z' =>
      V.Returns (V.P.rnd.scope (e.eval K fuel V.P.unprot ρ)) fun z => γ z' ⊆ γ z) ∧
    (W.Returns ((e.conv φ).eval K' fuel' W.P ρ') fun z' =>
      V.Returns (V.P.rnd.scope (e.eval K fuel V.P.unprot ρ)) fun z => γ z' ⊆ γ z) ∧
    (W.Returns (W.P.rnd.scope ((e.conv φ).eval K' fuel' W.P.unprot ρ')) fun z' =>
      V.Returns (e.eval K fuel V.P ρ) fun z => γ z' ⊆ γ z) := by
  obtain ⟨v, r, hv, hr⟩ := hd
  refine ⟨fun s hs₀ => ?_, fun s hs₀ => ?_, fun s hs₀ => ?_⟩ <;>
    obtain ⟨z', z, h1, h2, h3, h4⟩ := Refine.Expr.eval_nest (fuel := fuel) (fuel' := fuel') hφ ⟨s, hs₀⟩ hV hW hρ e hs hs'
      ⟨r, v, hv, (C79_same_value hφ v e r).2 hr⟩
  · exact (ret W hW h1 (ret V hV h2 h4).2).2 s hs₀
  · exact (ret W hW h1 (ret V hV h2 h4).2).1 s hs₀
  · exact (ret W hW h1 (ret V hV h2 h4).1).2 s hs₀

/-- The same base type, but configurations that differ in platform, rounding kind, library and checking: none has a narrower
result than a correctly rounded one. -/
theorem C79_best_partial (V W : Env T) (hV : V.Directed) (hW : W.Tight) (K K' : PiConst T) (fuel fuel' : ℕ) {ρ : ℕ → Itv T} (e : Expr T)
    (hs : e.Supported V K (InfBase T)) (hs' : e.Sharp W K' (InfBase T)) (hd : ∃ v r, (∀ i, v i ∈ γ (ρ i)) ∧ e.Value v r) :
    W.Returns (e.eval K' fuel' W.P ρ) fun z' => V.Returns (e.eval K fuel V.P ρ) fun z => γ z' ⊆ γ z := by
  have h : e.conv id = e := by
    clear hs hs' hd
    induction e <;> simp_all [Expr.conv]
  have := C79_finer_partial V W hV hW (φ := id) (fun _ => rfl) K K' fuel fuel' (ρ := ρ) (ρ' := ρ) (fun _ => subset_rfl) e hs
    (by rw [h]; exact hs') hd
  rw [h] at this
  exact this.mono fun _ h => h.2

/-- A coarser type without infinities in a debug build: an assertion stops the evaluation in the coarser type, or both evaluations
return and the results are nested. In particular an evaluation that is not stopped in the coarser type is not stopped in the finer
type, whether that has infinities or not. What is missing: `sin`, `cos` and `tan`, as above, and builds with `NDEBUG` (see
`C57_release`). -/
theorem C79_debug_partial (V : Env T) (W : Env U) (hV : V.Directed) (hn : V.NoInf) (hW : W.Tight) {φ : T → U} (hφ : Lossless φ)
    (K : PiConst T) (K' : PiConst U) (fuel fuel' : ℕ) {ρ : ℕ → Itv T} {ρ' : ℕ → Itv U} (hρ : ∀ i, γ (ρ' i) ⊆ γ (ρ i)) (e : Expr T)
    (hs : e.Supported V K True) (hs' : (e.conv φ).Sharp W K' True) (hd : ∃ v r, (∀ i, v i ∈ γ (ρ' i)) ∧ e.Value v r) :
    (W.Returns ((e.conv φ).eval K' fuel' W.P ρ') fun z' => (∀ v r, (∀ i, v i ∈ γ (ρ' i)) → e.Value v r → r ∈ γ z') ∧
      V.Returns (e.eval K fuel V.P ρ) fun z => γ z' ⊆ γ z) ∨ V.Throws (e.eval K fuel V.P ρ) .assertion := by
  obtain ⟨v, r, hv, hr⟩ := hd
  by_cases hw : ∃ s : W.State, W.Valid s
  swap
  · exact .inl fun s hs => absurd ⟨s, hs⟩ hw
  rcases Refine.Expr.eval_nestOr (fuel := fuel) (fuel' := fuel') hφ hw hV hn hW hρ e hs hs' ⟨r, v, hv, (C79_same_value hφ v e r).2 hr⟩
    with ⟨z', z, h1, h2, h3, h4⟩ | h
  · exact .inl (ret W hW h1 ⟨fun v r hv hr => h3 ⟨v, hv, (C79_same_value hφ v e r).2 hr⟩, (ret V hV h2 h4).1⟩).1
  · refine .inr fun s hs₀ => ?_
    obtain ⟨N, hN, k⟩ := C14_debug_partial V hV hn K ρ e hs ⟨v, r, fun i => hρ i (hv i), hr⟩
    have hN := hN ((Expr.nests_conv φ e).symm.trans (hs'.supported hW).2)
    subst hN
    rcases k with ⟨z, -, k⟩ | k
    · obtain ⟨J, hJ⟩ := V.sim hV.kindOk
      obtain ⟨w, k, -⟩ := k fuel (Nat.zero_le _) s hs₀
      obtain ⟨-, -, k'⟩ := Expr.eval_ends (K := K) (fuel := fuel) hJ ρ e s hs₀
      obtain ⟨e', -, k'⟩ := k' _ h
      cases k.symm.trans k'
    · exact k fuel (Nat.zero_le _) s hs₀

/-- Formulas with and without value: the result in the finer type lies in the one in the coarser type, or an empty interval is
created in the finer type, which is thrown or returned as its checking policy has it. In particular a formula that fails in the
coarser type for want of values fails in the finer type, too. An expression with `hull` needs a policy that forbids empty intervals
in the finer type (`C80_hull_hides`). What is missing: `sin`, `cos` and `tan` (`C79_violated`), operands without real numbers and
`atanh` (`C80_infinite_point`), operations with unbounded results for base types without infinities. -/
theorem C79_outcome_partial (V : Env T) (W : Env U) (hV : V.Directed) (hW : W.Tight) (hw : ∃ s : W.State, W.Valid s) {φ : T → U}
    (hφ : Lossless φ) (K : PiConst T) (K' : PiConst U) (fuel fuel' : ℕ) {ρ : ℕ → Itv T} {ρ' : ℕ → Itv U} (hn : ∀ i, (γ (ρ' i)).Nonempty)
    (hρ : ∀ i, γ (ρ' i) ⊆ γ (ρ i)) (e : Expr T) (hs : e.Supported V K (InfBase T)) (hs' : (e.conv φ).Sharp W K' (InfBase U)) (hf : e.Finite)
    (hh : W.checks.forbidsEmpty = true ∨ e.hullFree = true) :
    (∃ z z', (γ z').Nonempty ∧ γ z' ⊆ γ z ∧
      (V.Returns (e.eval K fuel V.P ρ) (· = z) ∧ V.Returns (V.P.rnd.scope (e.eval K fuel V.P.unprot ρ)) (· = z)) ∧
      (W.Returns ((e.conv φ).eval K' fuel' W.P ρ') (· = z') ∧
        W.Returns (W.P.rnd.scope ((e.conv φ).eval K' fuel' W.P.unprot ρ')) (· = z'))) ∨
    (W.YieldsEmpty ((e.conv φ).eval K' fuel' W.P ρ') ∧ W.YieldsEmpty (W.P.rnd.scope ((e.conv φ).eval K' fuel' W.P.unprot ρ'))) := by
  rcases Refine.Expr.eval_fate (n := fuel) (n' := fuel') hφ hw hV hW hn hρ e hs hs' hf ((e.conv φ).hullFree = true)
    (by rw [Expr.hullFree_conv]; exact id) with ⟨z, z', h1, h2, h3, h4⟩ | h
  · exact .inl ⟨z, z', h1, h2, Expr.fine_runs hV h3, Expr.fine_runs hW h4⟩
  · exact .inr (Expr.gone_runs hW (by rw [Expr.hullFree_conv]; exact hh) h)

/-- The same type, configuration and constants: on smaller operands the result lies in the one on the larger operands, or an empty
interval is created on the smaller operands. What is missing: as in `C79_outcome_partial`. -/
theorem C69_outcome_partial (V : Env T) (hV : V.Tight) (hv : ∃ s : V.State, V.Valid s) (K : PiConst T) (fuel : ℕ) {ρ ρ' : ℕ → Itv T}
    (hn : ∀ i, (γ (ρ i)).Nonempty) (hρ : ∀ i, γ (ρ i) ⊆ γ (ρ' i)) (e : Expr T) (hs : e.Sharp V K (InfBase T)) (hf : e.Finite)
    (hh : V.checks.forbidsEmpty = true ∨ e.hullFree = true) :
    (∃ z z', (γ z).Nonempty ∧ γ z ⊆ γ z' ∧
      (V.Returns (e.eval K fuel V.P ρ) (· = z) ∧ V.Returns (V.P.rnd.scope (e.eval K fuel V.P.unprot ρ)) (· = z)) ∧
      (V.Returns (e.eval K fuel V.P ρ') (· = z') ∧ V.Returns (V.P.rnd.scope (e.eval K fuel V.P.unprot ρ')) (· = z'))) ∨
    (V.YieldsEmpty (e.eval K fuel V.P ρ) ∧ V.YieldsEmpty (V.P.rnd.scope (e.eval K fuel V.P.unprot ρ))) := by
  have h : e.conv id = e := by
    clear hs hh hf
    induction e <;> simp_all [Expr.conv]
  have := C79_outcome_partial V V hV.directed hV hv (φ := id) (fun _ => rfl) K K fuel fuel hn hρ e (hs.supported hV).1 (by rw [h]; exact hs) hf hh
  rw [h] at this
  rcases this with ⟨z, z', h1, h2, h3, h4⟩ | h
  · exact .inl ⟨z', z, h1, h2, h4, h3⟩
  · exact .inr h
end

/-! ## Floating-point formats -/

section
variable {f g : Fmt}

/-- Conversion to a format with more precision and a larger range, in whichever direction it rounds. -/
theorem C79_lossless (h : Nested f g) (r : RMode) : Lossless (Fl.convert (f := f) g r) := fun a => by
  cases a with
  | nan => rfl
  | inf s => cases s <;> rfl
  | zero s => rfl
  | nz q hq => rw [convert_nz h]; rfl

/-- Loading an operand: the interval over the finer format is the same set. -/
theorem C79_load (h : Nested f g) (V : Env (Fl f)) (W : Env (Fl g)) (hk : W.kind ≠ .exact) {x : Itv (Fl f)} (hx : (γ x).Nonempty) :
    W.Returns (ctorItv W.P (testI V.C x) (srcFl x.lower) (srcFl x.upper)) fun z => γ z = γ x :=
  (C36_itv_fl W V hk hx).mono fun z hz => subset_antisymm ((hz.2 (copy (Fl.convert g .near) x)
    (gamma_copy (C79_lossless h .near) x).symm.subset).1.trans (gamma_copy (C79_lossless h .near) x).subset) hz.1

/-- A detour: to evaluate the formula in the finer format and to convert the result back is never worse than to evaluate it in
the coarser format. -/
theorem C79_detour_partial (h : Nested f g) (V : Env (Fl f)) (W : Env (Fl g)) (hk : V.kind ≠ .exact) (hk' : W.kind ≠ .exact) (r : RMode)
    (K : PiConst (Fl f)) (K' : PiConst (Fl g)) (fuel fuel' : ℕ) {ρ : ℕ → Itv (Fl f)} {ρ' : ℕ → Itv (Fl g)} (hρ : ∀ i, γ (ρ' i) = γ (ρ i))
    (e : Expr (Fl f)) (hs : e.Supported V K (InfBase (Fl f))) (hs' : (e.conv (Fl.convert g r)).Sharp W K' (InfBase (Fl g)))
    (hd : ∃ v q, (∀ i, v i ∈ γ (ρ i)) ∧ e.Value v q) :
    W.Returns ((e.conv (Fl.convert g r)).eval K' fuel' W.P ρ') fun z' =>
      V.Returns (ctorItv V.P (testI W.C z') (srcFl z'.lower) (srcFl z'.upper)) fun w =>
        (∀ v q, (∀ i, v i ∈ γ (ρ i)) → e.Value v q → q ∈ γ w) ∧ V.Returns (e.eval K fuel V.P ρ) fun z => γ w ⊆ γ z := by
  obtain ⟨v, q, hv, hq⟩ := hd
  refine (C79_finer_partial V W (V.fl_tight hk).directed (W.fl_tight hk') (C79_lossless h r) K K' fuel fuel' (ρ := ρ) (fun i => (hρ i).subset)
    e hs hs' ⟨v, q, fun i => (hρ i).symm ▸ hv i, hq⟩).mono fun z' hz' => ?_
  obtain ⟨h1, h2⟩ := hz'
  refine (C36_itv_fl V W hk ⟨q, h1 v q (fun i => (hρ i).symm ▸ hv i) hq⟩).mono fun w hw => ⟨fun v q hv hq =>
    hw.1 (h1 v q (fun i => (hρ i).symm ▸ hv i) hq), h2.mono fun z hz => (hw.2 z hz).1⟩
end

/-- The claim does not hold for `cos(x)`, even if both types are `double` and both configurations the same. -/
theorem C79_violated (fuel : ℕ) : Lossless (id : Fl .double → Fl .double) ∧ γ cosX ⊆ γ cosX' ∧ (γ cosX).Nonempty ∧
    dblStd.Returns (((Expr.fn .cos (.var 0)).conv id).eval piD2 (fuel + 2) dblStd.P fun _ => cosX) fun z' =>
      dblStd.Returns ((Expr.fn .cos (.var 0)).eval piD2 (fuel + 2) dblStd.P fun _ => cosX') fun z => ¬ γ z' ⊆ γ z :=
  ⟨fun _ => rfl, C69_violated fuel⟩

/-! ## The hypotheses can be met -/

/-- `x * x / (y - 1) + pow(x, 3)` -/
noncomputable abbrev refExpr : Expr (Fl .single) :=
  .bin .add (.bin .div (.bin .mul (.var 0) (.var 0)) (.binR .sub (.var 1) (Num.lit 1))) (.pow (.var 0) 3)

theorem refExpr_supported : refExpr.Supported flt (piFloat .near) (InfBase (Fl .single)) :=
  ⟨by simp, ⟨fun _ => fl_inf, ⟨by simp, trivial, trivial⟩, trivial⟩, flt_tight.signed, by decide, (fun _ => fl_inf), trivial⟩

theorem refExpr_sharp : (refExpr.conv (Fl.convert .double .near)).Sharp dblStd (piDouble .near) (InfBase (Fl .double)) :=
  ⟨by simp, ⟨fun _ => fl_inf, ⟨by simp, trivial, trivial⟩, trivial⟩, by decide, (fun _ => fl_inf), trivial⟩

theorem refExpr_value : refExpr.Value (fun i => if i = 0 then 1 else 0) 0 := by
  have h1 : val (Num.lit 1 : Fl .single) = some ((1 : ℝ) : EReal) := by rw [val_one]; rfl
  exact ⟨-1, 1, ⟨1, -1, ⟨1, 1, rfl, rfl, by change (1 : ℝ) = 1 * 1; norm_num⟩, ⟨0, 1, rfl, h1, by change (-1 : ℝ) = 0 - 1; norm_num⟩,
    by norm_num, by norm_num⟩, ⟨1, rfl, by norm_num, by norm_num⟩, by change (0 : ℝ) = -1 + 1; norm_num⟩

theorem lit_gamma {f g : Fmt} {a b : ℤ} (ha : |a| ≤ 7) (hb : |b| ≤ 7) : γ (litI a b : Itv (Fl f)) = γ (litI a b : Itv (Fl g)) := by
  ext r; rw [mem_litI ha hb, mem_litI ha hb]

/-- `float` and `double`, `x = [1, 2]`, `y = [0, 1]` -/
example := C79_finer_partial flt dblStd flt_directed dblStd_tight (C79_lossless C39_formats.1 .near) (piFloat .near) (piDouble .near) 0 0
  (ρ := fun i => if i = 0 then litI 1 2 else litI 0 1) (ρ' := fun i => if i = 0 then litI 1 2 else litI 0 1)
  (fun i => by split <;> exact (lit_gamma (by decide) (by decide)).subset) refExpr refExpr_supported refExpr_sharp
  ⟨_, _, fun i => by split <;> exact in_lit, refExpr_value⟩

example := C79_region_partial flt dblStd flt_directed dblStd_tight (C79_lossless C39_formats.1 .near) (piFloat .near) (piDouble .near) 0 0
  (ρ := fun i => if i = 0 then litI 1 2 else litI 0 1) (ρ' := fun i => if i = 0 then litI 1 2 else litI 0 1)
  (fun i => by split <;> exact (lit_gamma (by decide) (by decide)).subset) refExpr refExpr_supported refExpr_sharp
  ⟨_, _, fun i => by split <;> exact in_lit, refExpr_value⟩

example := C79_detour_partial C39_formats.1 flt dblStd (by decide) (by simp [dblStd]) .near (piFloat .near) (piDouble .near) 0 0
  (ρ := fun i => if i = 0 then litI 1 2 else litI 0 1) (ρ' := fun i => if i = 0 then litI 1 2 else litI 0 1)
  (fun i => by split <;> exact lit_gamma (by decide) (by decide)) refExpr refExpr_supported refExpr_sharp
  ⟨_, _, fun i => by split <;> exact in_lit, refExpr_value⟩

example := C79_load C39_formats.1 flt dblStd (by simp [dblStd]) (x := litI 1 2) ⟨1, in_lit⟩

/-- `interval<double>` with the generic constants and `rounded_transc_opp`, against the best one. -/
example := C79_best_partial dblOpp dblStd dblOpp_tight.directed dblStd_tight piGeneric (piDouble .near) 0 0 (ρ := fun _ => litI 1 2)
  (.un .square (.fn .exp (.var 0)))
  ⟨by simp, by simp, ⟨C21_generic, (dblOpp.ideal_ok .exp rfl (.inr ⟨rfl, rfl⟩)).directed, (fun h => by cases h),
    (fun h => by cases h)⟩, trivial⟩
  ⟨by simp, by simp, ⟨C21_double .near, dblStd_fn .exp, (fun h => by cases h), rfl⟩, trivial⟩
  ⟨fun _ => 1, _, fun _ => in_lit, _, ⟨1, rfl, trivial, rfl⟩, rfl⟩

/-- `sqrt(x - 1)` on operands some of which lie below 1: both outcomes occur. -/
example (x : Itv (Fl .single)) (x' : Itv (Fl .double)) (hx : (γ x').Nonempty) (hxx : γ x' ⊆ γ x) :=
  C79_outcome_partial flt dblStd flt_directed dblStd_tight ⟨(⟨(⟨.near, ()⟩ : FEnv Unit), fun _ => true⟩ : dblStd.State), trivial⟩
    (C79_lossless C39_formats.1 .near) (piFloat .near) (piDouble .near) 0 0 (ρ := fun _ => x) (ρ' := fun _ => x') (fun _ => hx) (fun _ => hxx)
    (.un .sqrt (.binR .sub (.var 0) (Num.lit 1))) ⟨by simp, fun _ => (flt.fl_sqrtOk (by decide)).mono (fun h => h.2.1) (fun h => h.2.1), trivial⟩
    ⟨by simp, fun _ => dblStd.fl_sqrtOk (by decide), trivial⟩ ⟨trivial, _, NumLaws.lit 1 (by decide)⟩ (.inr rfl)

example (x x' : Itv (Fl .double)) (hx : (γ x).Nonempty) (hxx : γ x ⊆ γ x') :=
  C69_outcome_partial dblStd dblStd_tight ⟨(⟨(⟨.near, ()⟩ : FEnv Unit), fun _ => true⟩ : dblStd.State), trivial⟩ (piDouble .near) 0
    (ρ := fun _ => x) (ρ' := fun _ => x') (fun _ => hx) (fun _ => hxx) (.un .sqrt (.binR .sub (.var 0) (Num.lit 1)))
    ⟨by simp, fun _ => dblStd.fl_sqrtOk (by decide), trivial⟩ ⟨trivial, _, NumLaws.lit 1 (by decide)⟩ (.inr rfl)

/-- `1 / (x - y)` over rational numbers, with strict checking for the larger operands and without checking for the smaller ones. With
`x = [3, 4]`, `y = [1, 2]` in `[0, 2]` both evaluations return; with `x` in `[1, 4]` the first one is stopped. -/
example (a b : ℤ) (ha : a = 1 ∨ a = 3) (hb : b = 0 ∨ b = 1) := C79_debug_partial ratEnv { ratEnv with checks := .base } rat_tight.directed
  ⟨rfl, rfl⟩ rat_tight (φ := id) (fun _ => rfl) piGeneric piGeneric 0 0 (ρ := fun i => if i = 0 then litI a 4 else litI b 2)
  (ρ' := fun i => if i = 0 then litI 3 4 else litI 1 2)
  (fun i r hr => by
    by_cases h : i = 0
    · simp only [if_pos h] at hr ⊢
      rw [mem_litI (by decide) (by decide)] at hr
      rcases ha with rfl | rfl <;> rw [mem_litI (by decide) (by decide)] <;> exact ⟨le_trans (by norm_num) hr.1, hr.2⟩
    · simp only [if_neg h] at hr ⊢
      rw [mem_litI (by decide) (by decide)] at hr
      rcases hb with rfl | rfl <;> rw [mem_litI (by decide) (by decide)] <;> exact ⟨le_trans (by norm_num) hr.1, hr.2⟩)
  (.un .inv (.bin .sub (.var 0) (.var 1))) ⟨fun _ => trivial, by simp, by simp, trivial, trivial⟩
  ⟨fun _ => trivial, by simp, by simp, trivial, trivial⟩
  ⟨fun i => if i = 0 then 3 else 1, 2⁻¹, fun i => by dsimp only; split <;> exact in_lit, 2, ⟨3, 1, rfl, rfl, by change (2 : ℝ) = 3 - 1; norm_num⟩,
    by norm_num, rfl⟩

end BI
