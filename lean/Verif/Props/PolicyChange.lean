import Verif.Proofs.PolicyChange
import Verif.Proofs.PolicyNoInf
import Verif.Props.Expr
import Verif.Proofs.Isotone
/-! # C80: exchanging the checking policy

guide.htm, "Checking policies": a program written for one checking policy is compiled with another one, or with other
assertions. `V.recheck c b` is the configuration `V` with the policy `c`, `NDEBUG` defined or not.

Missing from the full claim: operands without real numbers, as `[+∞, +∞]`, and `atanh`, which may create such an interval, for
which it is false (`C80_infinite_point`); operations with unbounded results in base types without infinities, which are
stopped by an assertion in a debug build (`C80_debug_partial`) and return wrong results otherwise (C57). -/

namespace BI
open Set

section
variable {T : Type} [Num T] [Val T] [NumLaws T] (V : Env T)

theorem Fine.returns {U : Env T} {D E : EReal → EReal → Prop} (hU : U.Ok D E) {a : Policies (M U.ctl.W) T → M U.ctl.W (Itv T)}
    {q : Res (Itv T)} {z : Itv T} (h : Fine U a q z) : U.Returns (a U.P) (· = z) := by
  obtain ⟨J, hJ⟩ := U.sim hU.kindOk
  exact U.returns_of (h.2 hJ).sim (Post.of_ok ⟨z, rfl, rfl⟩)

theorem Gone.throws {U : Env T} {D E : EReal → EReal → Prop} (hU : U.Ok D E) {a : Policies (M U.ctl.W) T → M U.ctl.W (Itv T)}
    {q : Res (Itv T)} {h : Prop} {B : Itv T → Prop} (hE : U.checks.forbidsEmpty = true) (hg : Gone U h B a q) :
    U.Throws (a U.P) .emptyCreated := fun s hs => by
  obtain ⟨J, hJ⟩ := U.sim hU.kindOk
  obtain ⟨h1, -, h2⟩ := hg.1 hE hJ s hs
  obtain ⟨e, rfl, h2⟩ := h2 _ rfl
  exact ⟨h2, h1.symm⟩

/-- A formula whose evaluation returns under a policy that forbids empty intervals, such as the default one, returns the
very same interval under every other policy, with and without assertions. -/
theorem C80_other_policy_partial (hV : V.Directed) (hE : V.checks.forbidsEmpty = true) (K : PiConst T) (ρ : ℕ → Itv T)
    (hρ : ∀ i, (γ (ρ i)).Nonempty) (e : Expr T) (hs : e.Supported V K (InfBase T)) (hf : e.Finite) (c : ChkSpec) (b : Bool) :
    ∃ N, (e.nests = false → N = 0) ∧
      ((∃ z, (γ z).Nonempty ∧ ∀ fuel ≥ N, V.Returns (e.eval K fuel V.P ρ) (· = z) ∧
          (V.recheck c b).Returns (e.eval K fuel (V.recheck c b).P ρ) (· = z)) ∨
        ∀ fuel ≥ N, V.Throws (e.eval K fuel V.P ρ) .emptyCreated) := by
  obtain ⟨N, h1, h2⟩ := Expr.eval_fate V c b hV ρ hρ e hs hf False False.elim
  have hW : (V.recheck c b).Directed := hV
  refine ⟨N, h1, ?_⟩
  rcases h2 with ⟨z, hz, h2⟩ | h2
  · exact .inl ⟨z, hz, fun fuel hn => ⟨(h2 fuel hn).1.returns hV, (h2 fuel hn).2.returns hW⟩⟩
  · exact .inr fun fuel hn => (h2 fuel hn).1.throws hV hE

/-- Two policies that forbid empty intervals: the same outcome. -/
theorem C80_both_forbid_partial (hV : V.Directed) (hE : V.checks.forbidsEmpty = true) (K : PiConst T) (ρ : ℕ → Itv T)
    (hρ : ∀ i, (γ (ρ i)).Nonempty) (e : Expr T) (hs : e.Supported V K (InfBase T)) (hf : e.Finite) (c : ChkSpec) (b : Bool)
    (hc : c.forbidsEmpty = true) :
    ∃ N, (e.nests = false → N = 0) ∧
      ((∃ z, (γ z).Nonempty ∧ ∀ fuel ≥ N, V.Returns (e.eval K fuel V.P ρ) (· = z) ∧
          (V.recheck c b).Returns (e.eval K fuel (V.recheck c b).P ρ) (· = z)) ∨
        ∀ fuel ≥ N, V.Throws (e.eval K fuel V.P ρ) .emptyCreated ∧
          (V.recheck c b).Throws (e.eval K fuel (V.recheck c b).P ρ) .emptyCreated) := by
  obtain ⟨N, h1, h2⟩ := Expr.eval_fate V c b hV ρ hρ e hs hf False False.elim
  have hW : (V.recheck c b).Directed := hV
  refine ⟨N, h1, ?_⟩
  rcases h2 with ⟨z, hz, h2⟩ | h2
  · exact .inl ⟨z, hz, fun fuel hn => ⟨(h2 fuel hn).1.returns hV, (h2 fuel hn).2.returns hW⟩⟩
  · exact .inr fun fuel hn => ⟨(h2 fuel hn).1.throws hV hE, (h2 fuel hn).2.throws hW hc⟩

/-- A formula without `hull`: any two policies deliver the same interval, or an empty interval is created under both, which is
thrown where it is forbidden and returned at the end of the computation where it is allowed. In particular a program without
exceptions has to look at the final result only. -/
theorem C80_hull_free_partial (hV : V.Directed) (K : PiConst T) (ρ : ℕ → Itv T) (hρ : ∀ i, (γ (ρ i)).Nonempty) (e : Expr T)
    (hs : e.Supported V K (InfBase T)) (hf : e.Finite) (hh : e.hullFree = true) (c : ChkSpec) (b : Bool) :
    ∃ N, (e.nests = false → N = 0) ∧
      ((∃ z, (γ z).Nonempty ∧ ∀ fuel ≥ N, V.Returns (e.eval K fuel V.P ρ) (· = z) ∧
          (V.recheck c b).Returns (e.eval K fuel (V.recheck c b).P ρ) (· = z)) ∨
        ∀ fuel ≥ N, V.YieldsEmpty (e.eval K fuel V.P ρ) ∧
          (V.recheck c b).YieldsEmpty (e.eval K fuel (V.recheck c b).P ρ)) := by
  obtain ⟨N, h1, h2⟩ := Expr.eval_fate V c b hV ρ hρ e hs hf True fun _ => hh
  have hW : (V.recheck c b).Directed := hV
  have key : ∀ {U : Env T} {fuel}, U.Directed → Gone U True Void (fun P => e.eval K fuel P ρ) (e.eval K fuel U.pp ρ) →
      U.YieldsEmpty (e.eval K fuel U.P ρ) := fun {U fuel} hU h => by
    unfold Env.YieldsEmpty
    split
    · next hE => exact h.throws hU hE
    · next hE =>
      obtain ⟨z, hz, hv⟩ := h.2 (by simpa using hE) trivial
      obtain ⟨J, hJ⟩ := U.sim hU.kindOk
      exact U.returns_of (Expr.eval_sim hJ ρ e z hz) (Post.of_ok ⟨z, rfl, hv⟩)
  refine ⟨N, h1, ?_⟩
  rcases h2 with ⟨z, hz, h2⟩ | h2
  · exact .inl ⟨z, hz, fun fuel hn => ⟨(h2 fuel hn).1.returns hV, (h2 fuel hn).2.returns hW⟩⟩
  · exact .inr fun fuel hn => ⟨key hV (h2 fuel hn).1, key hW (h2 fuel hn).2⟩

/-- Base types without infinities in debug builds: a formula with a value on the operands has the same enclosure under any two
policies, or an assertion stops the evaluation under both. What is missing: formulas without value, and builds with `NDEBUG` (see
`C57_release`). -/
theorem C80_debug_partial (hV : V.Directed) (hn : V.NoInf) (K : PiConst T) (ρ : ℕ → Itv T) (e : Expr T) (hs : e.Supported V K True)
    (hd : ∃ v r, (∀ i, v i ∈ γ (ρ i)) ∧ e.Value v r) (c : ChkSpec) :
    ∃ N, (e.nests = false → N = 0) ∧
      ((∃ z, (∀ v r, (∀ i, v i ∈ γ (ρ i)) → e.Value v r → r ∈ γ z) ∧ ∀ fuel ≥ N, V.Returns (e.eval K fuel V.P ρ) (· = z) ∧
          (V.recheck c false).Returns (e.eval K fuel (V.recheck c false).P ρ) (· = z)) ∨
        ∀ fuel ≥ N, V.Throws (e.eval K fuel V.P ρ) .assertion ∧
          (V.recheck c false).Throws (e.eval K fuel (V.recheck c false).P ρ) .assertion) := by
  obtain ⟨v, r, h1, h2⟩ := hd
  obtain ⟨q, N, hq, hN, h⟩ := Expr.eval_joint hV hn c ρ e hs ⟨r, v, h1, h2⟩
  have hW : (V.recheck c false).Directed := hV
  have hm : (V.recheck c false).NoInf := ⟨hn.inf, rfl⟩
  have ret : ∀ {U : Env T} {n : ℕ} {w : Itv T}, U.Directed → e.eval K n U.pp ρ = .ok w → U.Returns (e.eval K n U.P ρ) (· = w) :=
    fun {U n w} hU h => U.run hU (fun _ hp => Expr.eval_sim hp ρ e w h) (Post.of_ok ⟨w, rfl, rfl⟩)
  have stop : ∀ {U : Env T}, U.Directed → U.NoInf → e.Supported U K True → ∃ N', (e.nests = false → N' = 0) ∧ ∀ n ≥ N',
      e.eval K n U.pp ρ = .error .assertion → U.Throws (e.eval K n U.P ρ) .assertion := by
    intro U hU hi hs
    obtain ⟨N', hN', k⟩ := C14_debug_partial U hU hi K ρ e hs ⟨v, r, h1, h2⟩
    refine ⟨N', hN', fun n hn he s hs₀ => ?_⟩
    rcases k with ⟨z, -, k⟩ | k
    · obtain ⟨J, hJ⟩ := U.sim hU.kindOk
      obtain ⟨w, k, -⟩ := k n hn s hs₀
      obtain ⟨-, -, k'⟩ := Expr.eval_ends (K := K) (fuel := n) hJ ρ e s hs₀
      obtain ⟨e', -, k'⟩ := k' _ he
      cases k.symm.trans k'
    · exact k n hn s hs₀
  rcases hq with ⟨z, rfl, hz⟩ | ⟨_, ⟨-, rfl⟩, rfl⟩
  · exact ⟨N, hN, .inl ⟨z, fun v r h1 h2 => hz ⟨v, h1, h2⟩, fun n hn => ⟨ret hV (h n hn).1, ret hW (h n hn).2⟩⟩⟩
  · obtain ⟨M, hM, k⟩ := stop hV hn hs
    obtain ⟨M', hM', k'⟩ := stop hW hm (hs.recheck c false)
    refine ⟨max N (max M M'), fun h => by rw [hN h, hM h, hM' h]; rfl, .inr fun n hn => ?_⟩
    have l1 := (le_max_left _ _).trans hn
    have l2 := ((le_max_left _ _).trans (le_max_right _ _)).trans hn
    have l3 := ((le_max_right _ _).trans (le_max_right _ _)).trans hn
    exact ⟨k n l2 (h n l1).1, k' n l3 (h n l1).2⟩
end

/-- With `hull` an empty interval created on the way may leave no trace: `hull(intersect([0,1], [2,3]), [4,5])` throws under
the default policy and is `[4,5]` under `checking_base`. -/
theorem C80_hull_hides (K : PiConst (Fl .double)) (fuel : ℕ) :
    let e : Expr (Fl .double) := .bin .hull (.inter (.var 0) (.var 1)) (.var 2)
    let ρ : ℕ → Itv (Fl .double) := fun i => litI (2 * i) (2 * i + 1)
    (e.eval K fuel dbl.P ρ dblNear).1 = .error .emptyCreated ∧
    (e.eval K fuel (dbl.recheck .base true).P ρ dblNear).1 = .ok (litI 4 5) := by
  intro e ρ
  simp only [e, Expr.eval]
  exact ⟨by decide +kernel, by decide +kernel⟩

/-- An infinite point minus itself has NaN bounds, which the default policy does not take for an empty interval: its hull with
`[0,1]` has NaN bounds under the default policy and is `[0,1]` under `checking_base`. -/
theorem C80_infinite_point (K : PiConst (Fl .double)) (fuel : ℕ) :
    let e : Expr (Fl .double) := .bin .hull (.bin .sub (.var 0) (.var 0)) (.var 1)
    let ρ : ℕ → Itv (Fl .double) := fun i => if i = 0 then ⟨.inf false, .inf false⟩ else litI 0 1
    (e.eval K fuel dbl.P ρ dblNear).1 = .ok ⟨.nan, .nan⟩ ∧
    (e.eval K fuel (dbl.recheck .base true).P ρ dblNear).1 = .ok (litI 0 1) := by
  intro e ρ
  simp only [e, Expr.eval]
  exact ⟨by decide +kernel, by decide +kernel⟩

/-! ## The hypotheses can be met -/

/-- `x / (y - y) + intersect(x, 3)` -/
example := C80_other_policy_partial dbl dbl_directed rfl piGeneric (fun _ => litI (-2) 3) (fun _ => ne_lit)
  (.bin .add (.bin .div (.var 0) (.bin .sub (.var 1) (.var 1))) (.inter (.var 0) (.num (Num.lit 3))))
  ⟨(fun h => by cases h), ⟨fun _ => fl_inf, trivial, (fun h => by cases h), trivial, trivial⟩, trivial, trivial⟩
  ⟨⟨trivial, trivial, trivial⟩, trivial, _, NumLaws.lit 3 (by decide)⟩ (.catchNan .base) true
example := C80_both_forbid_partial dbl dbl_directed rfl piGeneric (fun _ => litI 0 0) (fun _ => ne_lit) (.bin .div (.var 0) (.var 1))
  ⟨fun _ => fl_inf, trivial, trivial⟩ ⟨trivial, trivial⟩ (.noEmpty (.catchNan .base)) false rfl
/-- `log(cos(x))` -/
example := C80_hull_free_partial dblStd dblStd_tight.directed (piDouble .near) (fun _ => litI (-2) 3) (fun _ => ne_lit)
  (.fn .log (.fn .cos (.var 0)))
  ⟨⟨(C21_double .near).brackets, (dblStd_fn .log).directed, fun _ => fl_inf, fun h => by cases h⟩,
    ⟨(C21_double .near).brackets, (dblStd_fn .cos).directed, (fun h => by cases h),
      fun _ => ⟨dblStd_tight, dblStd_int, fl_ieee, (C21_double .near).pos⟩⟩, trivial⟩
  ⟨by simp, by simp, trivial⟩ rfl .base true
/-- Both outcomes occur: `0/0` is thrown by the default policy and an empty interval under `checking_base`. -/
example : (divII dbl.P (litI 0 0) (litI 0 0) dblNear).1 = .error .emptyCreated ∧
    (divII (dbl.recheck .base true).P (litI 0 0) (litI 0 0) dblNear).1 = .ok ⟨.nan, .nan⟩ := by
  exact ⟨by decide +kernel, by decide +kernel⟩
example : (addII dbl.P (litI 1 2) (litI 3 4) dblNear).1 = .ok (litI 4 6) ∧
    (addII (dbl.recheck .base true).P (litI 1 2) (litI 3 4) dblNear).1 = .ok (litI 4 6) := by
  exact ⟨by decide +kernel, by decide +kernel⟩

/-- `1 / (x - 1)` over rational numbers: both policies deliver the interval on `[3, 4]`, and both stop on `[0, 4]`. -/
example (a : ℤ) (ha : a = 0 ∨ a = 3) := C80_debug_partial ratEnv ratEnv_directed ⟨rfl, rfl⟩ piGeneric (fun _ => litI a 4)
  (.un .inv (.binR .sub (.var 0) (Num.lit 1))) ⟨fun _ => trivial, (fun h => by cases h), trivial⟩
  ⟨fun _ => 3, 1 / 2, fun _ => by rcases ha with rfl | rfl <;> exact in_lit, 2,
    ⟨3, 1, rfl, by rw [val_one]; rfl, by change (2 : ℝ) = 3 - 1; norm_num⟩, two_ne_zero, one_div 2⟩ .base

end BI
