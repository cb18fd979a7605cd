import Verif.Proofs.ExTri
import Verif.Props.Arith2
import Verif.Props.Utility
import Verif.Spec.Examples
import Mathlib.Analysis.Calculus.Deriv.MeanValue
/-! # examples/newton-raphson.cpp and examples/findroot_demo.cpp -/

set_option linter.unusedSectionVars false

namespace BI
open Set

/-! ## Boxes -/

section
variable {T : Type} [Num T] [Val T] [NumLaws T] {V : Env T} {x z : Itv T} {a b : ℝ}

/-- A non-empty interval with finite bounds between `a` and `b`. -/
def Box (a b : ℝ) (z : Itv T) : Prop := ∃ l u : ℝ, val z.lower = some (l : EReal) ∧ val z.upper = some (u : EReal) ∧ a ≤ l ∧ l ≤ u ∧ u ≤ b

theorem Box.mono {a' b' : ℝ} (h : Box a b z) (ha : a' ≤ a) (hb : b ≤ b') : Box a' b' z := by
  obtain ⟨l, u, h1, h2, h3, h4, h5⟩ := h
  exact ⟨l, u, h1, h2, ha.trans h3, h4, h5.trans hb⟩

theorem has_real {l u : ℝ} (h1 : val z.lower = some (l : EReal)) (h2 : val z.upper = some (u : EReal)) (h : l ≤ u) :
    Has z (l : EReal) (u : EReal) :=
  ⟨h1, h2, EReal.coe_ne_top _, EReal.coe_ne_bot _, EReal.coe_le_coe_iff.2 h⟩

theorem box_gamma {l u : ℝ} (h1 : val z.lower = some (l : EReal)) (h2 : val z.upper = some (u : EReal)) (h : l ≤ u) :
    γ z = Icc l u := (has_real h1 h2 h).gamma_Icc

theorem Box.nonempty (h : Box a b z) : (γ z).Nonempty := by
  obtain ⟨l, u, h1, h2, h3, h4, h5⟩ := h
  exact (has_real h1 h2 h4).nonempty

theorem Box.subset (h : Box a b z) : γ z ⊆ Icc a b := by
  obtain ⟨l, u, h1, h2, h3, h4, h5⟩ := h
  rw [box_gamma h1 h2 h4]
  exact Icc_subset_Icc h3 h5

theorem box_of_subset (h : (γ z).Nonempty) (hs : γ z ⊆ Icc a b) : Box a b z := by
  obtain ⟨l, u, iz⟩ := has_of_nonempty h
  obtain ⟨p, q, rfl, rfl, hpq⟩ := iz.of_bounded ((Metric.isBounded_Icc a b).subset hs)
  have e := iz.gamma_Icc
  rw [e] at hs
  exact ⟨p, q, iz.lo, iz.up, (hs ⟨le_rfl, hpq⟩).1, hpq, (hs ⟨hpq, le_rfl⟩).2⟩

theorem mem_subTI (hV : V.Directed) {t : T} {r : ℝ} (ht : val t = some (r : EReal)) (hz : (γ z).Nonempty) :
    Post True (subTI V.pp t z) fun y => ∀ q ∈ γ z, r - q ∈ γ y := by
  obtain ⟨_, _, iz⟩ := has_of_nonempty hz
  have hA := hV.dir du_weak
  exact (subTI_post hA.op V.chk ht iz).mono fun y hy q hq => hy.encl hA.D_le hA.U_ge ⟨r, rfl, q, hq, rfl⟩

/-- The width is not below the distance of the bounds. -/
theorem width_ge (hV : V.Directed) (hz : (γ z).Nonempty) :
    Post True (width V.pp z) fun w => ∃ e, val w = some e ∧ ∀ r ∈ γ z, ∀ s ∈ γ z, ((s - r : ℝ) : EReal) ≤ e := by
  obtain ⟨l, u, iz⟩ := has_of_nonempty hz
  have hA := hV.dir du_weak
  unfold width
  rw [pure_chk, res_if_false (iz.test V.chk), pure_scope, pure_rnd]
  refine (hA.subUp z.upper z.lower _ _ iz.up iz.lo ⟨.inr iz.ne_top, .inl iz.ne_bot⟩).mono fun w ⟨e, he, hU⟩ => ⟨e, he, fun r hr s hs => ?_⟩
  refine le_trans ?_ (hA.U_ge hU)
  rw [EReal.coe_sub]
  exact EReal.sub_le_sub (iz.ub hs) (iz.lb hr)

/-- The parts of a quotient. -/
theorem div_parts (hV : V.Directed) (hi : InfBase T) {x y : Itv T} (hx : (γ x).Nonempty) (hy : ∃ b ∈ γ y, b ≠ 0) :
    Post True (divisionPart1 V.pp x y) fun p =>
      (γ p.1).Nonempty ∧
      (p.2 = false → ∀ a ∈ γ x, ∀ b ∈ γ y, b ≠ 0 → a / b ∈ γ p.1) ∧
      (p.2 = true → Post True (divisionPart2 V.pp x y true) fun z =>
        (γ z).Nonempty ∧ ¬ BddAbove (γ z) ∧ ∀ a ∈ γ x, ∀ b ∈ γ y, b ≠ 0 → a / b ∈ γ p.1 ∪ γ z) := by
  obtain ⟨a, b, ix⟩ := has_of_nonempty hx
  obtain ⟨b₀, hb₀, h₀⟩ := hy
  obtain ⟨c, d, iy⟩ := has_of_mem hb₀
  have hA := hV.dir du_weak
  have hD := hV.div du_weak
  by_cases h : c < 0 ∧ 0 < d ∧ ¬ (a = 0 ∧ b = 0) ∧ (b < 0 ∨ 0 ≤ a)
  · obtain ⟨h1, h2, h3, h4⟩ := h
    obtain ⟨k1, k2⟩ := divParts_post hA.op hD (V.infLaws hi) V.chk ix iy h1 h2 h3 h4
    obtain ⟨r₀, hr₀, hr⟩ : ∃ r ∈ γ x, r ≠ 0 := by
      by_contra hn
      push Not at hn
      exact h3 ((zero_bounds ix).2 fun r hr => hn r hr)
    obtain ⟨s, hs, hs0⟩ : ∃ s ∈ γ y, s < 0 := by
      by_contra hn
      push Not at hn
      obtain ⟨⟨_, _, _⟩, ⟨n, hn1, hn2⟩⟩ := both_points iy h1 h2
      exact absurd (hn n (hn2 n hn1 le_rfl)) (not_le.2 hn1)
    obtain ⟨t, ht, ht0⟩ : ∃ s ∈ γ y, 0 < s := by
      by_contra hn
      push Not at hn
      obtain ⟨⟨n, hn1, hn2⟩, _⟩ := both_points iy h1 h2
      exact absurd (hn n (hn2 n hn1 le_rfl)) (not_le.2 hn1)
    have hseg : ∀ q, s ≤ q → q ≤ t → q ∈ γ y := fun q hq1 hq2 => by
      rw [iy.gamma]
      exact ⟨(iy.lb hs).trans (by exact_mod_cast hq1), le_trans (by exact_mod_cast hq2) (iy.ub ht)⟩
    refine k1.mono fun p ⟨hp, hp'⟩ => ⟨?_, fun h => (by rw [hp] at h; cases h), fun _ => ?_⟩
    · rcases lt_or_gt_of_ne hr with h | h
      · exact ⟨r₀ / t, hp'.encl hA.D_le hA.U_ge ⟨⟨r₀, hr₀, t, ht, ht0.ne', rfl⟩, div_nonpos_of_nonpos_of_nonneg h.le ht0.le⟩⟩
      · exact ⟨r₀ / s, hp'.encl hA.D_le hA.U_ge ⟨⟨r₀, hr₀, s, hs, hs0.ne, rfl⟩, div_nonpos_of_nonneg_of_nonpos h.le hs0.le⟩⟩
    · refine k2.mono fun z hz => ?_
      have hbig : ∀ M : ℝ, ∃ q ∈ γ z, M < q := by
        intro M
        have hM : 0 < |M| + 1 := by positivity
        rcases lt_or_gt_of_ne hr with h | h
        · have h5 : max s (r₀ / (|M| + 1)) < 0 := max_lt hs0 (div_neg_of_neg_of_pos h hM)
          refine ⟨r₀ / max s (r₀ / (|M| + 1)), hz.encl hA.D_le hA.U_ge ⟨⟨r₀, hr₀, _, hseg _ (le_max_left _ _) (h5.le.trans ht0.le),
            h5.ne, rfl⟩, (div_pos_of_neg_of_neg h h5).le⟩, ?_⟩
          have h6 : r₀ ≤ (|M| + 1) * max s (r₀ / (|M| + 1)) := by
            have := mul_le_mul_of_nonneg_left (le_max_right s (r₀ / (|M| + 1))) hM.le
            rwa [mul_div_cancel₀ _ hM.ne'] at this
          have h7 : |M| + 1 ≤ r₀ / max s (r₀ / (|M| + 1)) := (le_div_iff_of_neg h5).2 h6
          linarith [le_abs_self M]
        · have h5 : 0 < min t (r₀ / (|M| + 1)) := lt_min ht0 (div_pos h hM)
          refine ⟨r₀ / min t (r₀ / (|M| + 1)), hz.encl hA.D_le hA.U_ge ⟨⟨r₀, hr₀, _, hseg _ (hs0.le.trans h5.le) (min_le_left _ _),
            h5.ne', rfl⟩, (div_pos h h5).le⟩, ?_⟩
          have h6 : (|M| + 1) * min t (r₀ / (|M| + 1)) ≤ r₀ := by
            have := mul_le_mul_of_nonneg_left (min_le_right t (r₀ / (|M| + 1))) hM.le
            rwa [mul_div_cancel₀ _ hM.ne'] at this
          have h7 : |M| + 1 ≤ r₀ / min t (r₀ / (|M| + 1)) := (le_div_iff₀ h5).2 h6
          linarith [le_abs_self M]
      refine ⟨⟨_, (hbig 0).choose_spec.1⟩, fun ⟨M, hM⟩ => ?_, fun r hr s hs h0 => ?_⟩
      · obtain ⟨q, hq, hq'⟩ := hbig M
        exact absurd (hM hq) (not_le.2 hq')
      rcases le_total (r / s) 0 with h | h
      · exact .inl (hp'.encl hA.D_le hA.U_ge ⟨⟨r, hr, s, hs, h0, rfl⟩, h⟩)
      · exact .inr (hz.encl hA.D_le hA.U_ge ⟨⟨r, hr, s, hs, h0, rfl⟩, h⟩)
  · have e := divPart1_eq (B := V.B) V.chk ix iy h
    have hne := fun h => h₀ ((zero_bounds iy).1 h hb₀)
    obtain ⟨r₀, hr₀⟩ := hx
    unfold Env.pp
    rw [e]
    exact (divII_encl hA hD (V.infLaws hi) V.chk ix iy hne).bind fun z hz =>
      ⟨⟨_, hz ⟨r₀, hr₀, b₀, hb₀, h₀, rfl⟩⟩, fun _ a ha b hb h => hz ⟨a, ha, b, hb, h, rfl⟩, fun h => by cases h⟩
end

/-! ## What the programs rely on -/

section
variable {f : Fmt} {V : Env (Fl f)} {x z : Itv (Fl f)} {a b : ℝ}

theorem median_fl (V : Env (Fl f)) (hk : V.kind ≠ .exact) (hx : Box a b x) (ha : |a| ≤ (maxFin f : ℝ) / 2)
    (hb : |b| ≤ (maxFin f : ℝ) / 2) : Post True (median V.pp x) fun m => ∃ r ∈ γ x, val m = some (r : EReal) := by
  obtain ⟨l, u, h1, h2, h3, h4, h5⟩ := hx
  have ix := has_real h1 h2 h4
  rw [abs_le] at ha hb
  obtain ⟨c, z, k1, k2, k3, k4⟩ := fl_mid .near h1 h2 h4 (abs_le.2 ⟨by linarith, by linarith⟩)
  unfold median
  rw [pure_chk, res_if_false (ix.test V.chk), pure_scope, pure_rnd]
  have : V.B.median x.lower x.upper = .ok c := by
    unfold Env.B
    cases hk' : V.kind with
    | exact => exact absurd hk' hk
    | std => change ofOpt (halfSum .near x.lower x.upper) = _; rw [k1]; rfl
    | opp => change ofOpt (halfSum .near x.lower x.upper) = _; rw [k1]; rfl
  rw [this]
  exact ⟨z, by rw [ix.gamma_Icc]; exact ⟨k3, k4⟩, k2⟩

theorem bisect_fl (V : Env (Fl f)) (hk : V.kind ≠ .exact) (hx : Box a b x) (ha : |a| ≤ (maxFin f : ℝ) / 2)
    (hb : |b| ≤ (maxFin f : ℝ) / 2) : Post True (bisect V.pp x) fun p => Box a b p.1 ∧ Box a b p.2 ∧ γ p.1 ∪ γ p.2 = γ x := by
  have hm := median_fl V hk hx ha hb
  obtain ⟨l, u, h1, h2, h3, h4, h5⟩ := hx
  have ix := has_real h1 h2 h4
  unfold bisect
  rw [pure_chk, res_if_false (ix.test V.chk)]
  refine hm.bind fun m hm => ?_
  obtain ⟨r, hr, hm⟩ := hm
  obtain ⟨g1, -⟩ := gamma_split hr hm
  rw [ix.gamma_Icc] at hr
  exact ⟨⟨l, r, h1, hm, h3, hr.1, hr.2.trans h5⟩, ⟨r, u, hm, h2, h3.trans hr.1, hr.2, h5⟩, g1⟩

/-- The width of a box is finite. -/
theorem width_fl (V : Env (Fl f)) (hk : V.kind ≠ .exact) (hx : Box a b x) (ha : |a| ≤ (maxFin f : ℝ) / 2)
    (hb : |b| ≤ (maxFin f : ℝ) / 2) :
    Post True (width V.pp x) fun w => ∃ e : ℝ, val w = some (e : EReal) ∧ ∀ r ∈ γ x, ∀ s ∈ γ x, s - r ≤ e := by
  obtain ⟨l, u, h1, h2, h3, h4, h5⟩ := hx
  have ix := has_real h1 h2 h4
  have hA := (V.fl_tight hk).dir du_tight
  unfold width
  rw [pure_chk, res_if_false (ix.test V.chk), pure_scope, pure_rnd]
  refine (hA.subUp x.upper x.lower _ _ ix.up ix.lo ⟨.inr ix.ne_top, .inl ix.ne_bot⟩).mono fun w ⟨e, he, hU⟩ => ?_
  have rM : Representable (Fl f) ((maxFin f : ℝ) : EReal) := (representable_iff _).2 (.inr (.inr ⟨_, rep_maxFin f, rfl⟩))
  rw [abs_le] at ha hb
  rw [← EReal.coe_sub] at hU
  have e1 : e ≤ ((maxFin f : ℝ) : EReal) := hU.2.2 _ rM (by exact_mod_cast (by linarith : u - l ≤ (maxFin f : ℝ)))
  have e2 : ((u - l : ℝ) : EReal) ≤ e := hU.2.1
  have e3 : ((-(maxFin f : ℝ) : ℝ) : EReal) ≤ e := le_trans (by exact_mod_cast (by linarith : -(maxFin f : ℝ) ≤ u - l)) e2
  obtain ⟨e, rfl, -, -⟩ := val_real e3 e1
  refine ⟨e, he, fun r hr s hs => ?_⟩
  rw [ix.gamma_Icc] at hr hs
  have : u - l ≤ e := by exact_mod_cast e2
  linarith [hr.1, hs.2]

variable (V)

/-- For policies that forbid empty intervals, the derivative vanishes somewhere. -/
def NErr0 (F' : ℝ → ℝ) (a b : ℝ) (e : Err) : Prop :=
  e = .emptyCreated ∧ V.checks.forbidsEmpty = true ∧ ∃ t ∈ Icc a b, Representable (Fl f) (t : EReal) ∧ F' t = 0

/-- How the first method may stop: the fuel of the model is used up, or, for policies that forbid empty intervals, the
derivative vanishes somewhere. -/
def NErr (F' : ℝ → ℝ) (a b : ℝ) (e : Err) : Prop :=
  e = .fuel ∨ (e = .emptyCreated ∧ V.checks.forbidsEmpty = true ∧ ∃ t ∈ Icc a b, Representable (Fl f) (t : EReal) ∧ F' t = 0)

variable {V}
variable {N : Newton (M V.ctl.W) (Fl f)} {F F' : ℝ → ℝ} {mw : ℝ} {E : Err → Prop}

theorem f_tri (h : Encloses V N.f F) (hx : (γ x).Nonempty) :
    Tri (inner V.laws V.kind) E (N.f x) fun y => ∀ t ∈ γ x, F t ∈ γ y := (h x hx).tri

theorem zero_tri {J : Inv V.ctl.W} {y : Itv (Fl f)} (h : (γ y).Nonempty) :
    Tri J E (BI.lift (zeroIn V.C y) : M V.ctl.W Bool) fun c => c = true ↔ (0 : ℝ) ∈ γ y := by
  classical
  rw [C22_zero_in (V := V) (.inl h)]
  exact Tri.lift (by simp [PostE])

/-- A function value and the test for zero. -/
theorem f_zero_tri {α : Type} {g : Bool → M V.ctl.W α} {Q : α → Prop}
    (h : Encloses V N.f F) (hx : (γ x).Nonempty)
    (ht : Tri (inner V.laws V.kind) E (g true) Q)
    (hf : (∀ r ∈ γ x, F r ≠ 0) → Tri (inner V.laws V.kind) E (g false) Q) :
    Tri (inner V.laws V.kind) E (do let y ← N.f x; let c ← BI.lift (zeroIn V.C y); g c) Q := by
  obtain ⟨t, ht'⟩ := hx
  refine (f_tri h ⟨t, ht'⟩).bind fun y hy => (zero_tri ⟨_, hy t ht'⟩).bind fun c hc => ?_
  cases c with
  | true => exact ht
  | false =>
    refine hf fun r hr h0 => ?_
    have := hc.2 (h0 ▸ hy r hr)
    cases this

/-- The remainders of a Newton step cover the zeros in `x`. -/
def StepQ (V : Env (Fl f)) (F : ℝ → ℝ) (x : Itv (Fl f)) (p : Itv (Fl f) × Option (Itv (Fl f))) : Prop :=
  (∀ r ∈ γ x, F r = 0 → r ∈ γ p.1 ∨ ∃ z ∈ p.2, r ∈ γ z) ∧ V.Proper p.1 ∧ ∀ z ∈ p.2, (γ z).Nonempty ∧ ¬ BddBelow (γ z)

/-- The mean value theorem between a point and a zero. -/
theorem mvt_zero (hd : ∀ t ∈ Icc a b, HasDerivAt F (F' t) t) {m r : ℝ} (hm : m ∈ Icc a b) (hr : r ∈ Icc a b) (h0 : F r = 0) :
    ∃ ξ ∈ Icc a b, F m = F' ξ * (m - r) := by
  rcases lt_trichotomy m r with h | h | h
  · have hs : Icc m r ⊆ Icc a b := Icc_subset_Icc hm.1 hr.2
    obtain ⟨c, hc, he⟩ := exists_hasDerivAt_eq_slope F F' h (fun t ht => (hd t (hs ht)).continuousAt.continuousWithinAt)
      (fun t ht => hd t (hs (Ioo_subset_Icc_self ht)))
    refine ⟨c, hs (Ioo_subset_Icc_self hc), ?_⟩
    have h1 : r - m ≠ 0 := sub_ne_zero.2 h.ne'
    rw [he, h0, ← neg_sub r m, mul_neg, div_mul_cancel₀ _ h1]; ring
  · subst h; exact ⟨m, hm, by simp [h0]⟩
  · have hs : Icc r m ⊆ Icc a b := Icc_subset_Icc hr.1 hm.2
    obtain ⟨c, hc, he⟩ := exists_hasDerivAt_eq_slope F F' h (fun t ht => (hd t (hs ht)).continuousAt.continuousWithinAt)
      (fun t ht => hd t (hs (Ioo_subset_Icc_self ht)))
    refine ⟨c, hs (Ioo_subset_Icc_self hc), ?_⟩
    rw [he, h0, sub_zero, div_mul_cancel₀ _ (sub_ne_zero.2 h.ne')]

theorem ctor_ok {t : Fl f} {r : ℝ} (ht : val t = some (r : EReal)) : ctorT V.C t = .ok ⟨t, t⟩ := by
  unfold ctorT
  rw [V.chk.isNan t _ ht]
  rfl

theorem divPart1_zero {y : Itv (Fl f)} (hx : (γ x).Nonempty) (hy : γ y = {0}) :
    divisionPart1 V.pp x y = (do let r ← emptyI V.C; pure (r, false)) := by
  obtain ⟨a, b, ix⟩ := has_of_nonempty hx
  obtain ⟨c, d, iy⟩ := has_of_nonempty (x := y) (by rw [hy]; exact singleton_nonempty _)
  obtain ⟨rfl, rfl⟩ := (zero_bounds iy).2 (by rw [hy])
  unfold divisionPart1
  rw [pure_chk, res_if_false (ix.test2 V.chk iy), res_if_true' (by rw [zeroIn_eq V.chk iy]; simp; rfl), isZero_eq iy.lo, isZero_eq iy.up]
  simp; rfl

theorem step1_tri (hk : V.kind ≠ .exact) (hN : NewtonOk V N F F' a b mw) (hx : Box a b x) (ha : |a| ≤ (maxFin f : ℝ) / 2)
    (hb : |b| ≤ (maxFin f : ℝ) / 2) :
    Tri (inner V.laws V.kind) (NErr0 V F' a b) (newtonStep1 V.P.unprot N x) (StepQ V F x) := by
  have hS := V.simU hk
  have hC : V.P.unprot.chk = V.C := hS.chk
  have hD := Env.fl_directed V hk
  have hI : InfBase (Fl f) := fl_inf
  unfold newtonStep1
  refine (Tri.of_sim (median_sim hS x) (median_fl V hk hx ha hb).toE).bind fun xx hxx => ?_
  obtain ⟨m, hm, hxx⟩ := hxx
  rw [hC, m_bind_ok (ctor_ok hxx)]
  have hc : γ (⟨xx, xx⟩ : Itv (Fl f)) = {m} := gamma_single hxx
  refine (f_tri hN.f (by rw [hc]; exact singleton_nonempty _)).bind fun vf hvf => ?_
  replace hvf : F m ∈ γ vf := hvf m (by rw [hc]; rfl)
  refine ((hN.fd x ⟨m, hm⟩).tri).bind fun vd hvd => ?_
  refine (zero_tri ⟨_, hvf⟩).bind fun c0 hc0 => (zero_tri ⟨_, hvd m hm⟩).bind fun c1 hc1 => ?_
  refine Tri.ite (fun h => ?_) (fun h => ?_)
  · obtain ⟨w, hw, h1, h2⟩ := whole_ok (V.infLaws hI)
    have hg : ∀ r : ℝ, r ∈ γ w := fun r => ⟨⊥, ⊤, h1, h2, bot_le, le_top⟩
    rw [m_bind_ok hw]
    exact Tri.pure ⟨fun r _ _ => .inl (hg r), .inl ⟨0, hg 0⟩, fun z hz => by cases hz⟩
  have hnz : ¬ ((0 : ℝ) ∈ γ vf ∧ (0 : ℝ) ∈ γ vd) := by
    rintro ⟨h1, h2⟩
    exact h (by rw [hc0.2 h1, hc1.2 h2]; rfl)
  obtain ⟨l, u, h1, h2, h3, h4, h5⟩ := hx
  have hgx := box_gamma h1 h2 h4
  have hroot : ∀ r ∈ γ x, F r = 0 → ∃ ξ ∈ γ x, F' ξ ≠ 0 ∧ m - r = F m / F' ξ := by
    intro r hr h0
    rw [hgx] at hm hr
    obtain ⟨ξ, hξ, he⟩ := mvt_zero (fun t ht => hN.deriv t ⟨h3.trans ht.1, ht.2.trans h5⟩) hm hr h0
    rw [← hgx] at hξ
    have : F' ξ ≠ 0 := fun h => hnz ⟨by rw [h, zero_mul] at he; rwa [he] at hvf, h ▸ hvd ξ hξ⟩
    exact ⟨ξ, hξ, this, by rw [he]; field_simp⟩
  by_cases hy : ∃ t ∈ γ vd, t ≠ 0
  · refine (Tri.of_sim (divisionPart1_sim hS vf vd) (div_parts hD hI ⟨_, hvf⟩ hy).toE).bind fun p ⟨hp1, hp2, hp3⟩ => ?_
    rcases p with ⟨q, c⟩
    refine (Tri.of_sim (subTI_sim hS xx q) (mem_subTI hD hxx hp1).toE).bind fun x1 hx1 => ?_
    have n1 : (γ x1).Nonempty := ⟨_, hx1 _ hp1.choose_spec⟩
    refine Tri.ite (fun h => ?_) (fun h => ?_)
    · refine (Tri.of_sim (divisionPart2_sim hS vf vd true) (hp3 h).toE).bind fun q2 ⟨hq1, hq2, hq3⟩ => ?_
      refine (Tri.of_sim (subTI_sim hS xx q2) (mem_subTI hD hxx hq1).toE).bind fun x2 hx2 => Tri.pure ⟨fun r hr h0 => ?_, .inl n1, ?_⟩
      · obtain ⟨ξ, hξ, hne, he⟩ := hroot r hr h0
        have e : r = m - F m / F' ξ := by rw [← he]; ring
        rcases hq3 (F m) hvf (F' ξ) (hvd ξ hξ) hne with h | h
        · left; rw [e]; exact hx1 _ h
        · right; exact ⟨x2, rfl, by rw [e]; exact hx2 _ h⟩
      · rintro z hz
        cases hz
        refine ⟨⟨_, hx2 _ hq1.choose_spec⟩, fun ⟨B, hB⟩ => hq2 ⟨m - B, fun q hq => ?_⟩⟩
        linarith [hB (hx2 q hq)]
    · refine Tri.pure ⟨fun r hr h0 => .inl ?_, .inl n1, fun z hz => by cases hz⟩
      obtain ⟨ξ, hξ, hne, he⟩ := hroot r hr h0
      have e : r = m - F m / F' ξ := by rw [← he]; ring
      rw [e]
      exact hx1 _ (hp2 (by simpa using h) (F m) hvf (F' ξ) (hvd ξ hξ) hne)
  · push Not at hy
    have hy0 : γ vd = {0} := by
      ext t
      constructor
      · exact fun ht => hy t ht
      · rintro rfl
        have := hvd m hm
        rwa [hy _ this] at this
    have hno : ∀ r ∈ γ x, F r ≠ 0 := fun r hr h0 => by
      obtain ⟨ξ, hξ, hne, -⟩ := hroot r hr h0
      exact hne (hy _ (hvd ξ hξ))
    have e := divPart1_zero (V := V) ⟨_, hvf⟩ hy0
    rcases emptyI_spec (T := Fl f) V.checks V.ndebug with ⟨hf, he⟩ | ⟨hf, e0, he, hv⟩
    · have : PostE (NErr0 V F' a b) (divisionPart1 V.pp vf vd) (fun _ => False) := by
        rw [e]
        change emptyI V.C = _ at he
        rw [he]
        refine ⟨rfl, hf, l, ⟨h3, h4.trans h5⟩, ⟨_, h1⟩, hy _ (hvd l ?_)⟩
        rw [hgx]; exact ⟨le_rfl, h4⟩
      exact (Tri.of_sim (divisionPart1_sim hS vf vd) this).bind fun _ h => h.elim
    · change emptyI V.C = _ at he
      have : PostE (NErr0 V F' a b) (divisionPart1 V.pp vf vd) (fun p => p = (e0, false)) := by
        rw [e, he]; rfl
      refine (Tri.of_sim (divisionPart1_sim hS vf vd) this).bind fun _ h => ?_
      subst h
      have : PostE (NErr0 V F' a b) (subTI V.pp xx e0) (fun p => Void p) := by
        unfold subTI
        rw [pure_chk, testTI_void V hf hv (by rw [hxx]; simp)]
        change PostE _ (emptyI V.C) _
        rw [he]
        exact hv
      refine (Tri.of_sim (subTI_sim hS xx e0) this).bind fun x1 hx1 => ?_
      exact Tri.pure ⟨fun r hr h0 => absurd h0 (hno r hr), .inr ⟨hx1, hf⟩, fun z hz => by cases hz⟩

/-- What is left of `x`: it covers the zeros in `x`; the parts lie in `[a, b]`, or there is one part, unbounded below. -/
def Cov (F : ℝ → ℝ) (a b : ℝ) (x : Itv (Fl f)) (o : Option (Itv (Fl f) × Option (Itv (Fl f)))) : Prop :=
  (∀ r ∈ γ x, F r = 0 → ∃ p ∈ o, r ∈ γ p.1 ∨ ∃ z ∈ p.2, r ∈ γ z) ∧
  ∀ p ∈ o, (Box a b p.1 ∧ ∀ z ∈ p.2, Box a b z) ∨ ((γ p.1).Nonempty ∧ ¬ BddBelow (γ p.1) ∧ p.2 = none)

theorem cut1_post {x1 : Itv (Fl f)} {x2 : Option (Itv (Fl f))} {P : Policies (M V.ctl.W) (Fl f)} (hP : P.chk = V.C)
    (hx : Box a b x) (h : StepQ V F x (x1, x2)) : Post True (newtonCut1 P x x1 x2) (Cov F a b x) := by
  classical
  obtain ⟨h1, h2, h3⟩ := h
  have hpx : V.Proper x := .inl hx.nonempty
  unfold newtonCut1
  rw [hP, C22_overlap V V h2 hpx]
  by_cases ho : (γ x1 ∩ γ x).Nonempty
  · have ho' := ho
    rw [inter_comm] at ho
    obtain ⟨y1, e1, g1⟩ := C23_intersect (V := V) ho
    have b1 : Box a b y1 := box_of_subset (by rw [g1]; exact ho) (by rw [g1]; exact inter_subset_left.trans hx.subset)
    simp only [ho', decide_true]
    change Post True (do let x1 ← intersect V.C x x1; _) _
    rw [e1]
    cases x2 with
    | none =>
      refine ⟨fun r hr h0 => ⟨_, rfl, ?_⟩, ?_⟩
      · rcases h1 r hr h0 with h | ⟨z, hz, -⟩
        · left; change r ∈ γ y1; rw [g1]; exact ⟨hr, h⟩
        · cases hz
      · rintro p hp; cases hp; exact .inl ⟨b1, fun z hz => by cases hz⟩
    | some x2 =>
      obtain ⟨n2, -⟩ := h3 x2 rfl
      change Post True (do if ← overlap V.C V.C x2 x then _ else _) _
      rw [C22_overlap V V (.inl n2) hpx]
      by_cases hq : (γ x2 ∩ γ x).Nonempty
      · have hq' := hq
        rw [inter_comm] at hq
        obtain ⟨y2, e2, g2⟩ := C23_intersect (V := V) hq
        have b2 : Box a b y2 := box_of_subset (by rw [g2]; exact hq) (by rw [g2]; exact inter_subset_left.trans hx.subset)
        simp only [hq', decide_true]
        change Post True (do let x2 ← intersect V.C x x2; _) _
        rw [e2]
        refine ⟨fun r hr h0 => ⟨_, rfl, ?_⟩, ?_⟩
        · rcases h1 r hr h0 with h | ⟨z, hz, h⟩
          · left; change r ∈ γ y1; rw [g1]; exact ⟨hr, h⟩
          · cases hz; right; exact ⟨y2, rfl, by rw [g2]; exact ⟨hr, h⟩⟩
        · rintro p hp; cases hp; exact .inl ⟨b1, fun z hz => by cases hz; exact b2⟩
      · simp only [hq, decide_false]
        refine ⟨fun r hr h0 => ⟨_, rfl, ?_⟩, ?_⟩
        · rcases h1 r hr h0 with h | ⟨z, hz, h⟩
          · left; change r ∈ γ y1; rw [g1]; exact ⟨hr, h⟩
          · cases hz; exact absurd ⟨r, h, hr⟩ hq
        · rintro p hp; cases hp; exact .inl ⟨b1, fun z hz => by cases hz⟩
  · simp only [ho, decide_false]
    cases x2 with
    | none =>
      refine ⟨fun r hr h0 => ?_, fun p hp => by cases hp⟩
      rcases h1 r hr h0 with h | ⟨z, hz, -⟩
      · exact absurd ⟨r, h, hr⟩ ho
      · cases hz
    | some x2 =>
      obtain ⟨n2, u2⟩ := h3 x2 rfl
      refine ⟨fun r hr h0 => ⟨_, rfl, ?_⟩, ?_⟩
      · rcases h1 r hr h0 with h | ⟨z, hz, h⟩
        · exact absurd ⟨r, h, hr⟩ ho
        · cases hz; exact .inl h
      · rintro p hp; cases hp; exact .inr ⟨n2, u2, rfl⟩

theorem width_tri {J K : Inv V.ctl.W} {P : Policies (M V.ctl.W) (Fl f)} (hS : PSim J K P V.B V.C) (hk : V.kind ≠ .exact)
    (hx : (γ x).Nonempty) :
    Tri J E (width P x) fun w => ∃ e, val w = some e ∧ ∀ r ∈ γ x, ∀ s ∈ γ x, ((s - r : ℝ) : EReal) ≤ e :=
  Tri.of_sim (width_sim hS x) (width_ge (Env.fl_directed V hk) hx).toE

theorem keepEnd_tri {x1 : Itv (Fl f)} {x2 : Option (Itv (Fl f))} (hf : Encloses V N.f F)
    (h : Cov F a b x (some (x1, x2))) : Tri (inner V.laws V.kind) E (do
      let y ← N.f x1
      if ← lift (zeroIn V.C y) then pure (some (x1, x2))
      else pure (x2.map fun x2 => (x2, none))) (Cov F a b x) := by
  obtain ⟨h1, h2⟩ := h
  have n1 : (γ x1).Nonempty := by
    rcases h2 _ rfl with ⟨b1, -⟩ | ⟨h, -, -⟩
    · exact b1.nonempty
    · exact h
  refine f_zero_tri hf n1 (Tri.pure ⟨h1, h2⟩) fun hno => Tri.pure ⟨fun r hr h0 => ?_, ?_⟩
  · obtain ⟨p, hp, h⟩ := h1 r hr h0
    cases hp
    rcases h with h | ⟨z, hz, h⟩
    · exact absurd h0 (hno r h)
    · cases x2 with
      | none => cases hz
      | some x2 => cases hz; exact ⟨_, rfl, .inl h⟩
  · intro p hp
    cases x2 with
    | none => cases hp
    | some x2 =>
      cases hp
      rcases h2 _ rfl with ⟨-, h⟩ | ⟨-, -, h⟩
      · exact .inl ⟨h x2 rfl, fun z hz => by cases hz⟩
      · cases h

theorem keep1_tri {x1 : Itv (Fl f)} {x2 : Option (Itv (Fl f))} (hk : V.kind ≠ .exact) (hf : Encloses V N.f F)
    (h : Cov F a b x (some (x1, x2))) : Tri (inner V.laws V.kind) E (newtonKeep1 V.P.unprot N x1 x2) (Cov F a b x) := by
  have hS := V.simU hk
  have hC : V.P.unprot.chk = V.C := hS.chk
  unfold newtonKeep1
  rw [hC]
  cases x2 with
  | none => exact keepEnd_tri hf h
  | some x2 =>
    obtain ⟨h1, h2⟩ := h
    rcases h2 _ rfl with ⟨b1, b2⟩ | ⟨-, -, h⟩
    swap
    · cases h
    have b2 := b2 x2 rfl
    change Tri _ _ (((width V.P.unprot x2) >>= fun w2 => ((width V.P.unprot x1) >>= fun w1 =>
      (pure (if Num.lt w1 w2 then (x2, some x1) else (x1, some x2)) : M V.ctl.W _))) >>= _) _
    refine ((width_tri hS hk b2.nonempty).bind fun w2 _ => (width_tri hS hk b1.nonempty).bind fun w1 _ =>
      (Tri.pure (Q := fun p => Cov F a b x (some p)) ?_)).bind fun p hp => keepEnd_tri hf hp
    split
    · refine ⟨fun r hr h0 => ?_, ?_⟩
      · obtain ⟨p, hp, h⟩ := h1 r hr h0
        cases hp
        rcases h with h | ⟨z, hz, h⟩
        · exact ⟨_, rfl, .inr ⟨x1, rfl, h⟩⟩
        · cases hz; exact ⟨_, rfl, .inl h⟩
      · rintro p hp; cases hp; exact .inl ⟨b2, fun z hz => by cases hz; exact b1⟩
    · exact ⟨h1, h2⟩

/-- The state of the loop: intervals to look at, results, and the zeros `S` they cover. -/
structure LInv (S : Set ℝ) (a b mw : ℝ) (l res : List (Itv (Fl f))) : Prop where
  box : ∀ z ∈ l, Box a b z
  good : ∀ z ∈ res, Box a b z ∧ ∀ r ∈ γ z, ∀ s ∈ γ z, s - r < mw
  cov : ∀ r ∈ S, ∃ z, (z ∈ l ∨ z ∈ res) ∧ r ∈ γ z

/-- Put an interval on one of the lists. -/
theorem LInv.place {S S' : Set ℝ} {l res : List (Itv (Fl f))} (h : LInv S' a b mw l res) (hz : Box a b z)
    (hS : ∀ r ∈ S, r ∈ S' ∨ r ∈ γ z) : LInv S a b mw (z :: l) res := by
  refine ⟨fun y hy => ?_, h.good, fun r hr => ?_⟩
  · rcases List.mem_cons.1 hy with rfl | hy
    · exact hz
    · exact h.box y hy
  · rcases hS r hr with h' | h'
    · obtain ⟨y, hy, hr⟩ := h.cov r h'
      exact ⟨y, hy.imp (List.mem_cons_of_mem _) id, hr⟩
    · exact ⟨z, .inl List.mem_cons_self, h'⟩

theorem LInv.keep {S S' : Set ℝ} {l res : List (Itv (Fl f))} (h : LInv S' a b mw l res) (hz : Box a b z)
    (hw : ∀ r ∈ γ z, ∀ s ∈ γ z, s - r < mw) (hS : ∀ r ∈ S, r ∈ S' ∨ r ∈ γ z) : LInv S a b mw l (z :: res) := by
  refine ⟨h.box, fun y hy => ?_, fun r hr => ?_⟩
  · rcases List.mem_cons.1 hy with rfl | hy
    · exact ⟨hz, hw⟩
    · exact h.good y hy
  · rcases hS r hr with h' | h'
    · obtain ⟨y, hy, hr⟩ := h.cov r h'
      exact ⟨y, hy.imp id (List.mem_cons_of_mem _), hr⟩
    · exact ⟨z, .inr List.mem_cons_self, h'⟩

theorem LInv.sub {S S' : Set ℝ} {l res : List (Itv (Fl f))} (h : LInv S' a b mw l res) (hS : S ⊆ S') : LInv S a b mw l res :=
  ⟨h.box, h.good, fun r hr => h.cov r (hS hr)⟩

theorem narrow_of {w mwT : Fl f} {e : EReal} (hm : val mwT = some (mw : EReal)) (he : val w = some e)
    (h : ∀ r ∈ γ z, ∀ s ∈ γ z, ((s - r : ℝ) : EReal) ≤ e) (hl : Num.lt w mwT = true) : ∀ r ∈ γ z, ∀ s ∈ γ z, s - r < mw := by
  rw [lt_eq he hm, decide_eq_true_eq] at hl
  intro r hr s hs
  exact_mod_cast (h r hr s hs).trans_lt hl

/-- The second half of newton-raphson.cpp 68-78. -/
theorem tail1_tri {S S' : Set ℝ} {l res : List (Itv (Fl f))} {x2 : Itv (Fl f)} (hk : V.kind ≠ .exact)
    (hN : NewtonOk V N F F' a b mw) (hL : LInv S' a b mw l res) (hx : Box a b x2) (hz : ∀ r ∈ S, F r = 0)
    (hS : ∀ r ∈ S, r ∈ S' ∨ r ∈ γ x2) :
    Tri (inner V.laws V.kind) E (do
      let y ← N.f x2
      if ← lift (zeroIn V.C y) then do
        let w2 ← width V.P.unprot x2
        if Num.lt w2 N.maxWidth then pure (l, x2 :: res) else pure (x2 :: l, res)
      else pure (l, res)) fun p => LInv S a b mw p.1 p.2 := by
  refine f_zero_tri hN.f hx.nonempty ((width_tri (V.simU hk) hk hx.nonempty).bind fun w ⟨e, he, hw⟩ => ?_) fun hno => Tri.pure ?_
  · refine Tri.ite (fun h => Tri.pure ?_) fun h => Tri.pure (hL.place hx hS)
    exact hL.keep hx (narrow_of hN.width he hw h) hS
  · exact hL.sub fun r hr => (hS r hr).resolve_right fun h => hno r h (hz r hr)

/-- Multiplication by `alpha` does not overflow. -/
def AlphaOk (al : Fl f) : Prop := ∀ (w : Fl f) (e : ℝ), val w = some (e : EReal) → ∀ r, ∃ t, Num.mul r al w = some t ∧ ∃ q : ℝ, val t = some (q : EReal)

theorem push1_tri {S S' : Set ℝ} {l res : List (Itv (Fl f))} {x1 : Itv (Fl f)} {x2 : Option (Itv (Fl f))} (hk : V.kind ≠ .exact)
    (hN : NewtonOk V N F F' a b mw) (hα : AlphaOk N.alpha) (ha : |a| ≤ (maxFin f : ℝ) / 2)
    (hb : |b| ≤ (maxFin f : ℝ) / 2) (hL : LInv S' a b mw l res) (hx : Box a b x) (hc : Cov F a b x (some (x1, x2)))
    (hz : ∀ r ∈ S, F r = 0) (hS : ∀ r ∈ S, r ∈ S' ∨ r ∈ γ x) :
    Tri (inner V.laws V.kind) E (newtonPush1 V.P.unprot N l res x x1 x2) fun p => LInv S a b mw p.1 p.2 := by
  have hU := V.simU hk
  have hC : V.P.unprot.chk = V.C := hU.chk
  obtain ⟨h1, h2⟩ := hc
  have n1 : (γ x1).Nonempty := by
    rcases h2 _ rfl with ⟨b1, -⟩ | ⟨h, -, -⟩
    · exact b1.nonempty
    · exact h
  have hS1 : ∀ r ∈ S, (r ∈ S' ∨ ∃ z ∈ x2, r ∈ γ z) ∨ r ∈ γ x1 := fun r hr => by
    rcases hS r hr with h | h
    · exact .inl (.inl h)
    · obtain ⟨p, hp, h⟩ := h1 r h (hz r hr)
      cases hp
      rcases h with h | h
      · exact .inr h
      · exact .inl (.inr h)
  unfold newtonPush1
  rw [hC]
  refine (width_tri hU hk n1).bind fun w1 ⟨e, he, hw⟩ => ?_
  have key : Tri (inner V.laws V.kind) E (if Num.lt w1 N.maxWidth then (pure (l, x1 :: res, x2) : M V.ctl.W _)
        else do
          let w ← width V.P.unprot x
          let aw ← V.P.unprot.cur fun r => Num.mul r N.alpha w
          if Num.lt aw w1 then do
            let (p, q) ← bisect V.P.unprot x
            let y ← N.f p
            let z ← lift (zeroIn V.C y)
            pure (if z then p :: l else l, res, some q)
          else pure (x1 :: l, res, x2))
      fun p => (∃ S'' : Set ℝ, LInv S'' a b mw p.1 p.2.1 ∧ ∀ r ∈ S, r ∈ S'' ∨ ∃ z ∈ p.2.2, r ∈ γ z) ∧ ∀ z ∈ p.2.2, Box a b z := by
    have hbx : (∃ q : ℝ, e ≤ (q : EReal)) → Box a b x1 ∧ ∀ z ∈ x2, Box a b z := by
      rintro ⟨q, hq⟩
      rcases h2 _ rfl with h | ⟨⟨t, ht⟩, h, -⟩
      · exact h
      · refine absurd ⟨t - q, fun s hs => ?_⟩ h
        have : ((t - s : ℝ) : EReal) ≤ (q : EReal) := (hw s hs t ht).trans hq
        have : t - s ≤ q := by exact_mod_cast this
        linarith
    refine Tri.ite (fun h => Tri.pure ?_) fun h => ?_
    · have hl := h
      rw [lt_eq he hN.width, decide_eq_true_eq] at hl
      obtain ⟨b1, b2⟩ := hbx ⟨mw, hl.le⟩
      refine ⟨⟨{r | r ∈ S' ∨ r ∈ γ x1}, hL.keep b1 (narrow_of hN.width he hw h) (fun r hr => hr), fun r hr => ?_⟩, b2⟩
      rcases hS1 r hr with (h | h) | h
      · exact .inl (.inl h)
      · exact .inr h
      · exact .inl (.inr h)
    · refine (Tri.of_sim (width_sim hU x) (width_fl V hk hx ha hb).toE).bind fun w ⟨ew, hew, _⟩ => ?_
      refine (tri_cur (V := V) (hα w ew hew)).bind fun aw ⟨q, hq⟩ => ?_
      refine Tri.ite (fun h => ?_) fun h => Tri.pure ?_
      · refine (Tri.of_sim (bisect_sim hU x) (bisect_fl V hk hx ha hb).toE).bind fun pq ⟨hp, hq, hpq⟩ => ?_
        rcases pq with ⟨p, q⟩
        have hS2 : ∀ r ∈ S, r ∈ S' ∨ r ∈ γ p ∨ r ∈ γ q := fun r hr => by
          rcases hS r hr with h | h
          · exact .inl h
          · rw [← hpq] at h; exact .inr h
        refine f_zero_tri hN.f hp.nonempty (Tri.pure ⟨⟨{r | r ∈ S' ∨ r ∈ γ p}, hL.place hp (fun r hr => hr), fun r hr => ?_⟩, ?_⟩)
          fun hno => Tri.pure ⟨⟨S', hL, fun r hr => ?_⟩, ?_⟩
        · rcases hS2 r hr with h | h | h
          · exact .inl (.inl h)
          · exact .inl (.inr h)
          · exact .inr ⟨q, rfl, h⟩
        · intro z hz; cases hz; exact hq
        · rcases hS2 r hr with h | h | h
          · exact .inl h
          · exact absurd (hz r hr) (hno r h)
          · exact .inr ⟨q, rfl, h⟩
        · intro z hz; cases hz; exact hq
      · rw [lt_eq hq he, decide_eq_true_eq, not_lt] at h
        obtain ⟨b1, b2⟩ := hbx ⟨q, h⟩
        refine ⟨⟨{r | r ∈ S' ∨ r ∈ γ x1}, hL.place b1 (fun r hr => hr), fun r hr => ?_⟩, b2⟩
        rcases hS1 r hr with (h | h) | h
        · exact .inl (.inl h)
        · exact .inr h
        · exact .inl (.inr h)
  refine key.bind ?_
  · rintro ⟨l, res, x2⟩ ⟨⟨S'', hL, hS''⟩, hB⟩
    cases x2 with
    | none => exact Tri.pure (hL.sub fun r hr => (hS'' r hr).resolve_right fun ⟨z, hz, _⟩ => by cases hz)
    | some x2 =>
      refine tail1_tri hk hN hL (hB x2 rfl) hz fun r hr => (hS'' r hr).imp id ?_
      rintro ⟨z, hz, h⟩; cases hz; exact h

theorem turn1_tri {S S' : Set ℝ} {l res : List (Itv (Fl f))} (hk : V.kind ≠ .exact)
    (hN : NewtonOk V N F F' a b mw) (hα : AlphaOk N.alpha) (ha : |a| ≤ (maxFin f : ℝ) / 2)
    (hb : |b| ≤ (maxFin f : ℝ) / 2) (hL : LInv S' a b mw l res) (hx : Box a b x)
    (hz : ∀ r ∈ S, F r = 0) (hS : ∀ r ∈ S, r ∈ S' ∨ r ∈ γ x) :
    Tri (inner V.laws V.kind) (NErr0 V F' a b) (newtonTurn1 V.P.unprot N l res x) fun p => LInv S a b mw p.1 p.2 := by
  have hC : V.P.unprot.chk = V.C := (V.simU hk).chk
  unfold newtonTurn1
  refine (step1_tri hk hN hx ha hb).bind fun p hp => ?_
  rcases p with ⟨x1, x2⟩
  refine (Tri.lift (cut1_post hC hx hp).toE).bind fun o ho => ?_
  have hdrop : ∀ o : Option (Itv (Fl f) × Option (Itv (Fl f))), o = none → Cov F a b x o → LInv S a b mw l res := by
    rintro _ rfl ⟨h, -⟩
    refine hL.sub fun r hr => (hS r hr).resolve_right fun h' => ?_
    obtain ⟨p, hp, -⟩ := h r h' (hz r hr)
    cases hp
  cases o with
  | none => exact Tri.pure (hdrop _ rfl ho)
  | some q =>
    rcases q with ⟨x1, x2⟩
    refine (keep1_tri hk hN.f ho).bind fun o ho => ?_
    cases o with
    | none => exact Tri.pure (hdrop _ rfl ho)
    | some q =>
      rcases q with ⟨x1, x2⟩
      exact push1_tri hk hN hα ha hb hL hx ho hz hS

theorem LInv.uncons {S : Set ℝ} {l res : List (Itv (Fl f))} (h : LInv S a b mw (x :: l) res) :
    Box a b x ∧ ∃ S' : Set ℝ, LInv S' a b mw l res ∧ ∀ r ∈ S, r ∈ S' ∨ r ∈ γ x := by
  refine ⟨h.box x List.mem_cons_self, {r | ∃ z, (z ∈ l ∨ z ∈ res) ∧ r ∈ γ z},
    ⟨fun z hz => h.box z (List.mem_cons_of_mem _ hz), h.good, fun r hr => hr⟩, fun r hr => ?_⟩
  obtain ⟨z, hz, hr⟩ := h.cov r hr
  rcases hz with hz | hz
  · rcases List.mem_cons.1 hz with rfl | hz
    · exact .inr hr
    · exact .inl ⟨z, .inl hz, hr⟩
  · exact .inl ⟨z, .inr hz, hr⟩

theorem newton1_tri {S : Set ℝ} (hk : V.kind ≠ .exact) (hN : NewtonOk V N F F' a b mw) (hα : AlphaOk N.alpha)
    (ha : |a| ≤ (maxFin f : ℝ) / 2) (hb : |b| ≤ (maxFin f : ℝ) / 2) (hz : ∀ r ∈ S, F r = 0) (n : ℕ) :
    ∀ (l res : List (Itv (Fl f))), LInv S a b mw l res →
      Tri (inner V.laws V.kind) (NErr V F' a b) (newton1 V.P.unprot N n l res) fun R => LInv S a b mw [] R := by
  induction n with
  | zero =>
    intro l res h
    cases l with
    | nil => unfold newton1; exact Tri.pure h
    | cons x l => unfold newton1; exact Tri.err (.inl rfl)
  | succ n ih =>
    intro l res h
    cases l with
    | nil => unfold newton1; exact Tri.pure h
    | cons x l =>
      obtain ⟨hx, S', hL, hS⟩ := h.uncons
      unfold newton1
      refine ((turn1_tri hk hN hα ha hb hL hx hz hS).errMono fun _ => .inr).bind fun p hp => ?_
      rcases p with ⟨l, res⟩
      exact ih l res hp

theorem alphaOk_of {al : Fl f} {r : ℝ} (h : val al = some (r : EReal)) (hr : |r| ≤ 1) : AlphaOk al := by
  intro w e hw m
  obtain ⟨q, hq, rfl⟩ := Rep.of_val hw
  obtain ⟨z, hz, hs⟩ := mul_rounds m h hw ⟨.inr ⟨EReal.coe_ne_bot _, EReal.coe_ne_top _⟩, .inr ⟨EReal.coe_ne_bot _, EReal.coe_ne_top _⟩⟩
  have hM : |(q : ℝ)| ≤ (maxFin f : ℝ) := by exact_mod_cast rep_abs_le hq
  have hp : |r * q| ≤ (maxFin f : ℝ) := by
    rw [abs_mul]
    calc |r| * |(q : ℝ)| ≤ 1 * |(q : ℝ)| := mul_le_mul_of_nonneg_right hr (abs_nonneg _)
      _ ≤ _ := by rw [one_mul]; exact hM
  rw [abs_le] at hp
  have rM : Representable (Fl f) ((maxFin f : ℝ) : EReal) := (representable_iff _).2 (.inr (.inr ⟨_, rep_maxFin f, rfl⟩))
  have rM' : Representable (Fl f) ((-(maxFin f : ℝ) : ℝ) : EReal) :=
    (representable_iff _).2 (.inr (.inr ⟨_, rep_neg (rep_maxFin f), by push_cast; rfl⟩))
  rw [← EReal.coe_mul] at hs
  obtain ⟨s, rfl, -, -⟩ := val_real (hs.lo _ rM' (by exact_mod_cast hp.1)) (hs.up _ rM (by exact_mod_cast hp.2))
  exact ⟨_, rfl, s, hz⟩

/-! ## The second method -/

/-- Part of `[a, b]`, possibly empty. -/
def BV (a b : ℝ) (z : Itv (Fl f)) : Prop := Box a b z ∨ Void z

theorem BV.proper (hE : V.checks.forbidsEmpty = false) (h : BV a b z) : V.Proper z := h.imp Box.nonempty fun h => ⟨h, hE⟩

theorem subTI_void (hE : V.checks.forbidsEmpty = false) {t : Fl f} {r : ℝ} (ht : val t = some (r : EReal)) (hz : Void z) :
    Post True (subTI V.pp t z) Void := by
  obtain ⟨e0, he, hv⟩ := Env.emptyI_void V hE
  unfold subTI
  rw [pure_chk, testTI_void V hE hz (by rw [ht]; simp)]
  change Post True (emptyI V.C) _
  rw [he]
  exact hv

theorem intersect_bv (hE : V.checks.forbidsEmpty = false) (hx : Box a b x) (hz : V.Proper z) :
    Post True (intersect V.C x z) fun y => BV a b y ∧ γ y = γ x ∩ γ z := by
  by_cases h : (γ x ∩ γ z).Nonempty
  · obtain ⟨y, e, g⟩ := C23_intersect (V := V) h
    rw [e]
    exact ⟨.inl (box_of_subset (by rw [g]; exact h) (by rw [g]; exact inter_subset_left.trans hx.subset)), g⟩
  · rw [not_nonempty_iff_eq_empty] at h
    rcases C23_disjoint V (.inl hx.nonempty) hz h with ⟨-, y, e, hv⟩ | ⟨hf, -⟩
    · rw [e]; exact ⟨.inr hv, by rw [hv.gamma, h]⟩
    · rw [hE] at hf; cases hf

/-- The remainders of a Newton step. -/
def Cov2 (F : ℝ → ℝ) (a b : ℝ) (x : Itv (Fl f)) (p : Itv (Fl f) × Itv (Fl f)) : Prop :=
  (∀ r ∈ γ x, F r = 0 → r ∈ γ p.1 ∨ r ∈ γ p.2) ∧ BV a b p.1 ∧ BV a b p.2

theorem step2_tri (hk : V.kind ≠ .exact) (hE : V.checks.forbidsEmpty = false) (hN : NewtonOk V N F F' a b mw) (hx : Box a b x)
    (ha : |a| ≤ (maxFin f : ℝ) / 2) (hb : |b| ≤ (maxFin f : ℝ) / 2) :
    Tri (inner V.laws V.kind) E (newtonStep2 V.P.unprot N x) (Cov2 F a b x) := by
  have hS := V.simU hk
  have hC : V.P.unprot.chk = V.C := hS.chk
  have hD := Env.fl_directed V hk
  have hI : InfBase (Fl f) := fl_inf
  obtain ⟨e0, he, hv⟩ := Env.emptyI_void V hE
  unfold newtonStep2
  refine (Tri.of_sim (median_sim hS x) (median_fl V hk hx ha hb).toE).bind fun xx hxx => ?_
  obtain ⟨m, hm, hxx⟩ := hxx
  rw [hC, m_bind_ok (ctor_ok hxx)]
  have hc : γ (⟨xx, xx⟩ : Itv (Fl f)) = {m} := gamma_single hxx
  refine (f_tri hN.f (by rw [hc]; exact singleton_nonempty _)).bind fun vf hvf => ?_
  replace hvf : F m ∈ γ vf := hvf m (by rw [hc]; rfl)
  refine ((hN.fd x ⟨m, hm⟩).tri).bind fun vd hvd => ?_
  refine (zero_tri ⟨_, hvf⟩).bind fun c0 hc0 => (zero_tri ⟨_, hvd m hm⟩).bind fun c1 hc1 => ?_
  refine Tri.ite (fun h => ?_) (fun h => ?_)
  · rw [m_bind_ok he]
    exact Tri.pure ⟨fun r hr _ => .inl hr, .inl hx, .inr hv⟩
  have hnz : ¬ ((0 : ℝ) ∈ γ vf ∧ (0 : ℝ) ∈ γ vd) := by
    rintro ⟨h1, h2⟩
    exact h (by rw [hc0.2 h1, hc1.2 h2]; rfl)
  have hx0 := hx
  obtain ⟨l, u, h1, h2, h3, h4, h5⟩ := hx
  have hgx := box_gamma h1 h2 h4
  have hroot : ∀ r ∈ γ x, F r = 0 → ∃ ξ ∈ γ x, F' ξ ≠ 0 ∧ m - r = F m / F' ξ := by
    intro r hr h0
    rw [hgx] at hm hr
    obtain ⟨ξ, hξ, he⟩ := mvt_zero (fun t ht => hN.deriv t ⟨h3.trans ht.1, ht.2.trans h5⟩) hm hr h0
    rw [← hgx] at hξ
    have : F' ξ ≠ 0 := fun h => hnz ⟨by rw [h, zero_mul] at he; rwa [he] at hvf, h ▸ hvd ξ hξ⟩
    exact ⟨ξ, hξ, this, by rw [he]; field_simp⟩
  have hvoid2 : Post True (divisionPart2 V.pp vf vd false) Void := by
    change Post True (emptyI V.C) _
    rw [he]; exact hv
  by_cases hy : ∃ t ∈ γ vd, t ≠ 0
  · refine (Tri.of_sim (divisionPart1_sim hS vf vd) (div_parts hD hI ⟨_, hvf⟩ hy).toE).bind fun p ⟨hp1, hp2, hp3⟩ => ?_
    rcases p with ⟨q, c⟩
    refine (Tri.of_sim (subTI_sim hS xx q) (mem_subTI hD hxx hp1).toE).bind fun x1 hx1 => ?_
    have n1 : (γ x1).Nonempty := ⟨_, hx1 _ hp1.choose_spec⟩
    refine (Tri.lift (intersect_bv hE hx0 (.inl n1)).toE).bind fun y1 ⟨hy1, g1⟩ => ?_
    cases c with
    | true =>
      refine (Tri.of_sim (divisionPart2_sim hS vf vd true) (hp3 rfl).toE).bind fun q2 ⟨hq1, hq2, hq3⟩ => ?_
      refine (Tri.of_sim (subTI_sim hS xx q2) (mem_subTI hD hxx hq1).toE).bind fun x2 hx2 => ?_
      refine (Tri.lift (intersect_bv hE hx0 (.inl ⟨_, hx2 _ hq1.choose_spec⟩)).toE).bind fun y2 ⟨hy2, g2⟩ => ?_
      refine Tri.pure ⟨fun r hr h0 => ?_, hy1, hy2⟩
      obtain ⟨ξ, hξ, hne, he⟩ := hroot r hr h0
      have e : r = m - F m / F' ξ := by rw [← he]; ring
      rcases hq3 (F m) hvf (F' ξ) (hvd ξ hξ) hne with h | h
      · left; change r ∈ γ y1; rw [g1]; refine ⟨hr, ?_⟩; rw [e]; exact hx1 _ h
      · right; change r ∈ γ y2; rw [g2]; refine ⟨hr, ?_⟩; rw [e]; exact hx2 _ h
    | false =>
      refine (Tri.of_sim (divisionPart2_sim hS vf vd false) hvoid2.toE).bind fun q2 hq2 => ?_
      refine (Tri.of_sim (subTI_sim hS xx q2) (subTI_void hE hxx hq2).toE).bind fun x2 hx2 => ?_
      refine (Tri.lift (intersect_bv hE hx0 (.inr ⟨hx2, hE⟩)).toE).bind fun y2 ⟨hy2, g2⟩ => ?_
      refine Tri.pure ⟨fun r hr h0 => .inl ?_, hy1, hy2⟩
      obtain ⟨ξ, hξ, hne, he⟩ := hroot r hr h0
      have e : r = m - F m / F' ξ := by rw [← he]; ring
      change r ∈ γ y1
      rw [g1]; refine ⟨hr, ?_⟩; rw [e]
      exact hx1 _ (hp2 rfl (F m) hvf (F' ξ) (hvd ξ hξ) hne)
  · push Not at hy
    have hy0 : γ vd = {0} := by
      ext t
      constructor
      · exact fun ht => hy t ht
      · rintro rfl
        have := hvd m hm
        rwa [hy _ this] at this
    have hno : ∀ r ∈ γ x, F r ≠ 0 := fun r hr h0 => by
      obtain ⟨ξ, hξ, hne, -⟩ := hroot r hr h0
      exact hne (hy _ (hvd ξ hξ))
    have e := divPart1_zero (V := V) ⟨_, hvf⟩ hy0
    have : PostE E (divisionPart1 V.pp vf vd) (fun p => p = (e0, false)) := by
      rw [e, he]; rfl
    refine (Tri.of_sim (divisionPart1_sim hS vf vd) this).bind fun _ h => ?_
    subst h
    refine (Tri.of_sim (subTI_sim hS xx e0) (subTI_void hE hxx hv).toE).bind fun x1 hx1 => ?_
    refine (Tri.lift (intersect_bv hE hx0 (.inr ⟨hx1, hE⟩)).toE).bind fun y1 ⟨hy1, _⟩ => ?_
    refine (Tri.of_sim (divisionPart2_sim hS vf vd false) hvoid2.toE).bind fun q2 hq2 => ?_
    refine (Tri.of_sim (subTI_sim hS xx q2) (subTI_void hE hxx hq2).toE).bind fun x2 hx2 => ?_
    refine (Tri.lift (intersect_bv hE hx0 (.inr ⟨hx2, hE⟩)).toE).bind fun y2 ⟨hy2, _⟩ => ?_
    exact Tri.pure ⟨fun r hr h0 => absurd h0 (hno r hr), hy1, hy2⟩

theorem width_bv_tri (hk : V.kind ≠ .exact) (hE : V.checks.forbidsEmpty = false) (hx : BV a b x) :
    Tri (inner V.laws V.kind) E (width V.P.unprot x) fun _ => True := by
  have hS := V.simU hk
  rcases hx with hx | hx
  · exact (width_tri hS hk hx.nonempty).mono fun _ _ => trivial
  · refine Tri.of_sim (width_sim hS x) ?_
    unfold width
    rw [pure_chk, hx.test V hE]
    trivial

theorem empty_tri {J : Inv V.ctl.W} (hE : V.checks.forbidsEmpty = false) (hx : BV a b x) :
    Tri J E (BI.lift (isEmptyI V.C x) : M V.ctl.W Bool) fun c => if c then γ x = ∅ else Box a b x := by
  classical
  rw [C22_empty V (hx.proper hE)]
  refine Tri.lift ?_
  rcases hx with hx | hx
  · simp [PostE, hx, hx.nonempty.ne_empty]
  · simp [PostE, hx.gamma]

theorem keep2_tri {x1 x2 : Itv (Fl f)} (hk : V.kind ≠ .exact) (hE : V.checks.forbidsEmpty = false) (hf : Encloses V N.f F)
    (h : Cov2 F a b x (x1, x2)) : Tri (inner V.laws V.kind) E (newtonKeep2 V.P.unprot N x1 x2) fun o =>
      (∀ r ∈ γ x, F r = 0 → ∃ p ∈ o, r ∈ γ p.1 ∨ r ∈ γ p.2) ∧ ∀ p ∈ o, Box a b p.1 ∧ BV a b p.2 := by
  have hS := V.simU hk
  have hC : V.P.unprot.chk = V.C := hS.chk
  obtain ⟨e0, he, hv⟩ := Env.emptyI_void V hE
  obtain ⟨h1, b1, b2⟩ := h
  unfold newtonKeep2
  rw [hC]
  refine (width_bv_tri hk hE b2).bind fun w2 _ => (width_bv_tri hk hE b1).bind fun w1 _ => ?_
  have hsw : Cov2 F a b x (if Num.lt w1 w2 = true then (x2, x1) else (x1, x2)) := by
    split
    · exact ⟨fun r hr h0 => (h1 r hr h0).symm, b2, b1⟩
    · exact ⟨h1, b1, b2⟩
  generalize (if Num.lt w1 w2 = true then (x2, x1) else (x1, x2)) = p at hsw ⊢
  rcases p with ⟨x1, x2⟩
  obtain ⟨h1, b1, b2⟩ := hsw
  have key : Tri (inner V.laws V.kind) E (do
      if ← (lift (isEmptyI V.C x1) : M V.ctl.W Bool) then pure false
      else do
        let y ← N.f x1
        lift (zeroIn V.C y)) fun c => if c then Box a b x1 else ∀ r ∈ γ x1, F r ≠ 0 := by
    refine (empty_tri hE b1).bind fun c hc => ?_
    cases c with
    | true =>
      simp only [if_true] at hc ⊢
      refine Tri.pure ?_
      simp [hc]
    | false =>
      have hb : Box a b x1 := hc
      obtain ⟨t, ht⟩ := hb.nonempty
      refine (f_tri hf ⟨t, ht⟩).bind fun y hy => (zero_tri ⟨_, hy t ht⟩).mono fun c hc => ?_
      cases c with
      | true => exact hb
      | false =>
        intro r hr h0
        have := hc.2 (h0 ▸ hy r hr)
        cases this
  refine key.bind fun c hc => ?_
  cases c with
  | true =>
    refine Tri.pure ⟨fun r hr h0 => ⟨_, rfl, h1 r hr h0⟩, fun p hp => ?_⟩
    cases hp; exact ⟨hc, b2⟩
  | false =>
    have hno : ∀ r ∈ γ x1, F r ≠ 0 := hc
    refine (empty_tri hE b2).bind fun c hc => ?_
    cases c with
    | true =>
      have hc : γ x2 = ∅ := hc
      refine Tri.pure ⟨fun r hr h0 => ?_, fun p hp => by cases hp⟩
      rcases h1 r hr h0 with h | h
      · exact absurd h0 (hno r h)
      · change r ∈ γ x2 at h; rw [hc] at h; exact h.elim
    | false =>
      change Tri _ _ (lift (emptyI V.C) >>= fun e => pure (some (x2, e))) _
      rw [m_bind_ok he]
      refine Tri.pure ⟨fun r hr h0 => ⟨_, rfl, ?_⟩, fun p hp => ?_⟩
      · rcases h1 r hr h0 with h | h
        · exact absurd h0 (hno r h)
        · exact .inl h
      · cases hp; exact ⟨hc, .inr hv⟩

theorem push2_tri {S S' : Set ℝ} {l res : List (Itv (Fl f))} {x1 x2 : Itv (Fl f)} (hk : V.kind ≠ .exact)
    (hE : V.checks.forbidsEmpty = false)
    (hN : NewtonOk V N F F' a b mw) (hα : AlphaOk N.alpha) (ha : |a| ≤ (maxFin f : ℝ) / 2)
    (hb : |b| ≤ (maxFin f : ℝ) / 2) (hL : LInv S' a b mw l res) (hx : Box a b x)
    (hc : ∀ r ∈ γ x, F r = 0 → r ∈ γ x1 ∨ r ∈ γ x2) (b1 : Box a b x1) (b2 : BV a b x2)
    (hz : ∀ r ∈ S, F r = 0) (hS : ∀ r ∈ S, r ∈ S' ∨ r ∈ γ x) :
    Tri (inner V.laws V.kind) E (newtonPush2 V.P.unprot N l res x x1 x2) fun p => LInv S a b mw p.1 p.2 := by
  have hU := V.simU hk
  have hC : V.P.unprot.chk = V.C := hU.chk
  have hS1 : ∀ r ∈ S, (r ∈ S' ∨ r ∈ γ x1) ∨ r ∈ γ x2 := fun r hr => by
    rcases hS r hr with h | h
    · exact .inl (.inl h)
    · rcases hc r h (hz r hr) with h | h
      · exact .inl (.inr h)
      · exact .inr h
  unfold newtonPush2
  rw [hC]
  refine (width_tri hU hk b1.nonempty).bind fun w1 ⟨e, he, hw⟩ => ?_
  have key : Tri (inner V.laws V.kind) E (if Num.lt w1 N.maxWidth then (pure (l, x1 :: res, x2) : M V.ctl.W _)
        else do
          let w ← width V.P.unprot x
          let aw ← V.P.unprot.cur fun r => Num.mul r N.alpha w
          if Num.lt aw w1 then do
            let (p, q) ← bisect V.P.unprot x
            let y ← N.f p
            let z ← lift (zeroIn V.C y)
            pure (if z then p :: l else l, res, q)
          else pure (x1 :: l, res, x2))
      fun p => (∃ S'' : Set ℝ, LInv S'' a b mw p.1 p.2.1 ∧ ∀ r ∈ S, r ∈ S'' ∨ r ∈ γ p.2.2) ∧ BV a b p.2.2 := by
    refine Tri.ite (fun h => Tri.pure ?_) fun h => ?_
    · exact ⟨⟨{r | r ∈ S' ∨ r ∈ γ x1}, hL.keep b1 (narrow_of hN.width he hw h) (fun r hr => hr), hS1⟩, b2⟩
    · refine (Tri.of_sim (width_sim hU x) (width_fl V hk hx ha hb).toE).bind fun w ⟨ew, hew, _⟩ => ?_
      refine (tri_cur (V := V) (hα w ew hew)).bind fun aw _ => ?_
      refine Tri.ite (fun h => ?_) fun h => Tri.pure ⟨⟨{r | r ∈ S' ∨ r ∈ γ x1}, hL.place b1 (fun r hr => hr), hS1⟩, b2⟩
      refine (Tri.of_sim (bisect_sim hU x) (bisect_fl V hk hx ha hb).toE).bind fun pq ⟨hp, hq, hpq⟩ => ?_
      rcases pq with ⟨p, q⟩
      have hS2 : ∀ r ∈ S, r ∈ S' ∨ r ∈ γ p ∨ r ∈ γ q := fun r hr => by
        rcases hS r hr with h | h
        · exact .inl h
        · rw [← hpq] at h; exact .inr h
      refine f_zero_tri hN.f hp.nonempty (Tri.pure ⟨⟨{r | r ∈ S' ∨ r ∈ γ p}, hL.place hp (fun r hr => hr), fun r hr => ?_⟩, .inl hq⟩)
        fun hno => Tri.pure ⟨⟨S', hL, fun r hr => ?_⟩, .inl hq⟩
      · rcases hS2 r hr with h | h | h
        · exact .inl (.inl h)
        · exact .inl (.inr h)
        · exact .inr h
      · rcases hS2 r hr with h | h | h
        · exact .inl h
        · exact absurd (hz r hr) (hno r h)
        · exact .inr h
  refine key.bind ?_
  rintro ⟨l, res, x2⟩ ⟨⟨S'', hL, hS''⟩, hB⟩
  refine (empty_tri hE hB).bind fun c hc => ?_
  cases c with
  | true =>
    have hc : γ x2 = ∅ := hc
    refine Tri.pure (hL.sub fun r hr => (hS'' r hr).resolve_right fun h => ?_)
    change r ∈ γ x2 at h; rw [hc] at h; exact h
  | false => exact tail1_tri hk hN hL hc hz hS''

theorem newton2_tri {S : Set ℝ} (hk : V.kind ≠ .exact) (hE : V.checks.forbidsEmpty = false) (hN : NewtonOk V N F F' a b mw)
    (hα : AlphaOk N.alpha) (ha : |a| ≤ (maxFin f : ℝ) / 2) (hb : |b| ≤ (maxFin f : ℝ) / 2) (hz : ∀ r ∈ S, F r = 0) (n : ℕ) :
    ∀ (l res : List (Itv (Fl f))), LInv S a b mw l res →
      Tri (inner V.laws V.kind) (fun e => e = .fuel) (newton2 V.P.unprot N n l res) fun R => LInv S a b mw [] R := by
  induction n with
  | zero =>
    intro l res h
    cases l with
    | nil => unfold newton2; exact Tri.pure h
    | cons x l => unfold newton2; exact Tri.err rfl
  | succ n ih =>
    intro l res h
    cases l with
    | nil => unfold newton2; exact Tri.pure h
    | cons x l =>
      obtain ⟨hx, S', hL, hS⟩ := h.uncons
      unfold newton2
      refine Tri.bind (Q := fun p => LInv S a b mw p.1 p.2) ?_ fun p hp => ?_
      · unfold newtonTurn2
        refine (step2_tri hk hE hN hx ha hb).bind fun p hp => ?_
        rcases p with ⟨x1, x2⟩
        refine (keep2_tri hk hE hN.f hp).bind fun o ⟨h1, h2⟩ => ?_
        cases o with
        | none =>
          refine Tri.pure (hL.sub fun r hr => (hS r hr).resolve_right fun h' => ?_)
          obtain ⟨p, hp, -⟩ := h1 r h' (hz r hr)
          cases hp
        | some q =>
          rcases q with ⟨x1, x2⟩
          obtain ⟨b1, b2⟩ := h2 _ rfl
          refine push2_tri hk hE hN hα ha hb hL hx (fun r hr h0 => ?_) b1 b2 hz hS
          obtain ⟨p, hp, h⟩ := h1 r hr h0
          cases hp; exact h
      · rcases p with ⟨l, res⟩
        exact ih l res hp
end
end BI
