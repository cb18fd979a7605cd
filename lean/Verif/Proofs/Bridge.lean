import Verif.Proofs.EnvLaws
/-! # From posts on the mode-free reading to statements about calls -/

set_option linter.unusedSectionVars false

namespace BI
open Set

section
variable {T : Type} [Num T] [Val T] [NumLaws T]

/-! ## Emptiness -/

theorem gamma_nan {x : Itv T} (h : val x.lower = none ∨ val x.upper = none) : γ x = ∅ := by
  ext r
  simp only [mem_empty_iff_false, iff_false]
  rintro ⟨l, u, h1, h2, -⟩
  rcases h with h | h
  · rw [h] at h1; cases h1
  · rw [h] at h2; cases h2

theorem emptyI_spec (sp : ChkSpec) (nd : Bool) :
    (sp.forbidsEmpty = true ∧ emptyI (sp.eval T nd) = .error .emptyCreated) ∨
    (sp.forbidsEmpty = false ∧ ∃ z, emptyI (sp.eval T nd) = .ok z ∧ Void z) := by
  induction sp with
  | base =>
    right
    refine ⟨rfl, ⟨_, _⟩, rfl, ?_⟩
    by_cases h : Num.hasNaN T = true
    · simp only [h, if_true]
      intro l u h1
      change val (Num.nan : T) = _ at h1
      rw [NumLaws.nan h] at h1; cases h1
    · simp only [h]
      intro l u h1 h2
      change val (Num.lit 1) = _ at h1
      change val (Num.lit 0) = _ at h2
      rw [val_one] at h1; rw [val_zero] at h2
      cases h1; cases h2
      norm_num
  | noEmpty c ih => exact .inl ⟨rfl, rfl⟩
  | noNan c ih => exact ih
  | catchNan c ih => exact ih

theorem Env.yieldsEmpty_of (V : Env T) {op : M V.ctl.W (Itv T)} {r : Res (Itv T)}
    (h : Sim (outer V.laws) op r) (hr : r = emptyI V.C) : V.YieldsEmpty op := by
  unfold Env.YieldsEmpty
  rcases emptyI_spec (T := T) V.checks V.ndebug with ⟨h1, h2⟩ | ⟨h1, z, h2, h3⟩
  · rw [if_pos h1]; exact V.throws_of h (hr.trans h2)
  · rw [if_neg (by simp [h1])]
    refine V.returns_of h (Q := Void) ?_
    rw [hr.trans h2]; exact h3

/-! ## Smallest enclosures -/

theorem Bnd.smallest {S : Set ℝ} {z : Itv T} (h : Bnd (IsRoundDown T) (IsRoundUp T) S z) (hS : S.Nonempty) :
    SmallestEnclosure z S := by
  have henc := h.encl (fun h => h.2.1) (fun h => h.2.1)
  obtain ⟨l, u, e₁, e₂, h1, h2, h3, h4, h5, h6⟩ := h
  refine ⟨henc, fun z' hz' => ?_⟩
  obtain ⟨s, hs⟩ := hS
  obtain ⟨l', u', k1, k2, -, -⟩ := hz' hs
  have hl : l' ≤ l := by
    refine h5.2.2 l' ⟨_, k1⟩ (h3.2 ?_)
    rintro _ ⟨r, hr, rfl⟩
    obtain ⟨l'', u'', m1, m2, m3, m4⟩ := hz' hr
    rw [k1] at m1; cases m1; exact m3
  have hu : u ≤ u' := by
    refine h6.2.2 u' ⟨_, k2⟩ (h4.2 ?_)
    rintro _ ⟨r, hr, rfl⟩
    obtain ⟨l'', u'', m1, m2, m3, m4⟩ := hz' hr
    rw [k2] at m2; cases m2; exact m4
  refine ⟨?_, ?_⟩
  · rintro r ⟨a, b, m1, m2, m3, m4⟩
    rw [h1] at m1; rw [h2] at m2; cases m1; cases m2
    exact ⟨l', u', k1, k2, hl.trans m3, m4.trans hu⟩
  · intro a b a' b' m1 m2 m3 m4
    rw [h1] at m1; rw [h2] at m2; rw [k1] at m3; rw [k2] at m4
    cases m1; cases m2; cases m3; cases m4
    exact ⟨hl, hu⟩

theorem SmallestEnclosure.mono {z z' : Itv T} {S S' : Set ℝ} (h : SmallestEnclosure z S) (h' : SmallestEnclosure z' S')
    (hS : S ⊆ S') : γ z ⊆ γ z' := (h.2 z' (hS.trans h'.1)).1

theorem SmallestEnclosure.eq {z z' : Itv T} {S : Set ℝ} (h : SmallestEnclosure z S) (h' : SmallestEnclosure z' S) :
    γ z = γ z' := Subset.antisymm (h.mono h' subset_rfl) (h'.mono h subset_rfl)

theorem has_of_nonempty {x : Itv T} (h : (γ x).Nonempty) : ∃ a b, Has x a b := by
  obtain ⟨r, hr⟩ := h; exact has_of_mem hr

/-- The values of the bounds of a valid interval. -/
theorem Has.unique {x : Itv T} {a b a' b' : EReal} (h : Has x a b) (h' : Has x a' b') : a = a' ∧ b = b' := by
  have h1 := h.lo; rw [h'.lo] at h1; have h2 := h.up; rw [h'.up] at h2
  cases h1; cases h2; exact ⟨rfl, rfl⟩

theorem Has.subset {x y : Itv T} {a b c d : EReal} (hx : Has x a b) (hy : Has y c d) (h : γ x ⊆ γ y) : c ≤ a ∧ b ≤ d := by
  constructor
  · have := hx.lower_cl
    have h1 : IsGLB (E (γ x)) a := isGLB_of (fun r hr => hx.lb hr) this
    exact h1.2 (by rintro _ ⟨r, hr, rfl⟩; exact hy.lb (h hr))
  · have := hx.upper_cl
    have h1 : IsLUB (E (γ x)) b := isLUB_of (fun r hr => hx.ub hr) this
    exact h1.2 (by rintro _ ⟨r, hr, rfl⟩; exact hy.ub (h hr))

theorem zero_bounds {y : Itv T} {c d : EReal} (hy : Has y c d) : (c = 0 ∧ d = 0) ↔ γ y ⊆ {0} := by
  constructor
  · rintro ⟨rfl, rfl⟩
    rw [gamma_zero hy le_rfl le_rfl]
  · intro h
    have h0 : val (Num.lit 0 : T) = some ((0 : ℝ) : EReal) := by rw [val_zero]; rfl
    have hz := has_single h0
    have := hy.subset hz (by rw [gamma_single h0]; exact h)
    have hle := hy.le
    constructor
    · exact le_antisymm (hle.trans this.2) this.1
    · exact le_antisymm this.2 (this.1.trans hle)

theorem mem_zero_iff {y : Itv T} {c d : EReal} (hy : Has y c d) : (0 : ℝ) ∈ γ y ↔ c ≤ 0 ∧ 0 ≤ d := by
  rw [hy.gamma]; exact Iff.rfl

theorem divII_nz_post {tot : Prop} {D U : EReal → EReal → Prop} {B : Arith Res T} {C : Checking T} {x y : Itv T}
    {a b c d : EReal} (hV : DivLaws tot D U B) (hC : ChkLaws C) (hx : Has x a b) (hy : Has y c d)
    (h0 : (0 : ℝ) ∉ γ y) : Post tot (divII (purePolicies B C) x y) (Bnd D U (quot (γ x) (γ y))) := by
  have h0' : ¬ (c ≤ 0 ∧ 0 ≤ d) := fun h => h0 ((mem_zero_iff hy).2 h)
  unfold divII
  rw [pure_chk, res_if_false (hx.test2 hC hy), res_if (zeroIn_eq hC hy)]
  simp only [h0', decide_false]
  exact divNonZeroII_post hV hx hy (noZero_of hy h0')

theorem divTI_nz_post {tot : Prop} {D U : EReal → EReal → Prop} {B : Arith Res T} {C : Checking T} {y : Itv T} {t : T}
    {r : ℝ} {c d : EReal} (hV : DivLaws tot D U B) (hC : ChkLaws C) (ht : val t = some (r : EReal)) (hy : Has y c d)
    (h0 : (0 : ℝ) ∉ γ y) : Post tot (divTI (purePolicies B C) t y) (Bnd D U (quot {r} (γ y))) := by
  have h0' : ¬ (c ≤ 0 ∧ 0 ≤ d) := fun h => h0 ((mem_zero_iff hy).2 h)
  unfold divTI
  rw [pure_chk, res_if_false (testTI_ok hC ht hy), res_if (zeroIn_eq hC hy)]
  simp only [h0', decide_false]
  exact divNonZeroTI_post hV ht hy (noZero_of hy h0')

theorem divII_zero {B : Arith Res T} {C : Checking T} {x y : Itv T} {a b c d : EReal} (hC : ChkLaws C) (hx : Has x a b)
    (hy : Has y c d) (h0 : c = 0 ∧ d = 0) : divII (purePolicies B C) x y = emptyI C := by
  obtain ⟨rfl, rfl⟩ := h0
  unfold divII
  rw [pure_chk, res_if_false (hx.test2 hC hy), res_if (zeroIn_eq hC hy), isZero_eq hy.lo, isZero_eq hy.up]
  simp
  rfl

theorem divTI_zero {B : Arith Res T} {C : Checking T} {y : Itv T} {t : T} {r : ℝ} {c d : EReal} (hC : ChkLaws C)
    (ht : val t = some (r : EReal)) (hy : Has y c d) (h0 : c = 0 ∧ d = 0) :
    divTI (purePolicies B C) t y = emptyI C := by
  obtain ⟨rfl, rfl⟩ := h0
  unfold divTI
  rw [pure_chk, res_if_false (testTI_ok hC ht hy), res_if (zeroIn_eq hC hy), isZero_eq hy.lo, isZero_eq hy.up]
  simp
  rfl

theorem divIT_zero {B : Arith Res T} {C : Checking T} {x : Itv T} {t : T} {a b : EReal} (hC : ChkLaws C)
    (hx : Has x a b) (ht : val t = some (0 : EReal)) : divIT (purePolicies B C) x t = emptyI C := by
  unfold divIT
  rw [pure_chk, testIT_ok hC ht hx]
  change (if (false || isZero t) = true then _ else _) = _
  rw [isZero_eq ht]
  simp
  rfl

theorem divTT_zero {B : Arith Res T} {C : Checking T} {s t : T} {r : EReal} (hC : ChkLaws C)
    (hs : val s = some r) (ht : val t = some (0 : EReal)) : divTT (purePolicies B C) s t = emptyI C := by
  unfold divTT
  rw [pure_chk, testTT_ok hC hs ht]
  change (if (false || isZero t) = true then _ else _) = _
  rw [isZero_eq ht]
  simp
  rfl

/-- Division of an interval with points on both sides of zero (or `[a, 0]`) by an interval that contains zero. -/
theorem divII_straddle {B : Arith Res T} {C : Checking T} {x y : Itv T} {a b c d : EReal} (hC : ChkLaws C)
    (hx : Has x a b) (hy : Has y c d) (hne : ¬ (c = 0 ∧ d = 0)) (ha : a < 0) (hb : 0 ≤ b) (h0 : c ≤ 0 ∧ 0 ≤ d) :
    divII (purePolicies B C) x y = wholeI C := by
  unfold divII divZeroI divNegativeI divPositiveI
  rw [pure_chk, res_if_false (hx.test2 hC hy), res_if (zeroIn_eq hC hy), isZero_eq hy.lo, isZero_eq hy.up,
    isZero_eq hx.lo, isZero_eq hx.up, isNeg_eq hx.up, isNeg_eq hx.lo]
  simp only [h0, ha, not_lt.2 hb, ha.ne, decide_true, decide_false, Bool.false_and, pure_scope]
  by_cases h1 : c = 0 <;> by_cases h2 : d = 0
  · exact absurd ⟨h1, h2⟩ hne
  all_goals simp [h1, h2]; rfl
end
end BI

namespace BI
section
variable {T : Type} [Num T] [Val T] [NumLaws T]

/-- Transfer to the machine. -/
theorem Env.run (V : Env T) {D U : EReal → EReal → Prop} (hV : V.Ok D U) {α : Type} {op : M V.ctl.W α} {r : Res α}
    {Q : α → Prop} (hs : ∀ J, PSim (outer V.laws) J V.P V.B V.C → Sim (outer V.laws) op r) (hp : Post True r Q) :
    V.Returns op Q := by
  obtain ⟨J, hJ⟩ := V.sim hV.kindOk
  exact V.returns_of (hs J hJ) hp

theorem Env.runEmpty (V : Env T) {D U : EReal → EReal → Prop} (hV : V.Ok D U) {op : M V.ctl.W (Itv T)} {r : Res (Itv T)}
    (hs : ∀ J, PSim (outer V.laws) J V.P V.B V.C → Sim (outer V.laws) op r) (hr : r = emptyI V.C) :
    V.YieldsEmpty op := by
  obtain ⟨J, hJ⟩ := V.sim hV.kindOk
  exact V.yieldsEmpty_of (hs J hJ) hr

/-- Interval between two literals, for examples. -/
def litI (a b : Int) : Itv T := ⟨Num.lit a, Num.lit b⟩

theorem mem_litI {a b : Int} {r : ℝ} (ha : |a| ≤ 7) (hb : |b| ≤ 7) : r ∈ γ (litI a b : Itv T) ↔ (a : ℝ) ≤ r ∧ r ≤ b := by
  constructor
  · rintro ⟨l, u, h1, h2, h3, h4⟩
    change val (Num.lit a) = _ at h1
    change val (Num.lit b) = _ at h2
    rw [NumLaws.lit a ha] at h1; rw [NumLaws.lit b hb] at h2
    cases h1; cases h2
    exact ⟨EReal.coe_le_coe_iff.1 h3, EReal.coe_le_coe_iff.1 h4⟩
  · rintro ⟨h1, h2⟩
    exact ⟨_, _, NumLaws.lit a ha, NumLaws.lit b hb, EReal.coe_le_coe_iff.2 h1, EReal.coe_le_coe_iff.2 h2⟩

theorem litI_nonempty {a b : Int} (ha : |a| ≤ 7) (hb : |b| ≤ 7) (h : a ≤ b) : (γ (litI a b : Itv T)).Nonempty :=
  ⟨a, (mem_litI ha hb).2 ⟨le_rfl, by exact_mod_cast h⟩⟩
end
end BI

namespace BI
open Set
section
variable {T : Type} [Num T] [Val T] [NumLaws T]

theorem du_eq : DU T Eq Eq where
  D_le h := h.le
  U_ge h := h.ge
  D_min h h' := by rw [h, h']
  U_max h h' := by rw [h, h']
  D_exact _ _ _ := rfl
  U_exact _ _ _ := rfl
  dual h _ := by rw [h]

theorem Has.gamma_Icc {x : Itv T} {a b : ℝ} (h : Has x a b) : γ x = Icc a b := by
  rw [h.gamma]; ext r; simp [RI]

/-- Bounded non-empty intervals have finite bounds. -/
theorem Has.of_bounded {x : Itv T} {a b : EReal} (h : Has x a b) (hb : Bornology.IsBounded (γ x)) :
    ∃ p q : ℝ, a = p ∧ b = q ∧ p ≤ q := by
  obtain ⟨R, hR⟩ := hb.subset_closedBall 0
  have hR' : ∀ r ∈ γ x, -R ≤ r ∧ r ≤ R := fun r hr => by
    have := hR hr
    rw [Metric.mem_closedBall, Real.dist_0_eq_abs] at this
    exact abs_le.1 this
  have h1 : IsGLB (E (γ x)) a := isGLB_of (fun r hr => h.lb hr) h.lower_cl
  have h2 : IsLUB (E (γ x)) b := isLUB_of (fun r hr => h.ub hr) h.upper_cl
  have h3 : ((-R : ℝ) : EReal) ≤ a := h1.2 (by rintro _ ⟨r, hr, rfl⟩; exact_mod_cast (hR' r hr).1)
  have h4 : b ≤ ((R : ℝ) : EReal) := h2.2 (by rintro _ ⟨r, hr, rfl⟩; exact_mod_cast (hR' r hr).2)
  have ha : a ≠ ⊥ := fun h => by rw [h] at h3; exact absurd (le_bot_iff.1 h3) (EReal.coe_ne_bot _)
  have hb : b ≠ ⊤ := fun h => by rw [h] at h4; exact absurd (top_le_iff.1 h4) (EReal.coe_ne_top _)
  lift a to ℝ using ⟨h.ne_top, ha⟩
  lift b to ℝ using ⟨hb, h.ne_bot⟩
  exact ⟨a, b, rfl, rfl, by exact_mod_cast h.le⟩

/-- Exact bounds of a continuous image. -/
theorem Bnd.exact2 {x y z : Itv T} {a b c d : EReal} {g : ℝ → ℝ → ℝ} (h : Bnd Eq Eq (image2 g (γ x) (γ y)) z)
    (hx : Has x a b) (hy : Has y c d) (bx : Bornology.IsBounded (γ x)) (bd : Bornology.IsBounded (γ y))
    (f : ℝ × ℝ → ℝ) (hf : ContinuousOn f (γ x ×ˢ γ y)) (hg : ∀ a b, f (a, b) = g a b := by intros; rfl) :
    γ z = image2 g (γ x) (γ y) := by
  obtain ⟨p, q, rfl, rfl, hpq⟩ := hx.of_bounded bx
  obtain ⟨p', q', rfl, rfl, hpq'⟩ := hy.of_bounded bd
  rw [hx.gamma_Icc, hy.gamma_Icc] at *
  have him : image2 g (Icc p q) (Icc p' q') = f '' (Icc p q ×ˢ Icc p' q') := by
    rw [← image_prod]; exact image_congr fun r _ => (hg r.1 r.2).symm
  have hc : IsCompact (image2 g (Icc p q) (Icc p' q')) := by
    rw [him]; exact (isCompact_Icc.prod isCompact_Icc).image_of_continuousOn hf
  have hn : IsConnected (image2 g (Icc p q) (Icc p' q')) := by
    rw [him]; exact ((isConnected_Icc hpq).prod (isConnected_Icc hpq')).image f hf
  have hI := eq_Icc_of_connected_compact hn hc
  have hle : sInf (image2 g (Icc p q) (Icc p' q')) ≤ sSup (image2 g (Icc p q) (Icc p' q')) := by
    have := hn.nonempty; rw [hI] at this; exact nonempty_Icc.1 this
  set l := sInf (image2 g (Icc p q) (Icc p' q'))
  set u := sSup (image2 g (Icc p q) (Icc p' q'))
  rw [hI] at h ⊢
  obtain ⟨_, _, e₁, e₂, h1, h2, h3, h4, rfl, rfl⟩ := h
  have k1 : IsGLB (E (Icc l u)) (l : EReal) :=
    ⟨by rintro _ ⟨r, hr, rfl⟩; exact_mod_cast hr.1, fun e he => he ⟨l, left_mem_Icc.2 hle, rfl⟩⟩
  have k2 : IsLUB (E (Icc l u)) (u : EReal) :=
    ⟨by rintro _ ⟨r, hr, rfl⟩; exact_mod_cast hr.2, fun e he => he ⟨u, right_mem_Icc.2 hle, rfl⟩⟩
  rw [h3.unique k1] at h1
  rw [h4.unique k2] at h2
  have hz : Has z l u := ⟨h1, h2, EReal.coe_ne_top _, EReal.coe_ne_bot _, by exact_mod_cast hle⟩
  exact hz.gamma_Icc
end
end BI
