import Verif.Model.Arith2
import Verif.Proofs.Bridge
/-! # Bounds computed by arith2.hpp: square, square root, inverse, two-part division -/

set_option linter.unusedSectionVars false

namespace BI
open Set

section
variable {T : Type} [Num T] [Val T] [NumLaws T] {tot : Prop} {D U : EReal → EReal → Prop} {B : Arith Res T}
  {C : Checking T} {x y : Itv T} {a b c d : EReal}

/-! ## Square -/

theorem sq_mem_closure {X : Set ℝ} {p : EReal} (hp : p ∈ closure (E X)) (h : MulOk p p) :
    p * p ∈ closure (E ((fun r => r ^ 2) '' X)) := by
  refine image_mem_closure (f := fun p => p * p) (fun r => by rw [sq]; norm_cast) hp ?_
  have h1 : ContinuousAt (fun p : EReal × EReal => p.1 * p.2) (p, p) :=
    EReal.continuousAt_mul (h.1.imp id And.left) (h.1.imp id And.right)
      ((h.2.imp id And.left).symm) ((h.2.imp id And.right).symm)
  exact ContinuousAt.comp (f := fun p : EReal => (p, p)) (g := fun p : EReal × EReal => p.1 * p.2) h1
    (continuous_id.prodMk continuous_id).continuousAt

theorem mulOk_self (p : EReal) : MulOk p p := by
  by_cases h : p = 0
  · subst h; exact mulOk_real (by simp) (by simp) (by simp) (by simp)
  · exact mulOk_nz h h

theorem mul_self_le {p q : EReal} (h0 : 0 ≤ p) (h : p ≤ q) : p * p ≤ q * q :=
  (ml_nonneg h h0).trans (mr_nonneg h (h0.trans h))

theorem mul_self_le' {p q : EReal} (h0 : p ≤ 0) (h : q ≤ p) : p * p ≤ q * q :=
  (ml_nonpos h h0).trans (mr_nonpos h (h.trans h0))

theorem coe_sq (r : ℝ) : ((r ^ 2 : ℝ) : EReal) = (r : EReal) * r := by rw [sq]; norm_cast

theorem squareI_post (hA : OpLaws tot D U B) (hC : ChkLaws C) (hx : Has x a b) :
    Post tot (squareI (purePolicies B C) x) (Bnd D U ((fun r => r ^ 2) '' γ x)) := by
  unfold squareI
  rw [pure_chk, res_if_false (hx.test hC), pure_scope, pure_rnd]
  simp only [isNeg_eq hx.up, isPos_eq hx.lo, decide_eq_true_eq]
  have XL := sq_mem_closure hx.lower_cl (mulOk_self a)
  have XU := sq_mem_closure hx.upper_cl (mulOk_self b)
  split_ifs with h1 h2
  · refine mk2_post (hA.mulDown _ _ _ _ hx.up hx.up (mulOk_self b)) (hA.mulUp _ _ _ _ hx.lo hx.lo (mulOk_self a))
      (isGLB_of ?_ XU) (isLUB_of ?_ XL)
    · rintro _ ⟨r, hr, rfl⟩
      rw [coe_sq]; exact mul_self_le' h1.le (hx.ub hr)
    · rintro _ ⟨r, hr, rfl⟩
      rw [coe_sq]; exact mul_self_le' ((hx.ub hr).trans h1.le) (hx.lb hr)
  · refine mk2_post (hA.mulDown _ _ _ _ hx.lo hx.lo (mulOk_self a)) (hA.mulUp _ _ _ _ hx.up hx.up (mulOk_self b))
      (isGLB_of ?_ XL) (isLUB_of ?_ XU)
    · rintro _ ⟨r, hr, rfl⟩
      rw [coe_sq]; exact mul_self_le h2.le (hx.lb hr)
    · rintro _ ⟨r, hr, rfl⟩
      rw [coe_sq]; exact mul_self_le (h2.le.trans (hx.lb hr)) (hx.ub hr)
  · have hb := not_lt.1 h1
    have ha := not_lt.1 h2
    have h0 : (0 : ℝ) ∈ γ x := (mem_zero_iff hx).2 ⟨ha, hb⟩
    have G : IsGLB (E ((fun r => r ^ 2) '' γ x)) 0 := by
      refine isGLB_of ?_ (subset_closure ⟨0, ⟨0, h0, by simp⟩, by simp⟩)
      rintro _ ⟨r, _, rfl⟩
      exact_mod_cast sq_nonneg r
    refine Post.bind (Q := fun nl => val nl = some (-a)) (Post.ofOpt (fun nl hnl => ?_) fun ht => hA.neg ht _) fun nl hnl => ?_
    · rw [NumLaws.neg _ _ hnl, hx.lo]; rfl
    rw [lt_eq hx.up hnl]
    have key : ∀ {r : ℝ}, r ∈ γ x → ((r ^ 2 : ℝ) : EReal) ≤ max (a * a) (b * b) := by
      intro r hr
      rw [coe_sq]
      rcases le_total 0 r with h | h
      · exact (mul_self_le (by exact_mod_cast h) (hx.ub hr)).trans (le_max_right _ _)
      · exact (mul_self_le' (by exact_mod_cast h) (hx.lb hr)).trans (le_max_left _ _)
    by_cases h3 : b < -a
    · simp only [h3, decide_true, if_true]
      have hm : b * b ≤ a * a := by
        have := mul_self_le hb h3.le
        rwa [neg_mul, mul_neg, neg_neg] at this
      refine (hA.mulUp _ _ _ _ hx.lo hx.lo (mulOk_self a)).bind fun u hu => ?_
      obtain ⟨z, hz, hzU⟩ := hu
      refine ⟨0, z, 0, a * a, val_zero, hz, G, isLUB_of ?_ XL, hA.D_exact _ _ val_zero, hzU⟩
      rintro _ ⟨r, hr, rfl⟩
      exact (key hr).trans (max_le le_rfl hm)
    · simp only [h3, decide_false, Bool.false_eq_true, if_false]
      have hm : a * a ≤ b * b := by
        have := mul_self_le (p := -a) (q := b) (by simpa using ha) (not_lt.1 h3)
        rwa [neg_mul, mul_neg, neg_neg] at this
      refine (hA.mulUp _ _ _ _ hx.up hx.up (mulOk_self b)).bind fun u hu => ?_
      obtain ⟨z, hz, hzU⟩ := hu
      refine ⟨0, z, 0, b * b, val_zero, hz, G, isLUB_of ?_ XU, hA.D_exact _ _ val_zero, hzU⟩
      rintro _ ⟨r, hr, rfl⟩
      exact (key hr).trans (max_le hm le_rfl)

/-! ## Square root -/

theorem esqrt_coe (r : ℝ) : esqrt (r : EReal) = (Real.sqrt r : ℝ) := rfl

theorem esqrt_mono {p q : EReal} (h : p ≤ q) : esqrt p ≤ esqrt q := by
  induction p with
  | bot =>
    change (0 : EReal) ≤ _
    induction q with
    | bot => exact le_rfl
    | top => exact le_top
    | coe q => rw [esqrt_coe]; exact_mod_cast Real.sqrt_nonneg q
  | top => rw [top_le_iff.1 h]
  | coe p =>
    induction q with
    | bot => exact absurd h (by simp)
    | top => exact le_top
    | coe q => rw [esqrt_coe, esqrt_coe]; exact_mod_cast Real.sqrt_le_sqrt (by exact_mod_cast h)

/-- The points in the domain. -/
theorem sqrt_cl (hx : Has x a b) (hb : 0 ≤ b) : esqrt b ∈ closure (E (Real.sqrt '' {r | r ∈ γ x ∧ 0 ≤ r})) := by
  rw [hx.gamma]
  induction b with
  | bot => exact absurd rfl hx.ne_bot
  | coe b =>
    exact subset_closure ⟨_, ⟨b, ⟨⟨hx.le, le_rfl⟩, by exact_mod_cast hb⟩, rfl⟩, rfl⟩
  | top =>
    change (⊤ : EReal) ∈ _
    obtain ⟨r₀, h₀⟩ := hx.exists_mem
    have hlub : IsLUB (E (Real.sqrt '' {r | r ∈ RI a ⊤ ∧ 0 ≤ r})) ⊤ := by
      refine ⟨fun _ _ => le_top, fun w hw => ?_⟩
      have hm : ∀ v : ℝ, 0 ≤ v → ((Real.sqrt (max |r₀| (v ^ 2)) : ℝ) : EReal) ≤ w := fun v hv =>
        hw ⟨_, ⟨_, ⟨⟨h₀.1.trans (by exact_mod_cast (le_abs_self r₀).trans (le_max_left _ _)), le_top⟩,
          (abs_nonneg r₀).trans (le_max_left _ _)⟩, rfl⟩, rfl⟩
      induction w with
      | top => exact le_rfl
      | bot => exact absurd (hm 0 le_rfl) (by simp)
      | coe w =>
        have h1 := hm (|w| + 1) (by positivity)
        have h2 : Real.sqrt (max |r₀| ((|w| + 1) ^ 2)) ≤ w := by exact_mod_cast h1
        have h3 : |w| + 1 ≤ Real.sqrt (max |r₀| ((|w| + 1) ^ 2)) :=
          Real.le_sqrt_of_sq_le (le_max_right _ _)
        have := le_abs_self w
        linarith
    refine hlub.mem_closure ⟨_, ⟨_, ⟨|r₀|, ⟨⟨h₀.1.trans (by exact_mod_cast le_abs_self r₀), le_top⟩, abs_nonneg _⟩,
      rfl⟩, rfl⟩⟩

theorem sqrtI_post (hA : OpLaws tot D U B) (hS : SqrtLaws tot D U B) (hC : ChkLaws C) (hx : Has x a b) (hb : 0 ≤ b) :
    Post tot (sqrtI (purePolicies B C) x) (Bnd D U (Real.sqrt '' {r | r ∈ γ x ∧ 0 ≤ r})) := by
  unfold sqrtI
  rw [pure_chk, hx.test hC]
  change Post tot (if (false || isNeg x.upper) = true then _ else _) _
  rw [isNeg_eq hx.up]
  simp only [not_lt.2 hb, decide_false, Bool.or_false, Bool.false_eq_true, if_false]
  rw [pure_scope, pure_rnd, isPos_eq hx.lo]
  have L : IsLUB (E (Real.sqrt '' {r | r ∈ γ x ∧ 0 ≤ r})) (esqrt b) := by
    refine isLUB_of ?_ (sqrt_cl hx hb)
    rintro _ ⟨r, ⟨hr, _⟩, rfl⟩
    exact esqrt_mono (hx.ub hr)
  by_cases h1 : 0 < a
  · have G : IsGLB (E (Real.sqrt '' {r | r ∈ γ x ∧ 0 ≤ r})) (esqrt a) := by
      refine isGLB_of ?_ (subset_closure ?_)
      · rintro _ ⟨r, ⟨hr, _⟩, rfl⟩
        exact esqrt_mono (hx.lb hr)
      · have hne := hx.ne_top
        have hlo := hx.lo
        rw [hx.gamma]
        have hle := hx.le
        clear hlo hx
        induction a with
        | bot => exact absurd h1 (by simp)
        | top => exact absurd rfl hne
        | coe a => exact ⟨_, ⟨a, ⟨⟨le_rfl, hle⟩, by exact_mod_cast h1.le⟩, rfl⟩, rfl⟩
    simp only [h1, decide_true, Bool.not_true, Bool.false_eq_true, if_false]
    refine (hS.sqrtDown _ _ hx.lo h1.le).bind fun l hl => (hS.sqrtUp _ _ hx.up hb).bind fun u hu => ?_
    obtain ⟨l', hl, hl'⟩ := hl
    obtain ⟨u', hu, hu'⟩ := hu
    exact ⟨l', u', _, _, hl, hu, G, L, hl', hu'⟩
  · have G : IsGLB (E (Real.sqrt '' {r | r ∈ γ x ∧ 0 ≤ r})) 0 := by
      refine isGLB_of ?_ (subset_closure ⟨0, ⟨0, ⟨(mem_zero_iff hx).2 ⟨not_lt.1 h1, hb⟩, le_rfl⟩, by simp⟩, by simp⟩)
      rintro _ ⟨r, _, rfl⟩
      exact_mod_cast Real.sqrt_nonneg r
    simp only [h1, decide_false, Bool.not_false, if_true]
    refine Post.bind (Q := fun l => val l = some (0 : EReal)) (Post.pure val_zero) fun l hl => ?_
    refine (hS.sqrtUp _ _ hx.up hb).bind fun u hu => ?_
    obtain ⟨u', hu, hu'⟩ := hu
    exact ⟨0, u', _, _, hl, hu, G, L, hA.D_exact _ _ val_zero, hu'⟩

theorem sqrtI_neg (hC : ChkLaws C) (hx : Has x a b) (hb : b < 0) : sqrtI (purePolicies B C) x = emptyI C := by
  unfold sqrtI
  rw [pure_chk, hx.test hC]
  change (if (false || isNeg x.upper) = true then _ else _) = _
  rw [isNeg_eq hx.up]
  simp [hb]
  rfl

/-! ## Inverse -/

theorem lit1_not_zero : isZero (Num.lit 1 : T) = false := by rw [isZero_eq val_one]; simp
theorem lit1_not_neg : isNeg (Num.lit 1 : T) = false := by rw [isNeg_eq val_one]; simp

/-- The inverse is the quotient of one. -/
theorem multInv_eq (hC : ChkLaws C) (hx : Has x a b) :
    multInv (purePolicies B C) x = divTI (purePolicies B C) (Num.lit 1) x := by
  unfold multInv divTI
  rw [pure_chk, res_if_false (hx.test hC), res_if_false (testTI_ok hC val_one hx), pure_scope]
  rw [res_if (zeroIn_eq hC hx), res_if (zeroIn_eq hC hx)]
  unfold divZeroT divNegativeT divPositiveT divNonZeroTI
  simp only [pure_scope, pure_chk, lit1_not_zero, lit1_not_neg, Bool.false_eq_true, if_false]

/-! ## Two-part division -/

/-- The points of `y` that are not negative. -/
theorem has_pos_part (hy : Has y c d) (hc : c ≤ 0) (hd : 0 ≤ d) : Has (⟨Num.lit 0, y.upper⟩ : Itv T) 0 d :=
  ⟨val_zero, hy.up, by simp, hy.ne_bot, hd⟩

theorem has_neg_part (hy : Has y c d) (hc : c ≤ 0) : Has (⟨y.lower, Num.lit 0⟩ : Itv T) c 0 :=
  ⟨hy.lo, val_zero, hy.ne_top, by simp, hc⟩

theorem mem_pos_part (hy : Has y c d) (hc : c ≤ 0) (hd : 0 ≤ d) {r : ℝ} :
    r ∈ γ (⟨Num.lit 0, y.upper⟩ : Itv T) ↔ r ∈ γ y ∧ 0 ≤ r := by
  rw [(has_pos_part hy hc hd).gamma, hy.gamma]
  constructor
  · rintro ⟨h1, h2⟩; exact ⟨⟨hc.trans h1, h2⟩, by exact_mod_cast h1⟩
  · rintro ⟨⟨_, h2⟩, h1⟩; exact ⟨by exact_mod_cast h1, h2⟩

theorem mem_neg_part (hy : Has y c d) (hc : c ≤ 0) (hd : 0 ≤ d) {r : ℝ} :
    r ∈ γ (⟨y.lower, Num.lit 0⟩ : Itv T) ↔ r ∈ γ y ∧ r ≤ 0 := by
  rw [(has_neg_part hy hc).gamma, hy.gamma]
  constructor
  · rintro ⟨h1, h2⟩; exact ⟨⟨h1, h2.trans hd⟩, by exact_mod_cast h2⟩
  · rintro ⟨⟨h1, _⟩, h2⟩; exact ⟨h1, by exact_mod_cast h2⟩

/-- The quotients of one sign. -/
theorem quot_part {X Y Z : Set ℝ} {P : ℝ → Prop} (h : ∀ r ∈ X, ∀ s ∈ Y, s ≠ 0 → (s ∈ Z → P (r / s)) ∧
      (s ∉ Z → P (r / s) → ∃ s' ∈ Z, s' ≠ 0 ∧ r / s = r / s')) (hZ : Z ⊆ Y) :
    quot X Z = {q | q ∈ quot X Y ∧ P q} := by
  ext q
  constructor
  · rintro ⟨r, hr, s, hs, h0, rfl⟩
    exact ⟨⟨r, hr, s, hZ hs, h0, rfl⟩, (h r hr s (hZ hs) h0).1 hs⟩
  · rintro ⟨⟨r, hr, s, hs, h0, rfl⟩, hP⟩
    by_cases hz : s ∈ Z
    · exact ⟨r, hr, s, hz, h0, rfl⟩
    · obtain ⟨s', h1, h2, h3⟩ := (h r hr s hs h0).2 hz hP
      exact ⟨r, hr, s', h1, h2, h3⟩

/-- What `division_part1` and `division_part2` return when zero is inside the divisor and the dividend lies on one side
of zero. -/
theorem divParts_post (hA : OpLaws tot D U B) (hV : DivLaws tot D U B) (hI : InfLaws C) (hC : ChkLaws C)
    (hx : Has x a b) (hy : Has y c d) (hc : c < 0) (hd : 0 < d) (hz : ¬ (a = 0 ∧ b = 0)) (hs : b < 0 ∨ 0 ≤ a) :
    Post tot (divisionPart1 (purePolicies B C) x y)
      (fun p => p.2 = true ∧ Bnd D U {q | q ∈ quot (γ x) (γ y) ∧ q ≤ 0} p.1) ∧
    Post tot (divisionPart2 (purePolicies B C) x y true) (Bnd D U {q | q ∈ quot (γ x) (γ y) ∧ 0 ≤ q}) := by
  have hP := has_pos_part hy hc.le hd.le
  have hN := has_neg_part hy hc.le
  have hPm := fun r => mem_pos_part hy hc.le hd.le (r := r)
  have hNm := fun r => mem_neg_part hy hc.le hd.le (r := r)
  have hne : ¬ ((0 : EReal) = 0 ∧ d = 0) := fun h => hd.ne' h.2
  have e1 : divisionPart1 (purePolicies B C) x y = divZeroPart1 (purePolicies B C) x y := by
    unfold divisionPart1
    rw [pure_chk, res_if_false (hx.test2 hC hy), res_if (zeroIn_eq hC hy), isZero_eq hy.lo, isZero_eq hy.up]
    simp [hc.le, hd.le, hc.ne, hd.ne']
  have e2 : divisionPart2 (purePolicies B C) x y true = divZeroPart2 (purePolicies B C) x y := rfl
  obtain ⟨⟨p, hp, hp'⟩, ⟨n, hn, hn'⟩⟩ := both_points hy hc hd
  have hpP : p ∈ γ (⟨Num.lit 0, y.upper⟩ : Itv T) := (hPm p).2 ⟨hp' p hp le_rfl, hp.le⟩
  have hnN : n ∈ γ (⟨y.lower, Num.lit 0⟩ : Itv T) := (hNm n).2 ⟨hn' n hn le_rfl, hn.le⟩
  have hz' : (isZero x.lower && isZero x.upper) = false := by
    rw [isZero_eq hx.lo, isZero_eq hx.up]
    by_cases h : a = 0
    · have : b ≠ 0 := fun h' => hz ⟨h, h'⟩
      simp [this]
    · simp [h]
  rcases hs with hs | hs
  · have hg : ¬ DivGap a b := fun h => hs.ne h.2
    have f1 : divZeroPart1 (purePolicies B C) x y =
        (do let r ← divPositiveI (purePolicies B C) x y.upper; pure (r, true)) := by
      unfold divZeroPart1 divPositiveI
      simp only [hz', pure_scope, isNeg_eq hx.up, hs, decide_true, if_true, Bool.false_eq_true, if_false]
    have f2 : divZeroPart2 (purePolicies B C) x y = divNegativeI (purePolicies B C) x y.lower := by
      unfold divZeroPart2 divNegativeI
      simp only [hz', pure_scope, isNeg_eq hx.up, hs, decide_true, if_true, Bool.false_eq_true, if_false]
    have k1 := divPositiveI_post hA hV hI hx hP hd hg
    have k2 := divNegativeI_post hA hV hI hx hN hc hg
    have hxn : ∀ r ∈ γ x, r < 0 := fun r hr => by exact_mod_cast lt_of_le_of_lt (hx.ub hr) hs
    rw [quot_part (Y := γ y) (P := fun q => q ≤ 0) (fun r hr s hs h0 =>
      ⟨fun h => (div_neg_of_neg_of_pos (hxn r hr) (lt_of_le_of_ne ((hPm s).1 h).2 (Ne.symm h0))).le, fun h h' => ?_⟩)
      (fun r hr => ((hPm r).1 hr).1)] at k1
    · rw [quot_part (Y := γ y) (P := fun q => 0 ≤ q) (fun r hr s hs h0 =>
        ⟨fun h => (div_pos_of_neg_of_neg (hxn r hr) (lt_of_le_of_ne ((hNm s).1 h).2 h0)).le, fun h h' => ?_⟩)
        (fun r hr => ((hNm r).1 hr).1)] at k2
      · refine ⟨?_, ?_⟩
        · rw [e1, f1]
          exact k1.bind fun z hz => Post.pure ⟨rfl, hz⟩
        · rw [e2, f2]; exact k2
      · have : ¬ s ≤ 0 := fun h1 => h ((hNm s).2 ⟨hs, h1⟩)
        have := div_neg_of_neg_of_pos (hxn r hr) (not_le.1 this)
        exact absurd h' (not_le.2 this)
    · have : ¬ 0 ≤ s := fun h1 => h ((hPm s).2 ⟨hs, h1⟩)
      have := div_pos_of_neg_of_neg (hxn r hr) (not_le.1 this)
      exact absurd h' (not_le.2 this)
  · have hg : ¬ DivGap a b := fun h => absurd h.1 (not_lt.2 hs)
    have hb : ¬ b < 0 := not_lt.2 (hs.trans hx.le)
    have f1 : divZeroPart1 (purePolicies B C) x y =
        (do let r ← divNegativeI (purePolicies B C) x y.lower; pure (r, true)) := by
      unfold divZeroPart1 divNegativeI
      simp only [hz', pure_scope, isNeg_eq hx.up, isNeg_eq hx.lo, not_lt.2 hs, hb, decide_false, Bool.false_eq_true,
        if_false]
    have f2 : divZeroPart2 (purePolicies B C) x y = divPositiveI (purePolicies B C) x y.upper := by
      unfold divZeroPart2 divPositiveI
      simp only [hz', pure_scope, isNeg_eq hx.up, isNeg_eq hx.lo, not_lt.2 hs, hb, decide_false, Bool.false_eq_true,
        if_false]
    have k1 := divNegativeI_post hA hV hI hx hN hc hg
    have k2 := divPositiveI_post hA hV hI hx hP hd hg
    have hxn : ∀ r ∈ γ x, 0 ≤ r := fun r hr => by exact_mod_cast hs.trans (hx.lb hr)
    rw [quot_part (Y := γ y) (P := fun q => q ≤ 0) (fun r hr s hs h0 =>
      ⟨fun h => div_nonpos_of_nonneg_of_nonpos (hxn r hr) ((hNm s).1 h).2, fun h h' => ?_⟩)
      (fun r hr => ((hNm r).1 hr).1)] at k1
    · rw [quot_part (Y := γ y) (P := fun q => 0 ≤ q) (fun r hr s hs h0 =>
        ⟨fun h => div_nonneg (hxn r hr) ((hPm s).1 h).2, fun h h' => ?_⟩)
        (fun r hr => ((hPm r).1 hr).1)] at k2
      · refine ⟨?_, ?_⟩
        · rw [e1, f1]
          exact k1.bind fun z hz => Post.pure ⟨rfl, hz⟩
        · rw [e2, f2]; exact k2
      · have h1 : ¬ 0 ≤ s := fun h1 => h ((hPm s).2 ⟨hs, h1⟩)
        have h2 := div_nonpos_of_nonneg_of_nonpos (hxn r hr) (not_le.1 h1).le
        have h3 : r / s = 0 := le_antisymm h2 h'
        have h4 : r = 0 := by rcases div_eq_zero_iff.1 h3 with h | h; exacts [h, absurd h h0]
        exact ⟨p, hpP, hp.ne', by simp [h4]⟩
    · have h1 : ¬ s ≤ 0 := fun h1 => h ((hNm s).2 ⟨hs, h1⟩)
      have h2 := div_nonneg (hxn r hr) (not_le.1 h1).le
      have h3 : r / s = 0 := le_antisymm h' h2
      have h4 : r = 0 := by rcases div_eq_zero_iff.1 h3 with h | h; exacts [h, absurd h h0]
      exact ⟨n, hnN, hn.ne, by simp [h4]⟩

/-- In the other cases the first part is the quotient. -/
theorem divPart1_eq (hC : ChkLaws C) (hx : Has x a b) (hy : Has y c d)
    (h : ¬ (c < 0 ∧ 0 < d ∧ ¬ (a = 0 ∧ b = 0) ∧ (b < 0 ∨ 0 ≤ a))) :
    divisionPart1 (purePolicies B C) x y = (do let r ← divII (purePolicies B C) x y; pure (r, false)) := by
  unfold divisionPart1 divII
  rw [pure_chk, res_if_false (hx.test2 hC hy), res_if (zeroIn_eq hC hy), res_if_false (hx.test2 hC hy),
    res_if (zeroIn_eq hC hy)]
  by_cases h0 : c ≤ 0 ∧ 0 ≤ d
  · simp only [h0, and_self, decide_true, if_true, isZero_eq hy.lo, isZero_eq hy.up]
    by_cases h1 : c = 0 <;> by_cases h2 : d = 0
    all_goals simp only [h1, h2, decide_true, decide_false, Bool.not_true, Bool.not_false, Bool.false_eq_true, if_true,
      if_false]
    have hc := lt_of_le_of_ne h0.1 h1
    have hd := lt_of_le_of_ne h0.2 (Ne.symm h2)
    unfold divZeroPart1 divZeroI
    simp only [isZero_eq hx.lo, isZero_eq hx.up, pure_scope, isNeg_eq hx.up, isNeg_eq hx.lo]
    by_cases hz : a = 0 ∧ b = 0
    · simp [hz.1, hz.2]
    · have h3 : ¬ (b < 0 ∨ 0 ≤ a) := fun h4 => h ⟨hc, hd, hz, h4⟩
      push Not at h3
      have hz' : (decide (a = 0) && decide (b = 0)) = false := by simp [h3.2.ne]
      simp only [hz', not_lt.2 h3.1, h3.2, decide_true, decide_false, Bool.false_eq_true, if_true, if_false]
  · simp only [h0, decide_false, Bool.false_eq_true, if_false]

end
end BI
