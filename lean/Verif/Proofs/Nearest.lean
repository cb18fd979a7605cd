import Verif.Proofs.Median
/-! # Rounding to nearest gives a closest number, and so does the midpoint formula -/

set_option linter.unusedSectionVars false

namespace BI.Near
open BI
variable {f : Fmt}

theorem roundInt_near (t : ℝ) (n : ℤ) : |(roundInt .near t : ℝ) - t| ≤ |(n : ℝ) - t| := by
  have h1 := Int.floor_le t
  have h2 := Int.lt_floor_add_one t
  have key : |(roundInt .near t : ℝ) - t| ≤ t - ⌊t⌋ ∧ |(roundInt .near t : ℝ) - t| ≤ ⌊t⌋ + 1 - t := by
    unfold roundInt
    dsimp only
    split_ifs with a b c
    · rw [abs_sub_comm, abs_of_nonneg (by linarith)]; exact ⟨le_rfl, by linarith⟩
    · push_cast; rw [abs_of_nonneg (by linarith)]; exact ⟨by linarith, le_rfl⟩
    · rw [abs_sub_comm, abs_of_nonneg (by linarith)]; exact ⟨le_rfl, by linarith⟩
    · push_cast; rw [abs_of_nonneg (by linarith)]; exact ⟨by linarith, le_rfl⟩
  rcases le_or_gt n ⌊t⌋ with h | h
  · have : (n : ℝ) ≤ ⌊t⌋ := by exact_mod_cast h
    rw [abs_sub_comm (n : ℝ), abs_of_nonneg (by linarith : 0 ≤ t - n)]
    linarith [key.1]
  · have : (⌊t⌋ : ℝ) + 1 ≤ n := by exact_mod_cast h
    rw [abs_of_nonneg (by linarith : 0 ≤ (n : ℝ) - t)]
    linarith [key.2]

theorem scaled (x : ℝ) (n : ℤ) : |(roundUnb f .near x : ℝ) - x| ≤ |((n * (2 : ℚ) ^ ulpExp f x : ℚ) : ℝ) - x| := by
  have h := roundInt_near (x / (2 : ℝ) ^ ulpExp f x) n
  have hp := two_zpow_pos (K := ℝ) (ulpExp f x)
  have e : ∀ k : ℤ, |((k * (2 : ℚ) ^ ulpExp f x : ℚ) : ℝ) - x| =
      |(k : ℝ) - x / (2 : ℝ) ^ ulpExp f x| * (2 : ℝ) ^ ulpExp f x := fun k => by
    rw [← abs_of_pos hp, ← abs_mul, abs_of_pos hp, sub_mul, div_mul_cancel₀ _ hp.ne']
    push_cast; rfl
  have := mul_le_mul_of_nonneg_right h hp.le
  rw [← e, ← e] at this
  exact this

theorem roundUnb_near {x : ℝ} (hx : x ≠ 0) {y : ℚ} (hy : Rep f y) : |(roundUnb f .near x : ℝ) - x| ≤ |(y : ℝ) - x| := by
  rcases le_total (y : ℝ) x with h | h
  · have h1 : (y : ℝ) ≤ roundUnb f .down x := by exact_mod_cast le_roundUnb .down hx hy h
    have h2 := roundUnb_down_le (f := f) x
    have h3 : |(roundUnb f .near x : ℝ) - x| ≤ |(roundUnb f .down x : ℝ) - x| :=
      scaled x (roundInt .down (x / (2 : ℝ) ^ ulpExp f x))
    refine h3.trans ?_
    rw [abs_sub_comm, abs_sub_comm (y : ℝ), abs_of_nonneg (sub_nonneg.2 h2), abs_of_nonneg (sub_nonneg.2 h)]
    linarith
  · have h1 : (roundUnb f .up x : ℝ) ≤ y := by exact_mod_cast roundUnb_le .up hx hy h
    have h2 := roundUnb_up_ge (f := f) x
    have h3 : |(roundUnb f .near x : ℝ) - x| ≤ |(roundUnb f .up x : ℝ) - x| :=
      scaled x (roundInt .up (x / (2 : ℝ) ^ ulpExp f x))
    refine h3.trans ?_
    rw [abs_of_nonneg (sub_nonneg.2 h2), abs_of_nonneg (sub_nonneg.2 h)]
    linarith

/-- A real number within the range of the format is rounded to one of the closest numbers. -/
theorem closest {x : ℝ} {a : Fl f} (h : Rounds f .near (x : EReal) a) (hx : |x| ≤ (maxFin f : ℝ)) :
    ∃ q : ℚ, val a = some ((q : ℝ) : EReal) ∧ Rep f q ∧ ∀ w : ℚ, Rep f w → |(q : ℝ) - x| ≤ |(w : ℝ) - x| := by
  obtain ⟨z, hz, hs⟩ := h
  have rM : Representable (Fl f) ((maxFin f : ℝ) : EReal) := (representable_iff _).2 (.inr (.inr ⟨_, rep_maxFin f, rfl⟩))
  have rM' : Representable (Fl f) ((-(maxFin f : ℝ) : ℝ) : EReal) :=
    (representable_iff _).2 (.inr (.inr ⟨_, rep_neg (rep_maxFin f), by push_cast; rfl⟩))
  rw [abs_le] at hx
  obtain ⟨z, rfl, -, -⟩ := val_real (hs.lo _ rM' (by exact_mod_cast hx.1)) (hs.up _ rM (by exact_mod_cast hx.2))
  obtain ⟨q, hq, rfl⟩ := Rep.of_val hz
  refine ⟨q, hz, hq, fun w hw => ?_⟩
  by_cases h0 : x = 0
  · have h1 := hs.lo (0 : ℝ) ((representable_iff _).2 (.inr (.inr ⟨0, rep_zero, by simp⟩))) (by rw [h0])
    have h2 := hs.up (0 : ℝ) ((representable_iff _).2 (.inr (.inr ⟨0, rep_zero, by simp⟩))) (by rw [h0])
    have e : (q : ℝ) = 0 := le_antisymm (by exact_mod_cast h2) (by exact_mod_cast h1)
    rw [e, h0]; simp
  · have e := hs.eq
    have e2 := eround_rnd (f := f) .near false x
    have l1 : roundUnb f .near x ≤ maxFin f := roundUnb_le _ h0 (rep_maxFin f) hx.2
    have l2 : -maxFin f ≤ roundUnb f .near x := le_roundUnb _ h0 (rep_neg (rep_maxFin f)) (by push_cast; exact hx.1)
    rw [← e, val_rnd, if_pos l1, if_pos l2] at e2
    have e3 : (roundUnb f .near x : ℝ) = q := by exact_mod_cast Option.some.inj e2
    rw [← e3]
    exact roundUnb_near h0 hw

/-- Numbers of the format are multiples of the smallest one. -/
theorem rep_mult {q : ℚ} (h : Rep f q) : ∃ m : ℤ, q = m * (2 : ℚ) ^ f.emin := by
  obtain ⟨m, e, -, h2, -, rfl⟩ := h
  obtain ⟨k, rfl⟩ := Int.le.dest h2
  refine ⟨m * 2 ^ k, ?_⟩
  rw [zpow_add₀ two_ne_zero]; push_cast; rw [zpow_natCast]; ring

/-- Half of a number that is not among the smallest is a number. -/
theorem rep_half {q : ℚ} (h : Rep f q) (hl : 2 ^ f.p * (2 : ℚ) ^ f.emin ≤ |q|) : Rep f (q / 2) := by
  obtain ⟨m, e, h1, h2, h3, rfl⟩ := h
  rcases eq_or_lt_of_le h2 with rfl | h2
  · rw [abs_mul, abs_of_pos (two_zpow_pos (K := ℚ) f.emin), mul_le_mul_iff_left₀ (two_zpow_pos (K := ℚ) f.emin)] at hl
    have : (2 : ℤ) ^ f.p ≤ |m| := by exact_mod_cast hl
    omega
  · refine ⟨m, e - 1, h1, by omega, by omega, ?_⟩
    rw [zpow_sub_one₀ two_ne_zero]; ring

/-- The midpoint formula, computed to nearest, gives one of the numbers closest to the midpoint, if the sum does not
overflow. -/
theorem halfSum_closest {a b : Fl f} {x y : ℝ} (ha : val a = some (x : EReal)) (hb : val b = some (y : EReal))
    (hs : |x + y| ≤ (maxFin f : ℝ)) : ∃ c, ∃ q : ℚ, halfSum .near a b = some c ∧ val c = some ((q : ℝ) : EReal) ∧ Rep f q ∧
      ∀ w : ℚ, Rep f w → |(q : ℝ) - (x + y) / 2| ≤ |(w : ℝ) - (x + y) / 2| := by
  obtain ⟨s, hs1, hs2, hs3⟩ := closest (add_rounds .near ha hb ⟨.inl (EReal.coe_ne_top _), .inl (EReal.coe_ne_bot _)⟩) hs
  have h2 : val (Num.lit 2 : Fl f) = some ((2 : ℝ) : EReal) := by
    have := NumLaws.lit (T := Fl f) 2 (by norm_num); exact_mod_cast this
  have hM : |(s : ℝ) / 2| ≤ (maxFin f : ℝ) := by
    have h : |(s : ℝ)| ≤ maxFin f := by exact_mod_cast rep_abs_le hs2
    rw [abs_div, abs_two]; linarith [abs_nonneg (s : ℝ)]
  have hd := div_rounds .near hs1 h2 ⟨by exact_mod_cast (two_ne_zero : (2 : ℝ) ≠ 0),
    .inl ⟨EReal.coe_ne_bot _, EReal.coe_ne_top _⟩⟩
  rw [← EReal.coe_div] at hd
  obtain ⟨q, hq1, hq2, hq3⟩ := closest hd hM
  refine ⟨_, q, rfl, hq1, hq2, fun w hw => ?_⟩
  obtain ⟨p, hp, rfl⟩ := Rep.of_val ha
  obtain ⟨r, hr, rfl⟩ := Rep.of_val hb
  obtain ⟨m, rfl⟩ := rep_mult hp
  obtain ⟨n, rfl⟩ := rep_mult hr
  have hb : |((m + n : ℤ) : ℚ) * 2 ^ f.emin| ≤ maxFin f := by
    have : |((((m + n : ℤ) : ℚ) * 2 ^ f.emin : ℚ) : ℝ)| ≤ maxFin f := by push_cast at hs ⊢; rw [add_mul]; exact hs
    exact_mod_cast this
  have hsum : ((m * (2 : ℚ) ^ f.emin : ℚ) : ℝ) + ((n * (2 : ℚ) ^ f.emin : ℚ) : ℝ) =
      ((((m + n : ℤ) : ℚ) * 2 ^ f.emin : ℚ) : ℝ) := by push_cast; ring
  dsimp only at hs3
  rw [hsum] at hs3 ⊢
  by_cases hmn : |m + n| < 2 ^ f.p
  · have hrep : Rep f (((m + n : ℤ) : ℚ) * 2 ^ f.emin) := ⟨m + n, f.emin, hmn, le_rfl, f.hmin.trans f.hmax, rfl⟩
    have := hs3 _ hrep
    rw [sub_self, abs_zero] at this
    have e := sub_eq_zero.1 (abs_eq_zero.1 (le_antisymm this (abs_nonneg _)))
    rw [← e]
    exact hq3 w hw
  · push Not at hmn
    set t : ℚ := ((m + n : ℤ) : ℚ) * 2 ^ f.emin with ht
    have hz := two_zpow_pos (K := ℚ) f.emin
    have ht' : 2 ^ f.p * (2 : ℚ) ^ f.emin ≤ |t| := by
      rw [ht, abs_mul, abs_of_pos hz, mul_le_mul_iff_left₀ hz]; exact_mod_cast hmn
    -- the threshold is a number of the format
    have hmax : f.emin < f.emax := by
      by_contra hc
      have he : f.emax = f.emin := le_antisymm (not_lt.1 hc) (f.hmin.trans f.hmax)
      have := ht'.trans hb
      unfold maxFin at this
      rw [he, mul_le_mul_iff_left₀ hz] at this
      have : (2 : ℤ) ^ f.p ≤ 2 ^ f.p - 1 := by exact_mod_cast this
      omega
    have hth : Rep f (2 ^ f.p * (2 : ℚ) ^ f.emin) := by
      refine ⟨2 ^ (f.p - 1), f.emin + 1, ?_, by omega, by omega, ?_⟩
      · rw [abs_of_pos (by positivity)]; exact pow_lt_pow_right₀ (by norm_num) (by have := f.hp; omega)
      · rw [zpow_add_one₀ two_ne_zero]
        have : (2 : ℚ) ^ f.p = 2 ^ (f.p - 1) * 2 := by rw [← pow_succ]; congr 1; have := f.hp; omega
        rw [this]; push_cast; ring
    have hs4 : 2 ^ f.p * (2 : ℚ) ^ f.emin ≤ |s| := by
      set θ : ℚ := 2 ^ f.p * (2 : ℚ) ^ f.emin
      obtain ⟨z, hz1, hz2⟩ := add_rounds .near ha ‹_› ⟨.inl (EReal.coe_ne_top _), .inl (EReal.coe_ne_bot _)⟩
      rw [hs1] at hz1
      cases hz1
      rw [← EReal.coe_add, hsum] at hz2
      rcases le_or_gt 0 t with h0 | h0
      · rw [abs_of_nonneg h0] at ht'
        have := hz2.lo (θ : ℝ) ((representable_iff _).2 (.inr (.inr ⟨_, hth, rfl⟩))) (by exact_mod_cast ht')
        have : θ ≤ s := by exact_mod_cast this
        exact this.trans (le_abs_self _)
      · rw [abs_of_neg h0] at ht'
        have := hz2.up ((-θ : ℚ) : ℝ) ((representable_iff _).2 (.inr (.inr ⟨_, rep_neg hth, rfl⟩)))
          (by have : t ≤ -θ := by linarith
              exact_mod_cast this)
        have : s ≤ -θ := by exact_mod_cast this
        exact (by linarith : θ ≤ -s).trans (neg_le_abs _)
    have hhalf := hq3 _ (rep_half hs2 hs4)
    have e : (q : ℝ) = s / 2 := by
      push_cast at hhalf
      rw [sub_self, abs_zero] at hhalf
      exact sub_eq_zero.1 (abs_eq_zero.1 (le_antisymm hhalf (abs_nonneg _)))
    have h2w : |(s : ℝ) - t| ≤ |2 * (w : ℝ) - t| := by
      by_cases hc : |2 * w| ≤ maxFin f
      · have := hs3 _ (rep_double hw hc); push_cast at this ⊢; exact this
      · have hbr : |(t : ℝ)| ≤ (maxFin f : ℝ) := by exact_mod_cast hb
        have k1 := hs3 _ (rep_maxFin f)
        have k2 := hs3 _ (rep_neg (rep_maxFin f))
        rw [abs_le] at hbr
        rw [not_le, lt_abs] at hc
        rcases hc with hc | hc
        · have hc : (maxFin f : ℝ) < 2 * w := by exact_mod_cast hc
          rw [abs_of_nonneg (by linarith : (0 : ℝ) ≤ 2 * w - t)]
          rw [abs_of_nonneg (by linarith : (0 : ℝ) ≤ maxFin f - t)] at k1
          linarith
        · have hc : (maxFin f : ℝ) < -(2 * w) := by exact_mod_cast hc
          rw [abs_sub_comm (2 * (w : ℝ)), abs_of_nonneg (by linarith : (0 : ℝ) ≤ t - 2 * w)]
          push_cast at k2
          rw [abs_sub_comm (-(maxFin f : ℝ)), abs_of_nonneg (by linarith : (0 : ℝ) ≤ t - -(maxFin f : ℝ))] at k2
          linarith
    have e1 : (s : ℝ) / 2 - t / 2 = (s - t) / 2 := by ring
    have e2 : (w : ℝ) - t / 2 = (2 * w - t) / 2 := by ring
    rw [e, e1, e2, abs_div, abs_div]
    exact div_le_div_of_nonneg_right h2w (abs_nonneg _)

end BI.Near
