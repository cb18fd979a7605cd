import Verif.Proofs.Instances
/-! # The midpoint formula -/

set_option linter.unusedSectionVars false

namespace BI
variable {f : Fmt}

theorem Rep.of_val {a : Fl f} {x : ℝ} (h : val a = some (x : EReal)) : ∃ q : ℚ, Rep f q ∧ x = q := by
  rcases (representable_iff (f := f) (x : EReal)).1 ⟨a, h⟩ with h | h | ⟨q, hq, h⟩
  · exact absurd h (EReal.coe_ne_bot _)
  · exact absurd h (EReal.coe_ne_top _)
  · exact ⟨q, hq, by exact_mod_cast h⟩

theorem rep_double {q : ℚ} (h : Rep f q) (hb : |2 * q| ≤ maxFin f) : Rep f (2 * q) := by
  obtain ⟨m, e, h1, h2, h3, rfl⟩ := h
  by_cases he : e = f.emax
  · -- the significand is small
    subst he
    refine ⟨2 * m, f.emax, ?_, h2, h3, by push_cast; ring⟩
    unfold maxFin at hb
    rw [← mul_assoc, abs_mul, abs_of_pos (two_zpow_pos (K := ℚ) f.emax),
      mul_le_mul_iff_left₀ (two_zpow_pos (K := ℚ) f.emax)] at hb
    have : |2 * m| ≤ 2 ^ f.p - 1 := by exact_mod_cast hb
    omega
  · refine ⟨m, e + 1, h1, by omega, by omega, ?_⟩
    rw [zpow_add_one₀ two_ne_zero]; ring

theorem val_real {z : EReal} {m : ℝ} (h1 : ((-m : ℝ) : EReal) ≤ z) (h2 : z ≤ (m : EReal)) :
    ∃ s : ℝ, z = s ∧ -m ≤ s ∧ s ≤ m := by
  have hb : z ≠ ⊥ := fun h => by rw [h] at h1; exact absurd (le_bot_iff.1 h1) (EReal.coe_ne_bot _)
  have ht : z ≠ ⊤ := fun h => by rw [h] at h2; exact absurd (top_le_iff.1 h2) (EReal.coe_ne_top _)
  lift z to ℝ using ⟨ht, hb⟩
  exact ⟨z, rfl, by exact_mod_cast h1, by exact_mod_cast h2⟩

/-- Between the operands unless the sum overflows. -/
theorem fl_mid (r : RMode) {a b : Fl f} {x y : ℝ} (ha : val a = some (x : EReal)) (hb : val b = some (y : EReal))
    (hxy : x ≤ y) (hs : |x + y| ≤ (maxFin f : ℝ)) :
    ∃ c, ∃ z : ℝ, halfSum r a b = some c ∧ val c = some (z : EReal) ∧ x ≤ z ∧ z ≤ y := by
  obtain ⟨s, hs1, hs2⟩ := add_rounds r ha hb ⟨.inl (EReal.coe_ne_top _), .inl (EReal.coe_ne_bot _)⟩
  have hM : ((maxFin f : ℝ) : EReal) = (((maxFin f : ℚ) : ℝ) : EReal) := rfl
  have rM : Representable (Fl f) ((maxFin f : ℝ) : EReal) := (representable_iff _).2 (.inr (.inr ⟨_, rep_maxFin f, rfl⟩))
  have rM' : Representable (Fl f) ((-(maxFin f : ℝ) : ℝ) : EReal) :=
    (representable_iff _).2 (.inr (.inr ⟨_, rep_neg (rep_maxFin f), by push_cast; rfl⟩))
  rw [abs_le] at hs
  obtain ⟨s, rfl, hl, hu⟩ := val_real (hs2.lo _ rM' (by exact_mod_cast hs.1)) (hs2.up _ rM (by exact_mod_cast hs.2))
  obtain ⟨p, hp, rfl⟩ := Rep.of_val ha
  obtain ⟨q, hq, rfl⟩ := Rep.of_val hb
  have h2 : val (Num.lit 2 : Fl f) = some ((2 : ℝ) : EReal) := by
    have := NumLaws.lit (T := Fl f) 2 (by norm_num); exact_mod_cast this
  have hlo : 2 * (p : ℝ) ≤ s := by
    by_cases hc : |2 * p| ≤ maxFin f
    · have h := hs2.lo ((2 * p : ℚ) : ℝ) ((representable_iff _).2 (.inr (.inr ⟨_, rep_double hp hc, rfl⟩)))
        (by have : ((2 * p : ℚ) : ℝ) ≤ p + q := by push_cast; linarith
            exact_mod_cast this)
      have : ((2 * p : ℚ) : ℝ) ≤ s := by exact_mod_cast h
      push_cast at this; exact this
    · rw [not_le, lt_abs] at hc
      rcases hc with hc | hc
      · have : (maxFin f : ℝ) < 2 * p := by exact_mod_cast hc
        linarith [hs.2]
      · have : (maxFin f : ℝ) < -(2 * p) := by exact_mod_cast hc
        linarith
  have hup : s ≤ 2 * (q : ℝ) := by
    by_cases hc : |2 * q| ≤ maxFin f
    · have h := hs2.up ((2 * q : ℚ) : ℝ) ((representable_iff _).2 (.inr (.inr ⟨_, rep_double hq hc, rfl⟩)))
        (by have : (p + q : ℝ) ≤ ((2 * q : ℚ) : ℝ) := by push_cast; linarith
            exact_mod_cast this)
      have : s ≤ ((2 * q : ℚ) : ℝ) := by exact_mod_cast h
      push_cast at this; exact this
    · rw [not_le, lt_abs] at hc
      rcases hc with hc | hc
      · have : (maxFin f : ℝ) < 2 * q := by exact_mod_cast hc
        linarith [hs.2]
      · have : (maxFin f : ℝ) < -(2 * q) := by exact_mod_cast hc
        linarith [hs.1]
  obtain ⟨z, hz1, hz2⟩ := div_rounds r hs1 h2 ⟨by exact_mod_cast (two_ne_zero : (2 : ℝ) ≠ 0),
    .inl ⟨EReal.coe_ne_bot _, EReal.coe_ne_top _⟩⟩
  rw [← EReal.coe_div] at hz2
  have k1 := hz2.lo (p : ℝ) ((representable_iff _).2 (.inr (.inr ⟨_, hp, rfl⟩)))
    (by have : (p : ℝ) ≤ s / 2 := by linarith
        exact_mod_cast this)
  have k2 := hz2.up (q : ℝ) ((representable_iff _).2 (.inr (.inr ⟨_, hq, rfl⟩)))
    (by have : s / 2 ≤ (q : ℝ) := by linarith
        exact_mod_cast this)
  have hb : z ≠ ⊥ := fun h => by rw [h] at k1; exact absurd (le_bot_iff.1 k1) (EReal.coe_ne_bot _)
  have ht : z ≠ ⊤ := fun h => by rw [h] at k2; exact absurd (top_le_iff.1 k2) (EReal.coe_ne_top _)
  lift z to ℝ using ⟨ht, hb⟩
  exact ⟨_, z, rfl, hz1, by exact_mod_cast k1, by exact_mod_cast k2⟩

theorem rat_mid (r : RMode) (a b : ℚ) (h : a ≤ b) :
    ∃ c, ∃ z : ℝ, halfSum r a b = some c ∧ val c = some (z : EReal) ∧ (a : ℝ) ≤ z ∧ z ≤ (b : ℝ) := by
  refine ⟨(a + b) / 2, (((a + b) / 2 : ℚ) : ℝ), ?_, rfl, ?_, ?_⟩
  · change (Option.some (a + b)).bind (fun s => if ((2 : ℤ) : ℚ) = 0 then none else some (s / ((2 : ℤ) : ℚ))) = _
    norm_num
  · have : a ≤ (a + b) / 2 := by linarith
    exact_mod_cast this
  · have : (a + b) / 2 ≤ b := by linarith
    exact_mod_cast this

end BI
