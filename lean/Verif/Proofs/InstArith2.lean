import Verif.Proofs.Instances
import Verif.Proofs.EnclPow
/-! # Square roots and integer rounding of the floating-point formats and of the rationals -/

namespace BI
variable {f : Fmt}

/-- The integers next to a number of the format are numbers of the format. -/
theorem rep_roundInt (r : RMode) {q : ℚ} (hq : Rep f q) : Rep f (roundInt r q : ℤ) := by
  obtain ⟨m, e, hm, he, he', rfl⟩ := hq
  by_cases h0 : 0 ≤ e
  · obtain ⟨k, rfl⟩ := Int.eq_ofNat_of_zero_le h0
    have : (m : ℚ) * 2 ^ (k : ℤ) = ((m * 2 ^ k : ℤ) : ℚ) := by push_cast; rfl
    rw [this, roundInt_int, ← this]
    exact ⟨m, k, hm, he, he', rfl⟩
  · push Not at h0
    apply rep_int
    have hp := f.hp
    have h2 : (2 : ℚ) ^ e ≤ 1 / 2 := by
      calc (2 : ℚ) ^ e ≤ 2 ^ (-1 : ℤ) := zpow_le_zpow_right₀ (by norm_num) (by omega)
        _ = 1 / 2 := by norm_num
    have hpos : (0 : ℚ) < 2 ^ e := zpow_pos (by norm_num) e
    have hmq : |(m : ℚ)| ≤ 2 ^ f.p - 1 := by
      have : |m| ≤ 2 ^ f.p - 1 := by omega
      exact_mod_cast this
    have h3 : |(m : ℚ) * 2 ^ e| ≤ (2 ^ f.p - 1) / 2 := by
      rw [abs_mul, abs_of_pos hpos]
      have := abs_nonneg (m : ℚ)
      nlinarith
    have h4 : (2 : ℚ) ^ f.p ≥ 2 := by
      calc (2 : ℚ) = 2 ^ 1 := by norm_num
        _ ≤ 2 ^ f.p := pow_le_pow_right₀ (by norm_num) (by omega)
    rw [abs_le] at h3
    have h5 : ((roundInt r ((m : ℚ) * 2 ^ e) : ℤ) : ℚ) < 2 ^ f.p ∧ -2 ^ f.p < ((roundInt r ((m : ℚ) * 2 ^ e) : ℤ) : ℚ) := by
      rcases roundInt_or r ((m : ℚ) * 2 ^ e) with h | h <;> rw [h]
      · constructor
        · have := Int.floor_le ((m : ℚ) * 2 ^ e); linarith
        · have := Int.lt_floor_add_one ((m : ℚ) * 2 ^ e); linarith
      · constructor
        · have := Int.ceil_lt_add_one ((m : ℚ) * 2 ^ e); linarith
        · have := Int.le_ceil ((m : ℚ) * 2 ^ e); linarith
    rw [abs_lt]
    constructor
    · exact_mod_cast h5.2
    · exact_mod_cast h5.1

theorem fl_rint (r : RMode) (a : Fl f) (q : ℝ) (h : val a = some (q : EReal)) :
    val (a.rint r) = some (((roundInt r q : ℤ) : ℝ) : EReal) := by
  cases a with
  | nan => cases h
  | inf s =>
    rw [val_inf] at h
    cases s
    · exact absurd (Option.some.inj h) (by simp)
    · exact absurd (Option.some.inj h) (by simp)
  | zero s =>
    have h0 : (0 : EReal) = (q : EReal) := Option.some.inj h
    have h1 : q = 0 := by exact_mod_cast h0.symm
    have h2 : roundInt r q = 0 := by rw [h1]; exact_mod_cast roundInt_int (K := ℝ) r 0
    rw [h2]; change some (0 : EReal) = _; simp
  | nz p hp =>
    have h0 : ((p : ℝ) : EReal) = (q : EReal) := Option.some.inj h
    have h1 : (p : ℝ) = q := by exact_mod_cast h0
    change val (rnd f r (decide (p < 0)) ((roundInt r p : ℤ) : ℚ)) = _
    rw [rnd_exact r _ (rep_roundInt r hp.2), ← h1, roundInt_cast]
    push_cast; rfl

theorem Env.fl_intOk (V : Env (Fl f)) (h : V.kind ≠ .exact) : V.IntOk :=
  .inl ⟨h, fun a q ha => ⟨⟨a.rint .down, rfl, fl_rint .down a q ha⟩, ⟨a.rint .up, rfl, fl_rint .up a q ha⟩⟩⟩

theorem Env.fl_sqrtOk (V : Env (Fl f)) (h : V.kind ≠ .exact) : V.SqrtOk (IsRoundDown (Fl f)) (IsRoundUp (Fl f)) :=
  .inl ⟨h, fun _ _ ha h0 => Rounds.approx (fun _ => rfl) fun r => sqrt_rounds r ha h0⟩

theorem Env.rat_intOk (V : Env ℚ) (h : V.kind = .exact) : V.IntOk :=
  .inr ⟨h, fun a q ha => ⟨(⌊a⌋ : ℤ), rfl, by
    have h0 : ((a : ℝ) : EReal) = (q : EReal) := Option.some.inj ha
    have h1 : (a : ℝ) = q := by exact_mod_cast h0
    change some (((⌊a⌋ : ℤ) : ℚ) : ℝ).toEReal = _
    rw [← h1, Rat.floor_cast]; push_cast; rfl⟩⟩

end BI
