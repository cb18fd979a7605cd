import Verif.Proofs.FloatLaws
import Verif.Model.Register
/-!
# C77: the formats are those of the machine

The constants of `std::numeric_limits` for the three built-in types: `digits`, `min_exponent`, `max_exponent`.
-/

namespace BI

/-- The smallest positive number (`denorm_min`), the largest finite number (`max`) and the first number after 1
(`1 + epsilon`) of a type with `digits` binary digits and exponents from `lo` to `hi`. -/
structure FmtLimits (T : Type) [Val T] (digits : ℕ) (lo hi : ℤ) : Prop where
  denormMin : IsLeast {x : ℝ | 0 < x ∧ Representable T (x : EReal)} ((2 : ℝ) ^ (lo - digits))
  max : IsGreatest {x : ℝ | Representable T (x : EReal)} ((1 - (2 : ℝ) ^ (-(digits : ℤ))) * 2 ^ hi)
  lowest : IsLeast {x : ℝ | Representable T (x : EReal)} (-((1 - (2 : ℝ) ^ (-(digits : ℤ))) * 2 ^ hi))
  epsilon : IsLeast {x : ℝ | 1 < x ∧ Representable T (x : EReal)} (1 + (2 : ℝ) ^ (1 - (digits : ℤ)))

section
variable {f : Fmt}

private theorem rep_real {x : ℝ} : Representable (Fl f) (x : EReal) ↔
    ∃ m e : ℤ, |m| < 2 ^ f.p ∧ f.emin ≤ e ∧ e ≤ f.emax ∧ x = m * (2 : ℝ) ^ e := by
  rw [representable_iff]
  constructor
  · rintro (h | h | ⟨q, ⟨m, e, h1, h2, h3, rfl⟩, h⟩)
    · exact absurd h (EReal.coe_ne_bot _)
    · exact absurd h (EReal.coe_ne_top _)
    · exact ⟨m, e, h1, h2, h3, (EReal.coe_eq_coe_iff.1 h).trans (by push_cast; rfl)⟩
  · rintro ⟨m, e, h1, h2, h3, rfl⟩
    exact .inr (.inr ⟨m * (2 : ℚ) ^ e, ⟨m, e, h1, h2, h3, rfl⟩, by push_cast; rfl⟩)

private theorem rep_le {x : ℝ} (h : Representable (Fl f) (x : EReal)) : |x| ≤ ((2 : ℝ) ^ f.p - 1) * 2 ^ f.emax := by
  obtain ⟨m, e, h1, -, h3, rfl⟩ := rep_real.1 h
  have h4 : |m| ≤ 2 ^ f.p - 1 := by omega
  have h5 : (|m| : ℝ) ≤ 2 ^ f.p - 1 := by exact_mod_cast h4
  rw [abs_mul, abs_of_pos (zpow_pos (two_pos (α := ℝ)) e)]
  exact mul_le_mul h5 (zpow_le_zpow_right₀ one_le_two h3) (zpow_pos two_pos e).le ((abs_nonneg _).trans h5)

/-- What `std::numeric_limits` says about a format follows from its parameters. -/
theorem C77_limits (h : f.emin ≤ 1 - f.p) (h' : 1 - f.p ≤ f.emax) : FmtLimits (Fl f) f.p (f.emin + f.p) (f.emax + f.p) := by
  have hp : (2 : ℝ) ^ f.p - 1 = 2 ^ (f.p : ℤ) - 1 := by rw [zpow_natCast]
  have e1 : (1 - (2 : ℝ) ^ (-(f.p : ℤ))) * 2 ^ (f.emax + f.p) = ((2 : ℝ) ^ f.p - 1) * 2 ^ f.emax := by
    rw [hp, add_comm, zpow_add₀ two_ne_zero, ← mul_assoc, sub_mul, one_mul, ← zpow_add₀ two_ne_zero, neg_add_cancel, zpow_zero]
  have hm : ∀ s : ℤ, |s| = 1 → Representable (Fl f) ((s * (((2 : ℝ) ^ f.p - 1) * 2 ^ f.emax) : ℝ) : EReal) := fun s hs => by
    have h0 : (1 : ℤ) ≤ 2 ^ f.p := one_le_pow₀ one_le_two
    refine rep_real.2 ⟨s * (2 ^ f.p - 1), f.emax, ?_, f.hmin.trans f.hmax, le_rfl, by push_cast; ring⟩
    rw [abs_mul, hs, one_mul, abs_of_nonneg (by omega)]
    omega
  refine ⟨⟨⟨zpow_pos two_pos _, ?_⟩, ?_⟩, ⟨?_, fun x hx => ?_⟩, ⟨?_, fun x hx => ?_⟩, ⟨⟨?_, ?_⟩, ?_⟩⟩
  · refine rep_real.2 ⟨1, f.emin, ?_, le_rfl, f.hmin.trans f.hmax, by rw [Int.cast_one, one_mul, add_sub_cancel_right]⟩
    exact one_lt_pow₀ (by norm_num) (by have := f.hp; omega)
  · rintro x ⟨h0, hx⟩
    obtain ⟨m, e, h1, h2, -, rfl⟩ := rep_real.1 hx
    have h3 : (0 : ℝ) < m := (mul_pos_iff_of_pos_right (zpow_pos two_pos e)).1 h0
    have h4 : (1 : ℝ) ≤ m := by exact_mod_cast (by exact_mod_cast h3 : 0 < m)
    rw [add_sub_cancel_right]
    exact (zpow_le_zpow_right₀ one_le_two h2).trans (le_mul_of_one_le_left (zpow_pos two_pos e).le h4)
  · rw [e1]; have := hm 1 rfl; rwa [Int.cast_one, one_mul] at this
  · rw [e1]; exact (le_abs_self x).trans (rep_le hx)
  · rw [e1]; have := hm (-1) rfl; rwa [Int.cast_neg, Int.cast_one, neg_one_mul] at this
  · rw [e1]; exact neg_le_of_abs_le (rep_le hx)
  · exact lt_add_of_pos_right _ (zpow_pos two_pos _)
  · have h0 := f.hp
    refine rep_real.2 ⟨2 ^ (f.p - 1) + 1, 1 - f.p, ?_, h, h', ?_⟩
    · have k1 : (2 : ℤ) ^ f.p = 2 * 2 ^ (f.p - 1) := by rw [← pow_succ', Nat.sub_add_cancel (by omega)]
      have k2 : (1 : ℤ) < 2 ^ (f.p - 1) := one_lt_pow₀ (by norm_num) (by omega)
      rw [k1, abs_of_pos (by omega)]
      omega
    · push_cast
      rw [add_mul, one_mul, ← zpow_natCast (2 : ℝ) (f.p - 1), ← zpow_add₀ two_ne_zero, Nat.cast_sub (by omega), Nat.cast_one,
        sub_add_sub_cancel', sub_self, zpow_zero]
  · rintro x ⟨h0, hx⟩
    obtain ⟨m, e, h1, h2, -, rfl⟩ := rep_real.1 hx
    have hz := zpow_pos (two_pos (α := ℝ)) e
    have hm0 : (0 : ℝ) < m := (mul_pos_iff_of_pos_right hz).1 (one_pos.trans h0)
    have hm1 : 0 < m := by exact_mod_cast hm0
    have hle : (2 : ℝ) ^ (1 - (f.p : ℤ)) ≤ 1 := by
      rw [← zpow_zero (2 : ℝ)]
      exact zpow_le_zpow_right₀ one_le_two (by have := f.hp; omega)
    rcases le_or_gt 0 e with he | he
    · obtain ⟨k, rfl⟩ := Int.eq_ofNat_of_zero_le he
      have e2 : (m : ℝ) * 2 ^ (k : ℤ) = ((m * 2 ^ k : ℤ) : ℝ) := by push_cast; rw [zpow_natCast]
      change 1 < (m : ℝ) * 2 ^ (k : ℤ) at h0
      change _ ≤ (m : ℝ) * 2 ^ (k : ℤ)
      rw [e2] at h0 ⊢
      have h3 : 1 < m * 2 ^ k := by exact_mod_cast h0
      have h4 : (2 : ℝ) ≤ ((m * 2 ^ k : ℤ) : ℝ) := by exact_mod_cast h3
      linarith
    · obtain ⟨k, hk⟩ := Int.eq_ofNat_of_zero_le (a := -e) (by omega)
      obtain rfl : e = -(k : ℤ) := by omega
      have hk0 := pow_pos (two_pos (α := ℝ)) k
      have h3 : (2 : ℝ) ^ k < m := by
        rw [zpow_neg, zpow_natCast, ← div_eq_mul_inv, lt_div_iff₀ hk0, one_mul] at h0
        exact h0
      have h4 : (2 : ℤ) ^ k + 1 ≤ m := by exact_mod_cast h3
      have h5 : (2 : ℤ) ^ k < 2 ^ f.p := by rw [abs_of_pos hm1] at h1; omega
      have h6 : k < f.p := (pow_lt_pow_iff_right₀ (by norm_num)).1 h5
      have h7 : (2 : ℝ) ^ k + 1 ≤ m := by exact_mod_cast h4
      calc 1 + (2 : ℝ) ^ (1 - (f.p : ℤ)) ≤ 1 + 2 ^ (-(k : ℤ)) := by
            have := zpow_le_zpow_right₀ (one_le_two (α := ℝ)) (show 1 - (f.p : ℤ) ≤ -(k : ℤ) by omega)
            linarith
        _ = (2 ^ k + 1) * 2 ^ (-(k : ℤ)) := by
            rw [add_mul, one_mul, ← zpow_natCast (2 : ℝ) k, ← zpow_add₀ two_ne_zero, add_neg_cancel, zpow_zero]
        _ ≤ m * 2 ^ (-(k : ℤ)) := mul_le_mul_of_nonneg_right h7 hz.le
end

/-- `float`: 24 digits, exponents from -125 to 128. -/
theorem C77_limits_float : FmtLimits (Fl Fmt.single) 24 (-125) 128 := C77_limits (f := Fmt.single) (by decide) (by decide)
/-- `double`: 53 digits, exponents from -1021 to 1024. -/
theorem C77_limits_double : FmtLimits (Fl Fmt.double) 53 (-1021) 1024 := C77_limits (f := Fmt.double) (by decide) (by decide)
/-- `long double` of x86: 64 digits, exponents from -16381 to 16384. -/
theorem C77_limits_long_double : FmtLimits (Fl Fmt.extended) 64 (-16381) 16384 :=
  C77_limits (f := Fmt.extended) (by decide) (by decide)
/-- The x87 registers with the precision control at 53 and 24 digits keep the exponents of `long double`. -/
theorem C77_limits_registers : FmtLimits (Fl Fmt.pc53) 53 (-16381) 16384 ∧ FmtLimits (Fl Fmt.pc24) 24 (-16381) 16384 :=
  ⟨C77_limits (f := Fmt.pc53) (by decide) (by decide), C77_limits (f := Fmt.pc24) (by decide) (by decide)⟩

end BI
