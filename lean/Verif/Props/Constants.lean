import Mathlib.Analysis.Real.Pi.Bounds
import Verif.Model.Constants
import Verif.Spec.Elem
import Verif.Proofs.Instances
/-! # C21: the constants -/

namespace BI
open Set

/-- Between a number with a full mantissa and the next one there is no other. -/
theorem rep_gap {f : Fmt} {m e : ℤ} (hm : 2 ^ (f.p - 1) ≤ m) {y : ℚ} (hy : Rep f y)
    (h : (m : ℚ) * 2 ^ e < y) : ((m + 1 : ℤ) : ℚ) * 2 ^ e ≤ y := by
  obtain ⟨n, e', h1, h2, h3, rfl⟩ := hy
  have he : e ≤ e' := by
    by_contra hc
    push Not at hc
    have h4 : (n : ℚ) * 2 ^ e' ≤ 2 ^ f.p * 2 ^ e' := by
      apply mul_le_mul_of_nonneg_right _ (two_zpow_pos _).le
      exact_mod_cast ((le_abs_self n).trans h1.le)
    have h5 : (2 : ℚ) ^ f.p * 2 ^ e' ≤ 2 ^ (f.p - 1) * 2 ^ e := by
      rw [← zpow_natCast, ← zpow_natCast, ← zpow_add₀ two_ne_zero, ← zpow_add₀ two_ne_zero]
      apply two_zpow_le
      have := f.hp
      omega
    have h6 : (2 : ℚ) ^ (f.p - 1) * 2 ^ e ≤ m * 2 ^ e := by
      apply mul_le_mul_of_nonneg_right _ (two_zpow_pos _).le
      exact_mod_cast hm
    linarith
  obtain ⟨k, rfl⟩ : ∃ k : ℕ, e' = e + k := ⟨(e' - e).toNat, by omega⟩
  rw [zpow_add₀ two_ne_zero, zpow_natCast] at h ⊢
  have h7 : (m : ℚ) < n * 2 ^ k := by
    have : (m : ℚ) * 2 ^ e < (n * 2 ^ k) * 2 ^ e := by linarith
    exact lt_of_mul_lt_mul_right this (two_zpow_pos _).le
  have h8 : m + 1 ≤ n * 2 ^ k := by
    have : m < n * 2 ^ k := by exact_mod_cast h7
    omega
  have h9 : ((m + 1 : ℤ) : ℚ) ≤ n * 2 ^ k := by exact_mod_cast h8
  calc ((m + 1 : ℤ) : ℚ) * 2 ^ e ≤ (n * 2 ^ k) * 2 ^ e := mul_le_mul_of_nonneg_right h9 (two_zpow_pos _).le
    _ = _ := by ring

theorem neighbours_smallest {f : Fmt} {m e : ℤ} (hm : 2 ^ (f.p - 1) ≤ m) {z : Itv (Fl f)} {x : ℝ}
    (hl : val z.lower = some (((m * 2 ^ e : ℚ) : ℝ) : EReal))
    (hu : val z.upper = some ((((m + 1 : ℤ) * 2 ^ e : ℚ) : ℝ) : EReal))
    (h1 : ((m * 2 ^ e : ℚ) : ℝ) < x) (h2 : x < (((m + 1 : ℤ) * 2 ^ e : ℚ) : ℝ)) : SmallestEnclosure z {x} := by
  have hx : x ∈ γ z := ⟨_, _, hl, hu, EReal.coe_le_coe_iff.2 h1.le, EReal.coe_le_coe_iff.2 h2.le⟩
  refine ⟨by rintro _ rfl; exact hx, fun z' hz' => ?_⟩
  obtain ⟨l', u', k1, k2, k3, k4⟩ := hz' rfl
  have a1 : l' ≤ ((((m : ℚ) * 2 ^ e : ℚ) : ℝ) : EReal) := by
    rcases (representable_iff (f := f) l').1 ⟨_, k1⟩ with rfl | rfl | ⟨q, hq, rfl⟩
    · exact bot_le
    · exact absurd k3 (by simp)
    · rw [EReal.coe_le_coe_iff] at k3 ⊢
      by_contra hc
      push Not at hc
      have := rep_gap hm hq (by exact_mod_cast hc)
      have : ((((m + 1 : ℤ) : ℚ) * 2 ^ e : ℚ) : ℝ) ≤ q := by exact_mod_cast this
      linarith
  have a2 : (((((m + 1 : ℤ) : ℚ) * 2 ^ e : ℚ) : ℝ) : EReal) ≤ u' := by
    rcases (representable_iff (f := f) u').1 ⟨_, k2⟩ with rfl | rfl | ⟨q, hq, rfl⟩
    · exact absurd k4 (by simp)
    · exact le_top
    · rw [EReal.coe_le_coe_iff] at k4 ⊢
      have := rep_gap hm hq (e := e) (by have := h1.trans_le k4; exact_mod_cast this)
      exact_mod_cast this
  refine ⟨?_, ?_⟩
  · rintro r ⟨l, u, j1, j2, j3, j4⟩
    cases hl.symm.trans j1; cases hu.symm.trans j2
    exact ⟨l', u', k1, k2, a1.trans j3, j4.trans a2⟩
  · intro l u l'' u'' j1 j2 j3 j4
    cases hl.symm.trans j1; cases hu.symm.trans j2
    cases k1.symm.trans j3; cases k2.symm.trans j4
    exact ⟨a1, a2⟩

/-! ## The generic versions -/

theorem C21_generic {T : Type} [Num T] [Val T] [NumLaws T] : Brackets (piGeneric : PiConst T) := by
  have h := fun n hn => NumLaws.lit (T := T) n hn
  have h3 := Real.pi_gt_three
  have h4 := Real.pi_lt_d2
  refine ⟨⟨_, _, h 3 (by decide), h 4 (by decide), ?_, ?_⟩, ⟨_, _, h 1 (by decide), h 2 (by decide), ?_, ?_⟩,
    ⟨_, _, h 6 (by decide), h 7 (by decide), ?_, ?_⟩⟩ <;> rw [EReal.coe_le_coe_iff] <;> push_cast <;> linarith

/-! ## The built-in types -/

/-- The constants do not depend on the rounding direction in which they are evaluated. -/
theorem C21_mode (r : RMode) : piFloat r = piFloat .near ∧ piDouble r = piDouble .near ∧
    piLongDouble r = piLongDouble .near := by
  cases r <;> decide +kernel

/-- The rational number a float stands for, zero for the others. -/
def ratOf {f : Fmt} : Fl f → ℚ
  | .nz q _ => q
  | _ => 0

theorem val_ratOf {f : Fmt} {a : Fl f} {q : ℚ} (h0 : q ≠ 0) (h : ratOf a = q) :
    val a = some ((q : ℝ) : EReal) := by
  subst h
  cases a with
  | nz q _ => rfl
  | nan => exact absurd rfl h0
  | inf => exact absurd rfl h0
  | zero => exact absurd rfl h0

theorem pi_single : ((13176794 : ℤ) * 2 ^ (-22 : ℤ) : ℚ) < Real.pi ∧
    Real.pi < (((13176794 + 1 : ℤ) : ℚ) * 2 ^ (-22 : ℤ) : ℚ) := by
  have h1 := Real.pi_gt_d20
  have h2 := Real.pi_lt_d20
  constructor
  · refine lt_trans ?_ h1; norm_num
  · refine h2.trans ?_; norm_num

theorem pi_double : ((7074237752028440 : ℤ) * 2 ^ (-51 : ℤ) : ℚ) < Real.pi ∧
    Real.pi < (((7074237752028440 + 1 : ℤ) : ℚ) * 2 ^ (-51 : ℤ) : ℚ) := by
  have h1 := Real.pi_gt_d20
  have h2 := Real.pi_lt_d20
  constructor
  · refine lt_trans ?_ h1; norm_num
  · refine h2.trans ?_; norm_num

theorem scale_bounds {m k : ℤ} (j : ℤ) {x : ℝ} (h : (((m : ℚ) * 2 ^ k : ℚ) : ℝ) < x ∧
    x < ((((m + 1 : ℤ) : ℚ) * 2 ^ k : ℚ) : ℝ)) :
    (((m : ℚ) * 2 ^ (k + j) : ℚ) : ℝ) < x * 2 ^ j ∧ x * 2 ^ j < ((((m + 1 : ℤ) : ℚ) * 2 ^ (k + j) : ℚ) : ℝ) := by
  have hj : (0 : ℝ) < 2 ^ j := zpow_pos two_pos _
  obtain ⟨h1, h2⟩ := h
  push_cast at h1 h2 ⊢
  rw [zpow_add₀ two_ne_zero, ← mul_assoc, ← mul_assoc]
  exact ⟨mul_lt_mul_of_pos_right h1 hj, mul_lt_mul_of_pos_right h2 hj⟩

theorem neighbours_of {f : Fmt} {m k : ℤ} (hm : 2 ^ (f.p - 1) ≤ m) {K : PiConst (Fl f)}
    (hpi : (((m : ℚ) * 2 ^ k : ℚ) : ℝ) < Real.pi ∧ Real.pi < ((((m + 1 : ℤ) : ℚ) * 2 ^ k : ℚ) : ℝ))
    (h : ratOf K.piLower = m * 2 ^ k ∧ ratOf K.piUpper = (m + 1 : ℤ) * 2 ^ k ∧
      ratOf K.piHalfLower = m * 2 ^ (k + (-1)) ∧ ratOf K.piHalfUpper = (m + 1 : ℤ) * 2 ^ (k + (-1)) ∧
      ratOf K.piTwiceLower = m * 2 ^ (k + 1) ∧ ratOf K.piTwiceUpper = (m + 1 : ℤ) * 2 ^ (k + 1)) : Neighbours K := by
  obtain ⟨a, b, c, d, e, g⟩ := h
  have m0 : (0 : ℤ) < m := lt_of_lt_of_le (by positivity) hm
  have hz : ∀ j : ℤ, (m : ℚ) * 2 ^ j ≠ 0 := fun j => mul_ne_zero (by exact_mod_cast m0.ne') (two_zpow_pos _).ne'
  have hz' : ∀ j : ℤ, ((m + 1 : ℤ) : ℚ) * 2 ^ j ≠ 0 := fun j =>
    mul_ne_zero (by exact_mod_cast (by omega : m + 1 ≠ 0)) (two_zpow_pos _).ne'
  have hh := scale_bounds (-1) hpi
  have ht := scale_bounds 1 hpi
  have e1 : Real.pi * (2 : ℝ) ^ (-1 : ℤ) = Real.pi / 2 := by rw [zpow_neg_one]; ring
  have e2 : Real.pi * (2 : ℝ) ^ (1 : ℤ) = 2 * Real.pi := by rw [zpow_one]; ring
  rw [e1] at hh
  rw [e2] at ht
  exact ⟨neighbours_smallest hm (val_ratOf (hz _) a) (val_ratOf (hz' _) b) hpi.1 hpi.2,
    neighbours_smallest hm (val_ratOf (hz _) c) (val_ratOf (hz' _) d) hh.1 hh.2,
    neighbours_smallest hm (val_ratOf (hz _) e) (val_ratOf (hz' _) g) ht.1 ht.2⟩

theorem C21_float (r : RMode) : Neighbours (piFloat r) := by
  rw [(C21_mode r).1]
  exact neighbours_of (m := 13176794) (k := -22) (by decide +kernel) pi_single (by decide +kernel)

theorem C21_double (r : RMode) : Neighbours (piDouble r) := by
  rw [(C21_mode r).2.1]
  exact neighbours_of (m := 7074237752028440) (k := -51) (by decide +kernel) pi_double (by decide +kernel)

/-- Neighbours bracket. -/
theorem Neighbours.brackets {T : Type} [Val T] {K : PiConst T} (h : Neighbours K) : Brackets K :=
  ⟨h.1.1 rfl, h.2.1.1 rfl, h.2.2.1 rfl⟩

theorem C21_long_double (r : RMode) : Brackets (piLongDouble r) := by
  have h := (C21_double r).brackets
  rw [(C21_mode r).2.2]
  rw [(C21_mode r).2.1] at h
  have key : ∀ {a b : Fl Fmt.double} {c d : Fl Fmt.extended} {x : ℝ}, ratOf c = ratOf a → ratOf d = ratOf b →
      ratOf a ≠ 0 → ratOf b ≠ 0 → x ∈ γ (⟨a, b⟩ : Itv _) → x ∈ γ (⟨c, d⟩ : Itv _) := by
    rintro a b c d x h1 h2 h3 h4 ⟨l, u, k1, k2, k3⟩
    have j1 := val_ratOf h3 rfl
    have j2 := val_ratOf h4 rfl
    cases j1.symm.trans k1; cases j2.symm.trans k2
    exact ⟨_, _, val_ratOf h3 h1, val_ratOf h4 h2, k3⟩
  exact ⟨key (by decide +kernel) (by decide +kernel) (by decide +kernel) (by decide +kernel) h.1,
    key (by decide +kernel) (by decide +kernel) (by decide +kernel) (by decide +kernel) h.2.1,
    key (by decide +kernel) (by decide +kernel) (by decide +kernel) (by decide +kernel) h.2.2⟩

/-- The `long double` constants are those of `double`, hence not the neighbours of `π`: `long double` has closer ones. -/
theorem C21_long_double_not_neighbours (r : RMode) : ¬ SmallestEnclosure (piI (piLongDouble r)) {Real.pi} := by
  rw [(C21_mode r).2.2]
  rintro ⟨-, h⟩
  have h1 := Real.pi_gt_d20
  have h2 := Real.pi_lt_d20
  let q : ℚ := (7074237752028440 * 2048 + 250 : ℤ) * 2 ^ (-62 : ℤ)
  let q' : ℚ := (7074237752028440 * 2048 + 600 : ℤ) * 2 ^ (-62 : ℤ)
  have hq : Rep Fmt.extended q := ⟨_, -62, by decide +kernel, by decide, by decide, rfl⟩
  have hq' : Rep Fmt.extended q' := ⟨_, -62, by decide +kernel, by decide, by decide, rfl⟩
  have n0 : q ≠ 0 := by decide +kernel
  have n0' : q' ≠ 0 := by decide +kernel
  have := (h ⟨.nz q ⟨n0, hq⟩, .nz q' ⟨n0', hq'⟩⟩ (by
    rintro _ rfl
    refine ⟨_, _, rfl, rfl, EReal.coe_le_coe_iff.2 ?_, EReal.coe_le_coe_iff.2 ?_⟩
    · refine le_trans ?_ h1.le; norm_num [q]
    · refine h2.le.trans ?_; norm_num [q'])).2 _ _ _ _
      (val_ratOf (q := 7074237752028440 * 2 ^ (-51 : ℤ)) (by decide +kernel) (by decide +kernel))
      (val_ratOf (q := 7074237752028441 * 2 ^ (-51 : ℤ)) (by decide +kernel) (by decide +kernel)) rfl rfl
  have := EReal.coe_le_coe_iff.1 this.1
  have : q ≤ 7074237752028440 * 2 ^ (-51 : ℤ) := by exact_mod_cast this
  exact absurd this (by decide +kernel)

end BI
