import Verif.Model.Float
import Verif.Proofs.Laws
import Verif.Proofs.PolSim
/-! # Laws of floating-point arithmetic -/

set_option linter.unusedSectionVars false

namespace BI
open Set
variable {f : Fmt}

/-! ## Rounding -/

theorem log_cast {x : ℚ} (hx : 0 < x) : Int.log 2 (x : ℝ) = Int.log 2 x := by
  have hx' : (0 : ℝ) < x := by exact_mod_cast hx
  apply le_antisymm
  · rw [← Int.zpow_le_iff_le_log one_lt_two hx]
    have := Int.zpow_log_le_self (b := 2) one_lt_two hx'
    rw [← Rat.cast_le (K := ℝ)]
    push_cast at this ⊢
    exact this
  · rw [← Int.zpow_le_iff_le_log one_lt_two hx']
    have := Int.zpow_log_le_self (b := 2) one_lt_two hx
    rw [← Rat.cast_le (K := ℝ)] at this
    push_cast at this ⊢
    exact this

theorem roundInt_cast (r : RMode) (x : ℚ) : roundInt r (x : ℝ) = roundInt r x := by
  cases r
  · unfold roundInt
    simp only [Rat.floor_cast]
    have h1 : ((x : ℝ) - ⌊x⌋ < 1 / 2) ↔ (x - ⌊x⌋ < 1 / 2) := by
      rw [← Rat.cast_lt (K := ℝ)]; push_cast; rfl
    have h2 : (1 / 2 < (x : ℝ) - ⌊x⌋) ↔ (1 / 2 < x - ⌊x⌋) := by
      rw [← Rat.cast_lt (K := ℝ)]; push_cast; rfl
    simp only [h1, h2]
  · exact Rat.floor_cast x
  · exact Rat.ceil_cast x
  · unfold roundInt
    simp only [Rat.floor_cast, Rat.ceil_cast]
    have h1 : (0 : ℝ) ≤ x ↔ 0 ≤ x := by exact_mod_cast Iff.rfl
    simp only [h1]

theorem ulpExp_cast {x : ℚ} (hx : x ≠ 0) : ulpExp f (x : ℝ) = ulpExp f x := by
  unfold ulpExp
  rw [← Rat.cast_abs, log_cast (abs_pos.2 hx)]

theorem roundUnb_cast (r : RMode) {x : ℚ} (hx : x ≠ 0) : roundUnb f r (x : ℝ) = roundUnb f r x := by
  unfold roundUnb
  rw [ulpExp_cast hx, ← roundInt_cast r (x / 2 ^ ulpExp f x)]
  push_cast
  rfl

theorem rnd_cast (r : RMode) (s : Bool) (x : ℚ) : rnd f r s (x : ℝ) = rnd f r s x := by
  unfold rnd
  by_cases hx : x = 0
  · simp [hx]
  · have hx' : (x : ℝ) ≠ 0 := by exact_mod_cast hx
    have h1 : (x : ℝ) < 0 ↔ x < 0 := by exact_mod_cast Iff.rfl
    simp only [hx, hx', if_false, roundUnb_cast r hx, h1]

/-! ## Numbers that round alike -/

theorem roundInt_congr (r : RMode) {x y : ℝ} (h1 : ∀ t : ℤ, (t : ℝ) / 2 ≤ x ↔ (t : ℝ) / 2 ≤ y)
    (h2 : ∀ t : ℤ, (t : ℝ) / 2 < x ↔ (t : ℝ) / 2 < y) : roundInt r x = roundInt r y := by
  have e1 : ∀ t : ℤ, (t : ℝ) ≤ x ↔ (t : ℝ) ≤ y := fun t => by
    have := h1 (2 * t); push_cast at this; simpa using this
  have e2 : ∀ t : ℤ, (t : ℝ) < x ↔ (t : ℝ) < y := fun t => by
    have := h2 (2 * t); push_cast at this; simpa using this
  have hf : ⌊x⌋ = ⌊y⌋ := by
    apply le_antisymm
    · exact Int.le_floor.2 ((e1 _).1 (Int.floor_le x))
    · exact Int.le_floor.2 ((e1 _).2 (Int.floor_le y))
  have hc : ⌈x⌉ = ⌈y⌉ := by
    apply le_antisymm
    · refine Int.ceil_le.2 ?_
      by_contra h
      exact absurd (Int.le_ceil y) (not_le.2 ((e2 _).1 (not_le.1 h)))
    · refine Int.ceil_le.2 ?_
      by_contra h
      exact absurd (Int.le_ceil x) (not_le.2 ((e2 _).2 (not_le.1 h)))
  cases r
  · unfold roundInt
    dsimp only
    rw [← hf]
    have g1 : x - ⌊x⌋ < 1 / 2 ↔ y - ⌊x⌋ < 1 / 2 := by
      have := h1 (2 * ⌊x⌋ + 1)
      push_cast at this
      constructor
      · intro h; by_contra h'; exact absurd (this.2 (by linarith)) (by linarith)
      · intro h; by_contra h'; exact absurd (this.1 (by linarith)) (by linarith)
    have g2 : 1 / 2 < x - ⌊x⌋ ↔ 1 / 2 < y - ⌊x⌋ := by
      have := h2 (2 * ⌊x⌋ + 1)
      push_cast at this
      constructor
      · intro h; have := this.1 (by linarith); linarith
      · intro h; have := this.2 (by linarith); linarith
    simp only [g1, g2]
  · exact hf
  · exact hc
  · unfold roundInt
    dsimp only
    have := e1 0
    push_cast at this
    simp only [this, hf, hc]

/-- Two numbers between neighbouring multiples of a half unit in the last place round to the same number. -/
theorem rnd_between (r : RMode) (s : Bool) {x y : ℝ} {n : ℕ} {k : ℤ} (hx : (n : ℝ) * 2 ^ k < x) (hx' : x < (n + 1 : ℝ) * 2 ^ k)
    (hy : (n : ℝ) * 2 ^ k < y) (hy' : y < (n + 1 : ℝ) * 2 ^ k) (hk : k < ulpExp f x) : rnd f r s x = rnd f r s y := by
  have hp := two_zpow_pos (K := ℝ) k
  have hx0 : 0 < x := lt_of_le_of_lt (by positivity) hx
  have hy0 : 0 < y := lt_of_le_of_lt (by positivity) hy
  have le : ∀ {w : ℝ}, (n : ℝ) * 2 ^ k < w → w < (n + 1 : ℝ) * 2 ^ k → ∀ m : ℤ, ((m : ℝ) * 2 ^ k ≤ w ↔ m ≤ n) := by
    intro w h1 h2 m
    constructor
    · intro h
      have : (m : ℝ) < (n : ℝ) + 1 := lt_of_mul_lt_mul_right (h.trans_lt h2) hp.le
      have : m < (n : ℤ) + 1 := by exact_mod_cast this
      omega
    · intro h
      refine le_trans (mul_le_mul_of_nonneg_right ?_ hp.le) h1.le
      exact_mod_cast h
  have lt : ∀ {w : ℝ}, (n : ℝ) * 2 ^ k < w → w < (n + 1 : ℝ) * 2 ^ k → ∀ m : ℤ, ((m : ℝ) * 2 ^ k < w ↔ m ≤ n) := by
    intro w h1 h2 m
    constructor
    · intro h; exact (le h1 h2 m).1 h.le
    · intro h
      refine lt_of_le_of_lt (mul_le_mul_of_nonneg_right ?_ hp.le) h1
      exact_mod_cast h
  have hle : ∀ m : ℤ, ((m : ℝ) * 2 ^ k ≤ x ↔ (m : ℝ) * 2 ^ k ≤ y) := fun m => (le hx hx' m).trans (le hy hy' m).symm
  have hlt : ∀ m : ℤ, ((m : ℝ) * 2 ^ k < x ↔ (m : ℝ) * 2 ^ k < y) := fun m => (lt hx hx' m).trans (lt hy hy' m).symm
  have shift : ∀ {j : ℤ}, k ≤ j → ∀ m : ℤ, (m : ℝ) * 2 ^ j = ((m * 2 ^ (j - k).toNat : ℤ) : ℝ) * 2 ^ k := by
    intro j hj m
    push_cast
    rw [mul_assoc, ← zpow_natCast, ← zpow_add₀ two_ne_zero]
    congr 2
    omega
  have hlog : ∀ j, k ≤ j → (j ≤ Int.log 2 x ↔ j ≤ Int.log 2 y) := by
    intro j hj
    have e := shift hj 1
    rw [← Int.zpow_le_iff_le_log one_lt_two hx0, ← Int.zpow_le_iff_le_log one_lt_two hy0]
    have e' : ((2 : ℕ) : ℝ) ^ j = ((1 * 2 ^ (j - k).toNat : ℤ) : ℝ) * 2 ^ k := by rw [← e]; norm_num
    rw [e']
    exact hle _
  have hu : ulpExp f y = ulpExp f x := by
    unfold ulpExp at hk ⊢
    rw [abs_of_pos hx0] at hk ⊢
    rw [abs_of_pos hy0]
    by_cases h : k ≤ Int.log 2 x
    · have h1 := (hlog _ h).1 le_rfl
      have h2 := (hlog _ (h.trans h1)).2 le_rfl
      rw [le_antisymm h2 h1]
    · have h' : ¬ k ≤ Int.log 2 y := fun h' => h ((hlog k le_rfl).2 h')
      have := f.hp
      omega
  have hi : roundInt r (x / 2 ^ ulpExp f x) = roundInt r (y / 2 ^ ulpExp f x) := by
    generalize ulpExp f x = u at *
    have hpu := two_zpow_pos (K := ℝ) u
    have e : ∀ t : ℤ, (t : ℝ) / 2 * 2 ^ u = ((t * 2 ^ (u - 1 - k).toNat : ℤ) : ℝ) * 2 ^ k := by
      intro t
      rw [← shift (by omega) t, show (2 : ℝ) ^ u = 2 ^ (u - 1) * 2 by rw [← zpow_add_one₀ two_ne_zero]; congr 1; omega]
      ring
    refine roundInt_congr r (fun t => ?_) fun t => ?_
    · rw [le_div_iff₀ hpu, le_div_iff₀ hpu, e]; exact hle _
    · rw [lt_div_iff₀ hpu, lt_div_iff₀ hpu, e]; exact hlt _
  have hr : roundUnb f r x = roundUnb f r y := by unfold roundUnb; rw [hu, hi]
  unfold rnd
  simp only [hr, hx0.ne', hy0.ne', not_lt.2 hx0.le, not_lt.2 hy0.le]

theorem log_sqrt {q : ℚ} (hq : 0 < q) : Int.log 2 (Real.sqrt q) = Int.log 2 q / 2 := by
  have hq' : (0 : ℝ) < q := by exact_mod_cast hq
  have h1 : (2 : ℝ) ^ Int.log 2 q ≤ q := by
    have := Int.zpow_log_le_self (b := 2) one_lt_two hq
    rw [← Rat.cast_le (K := ℝ)] at this
    push_cast at this
    exact this
  have h2 : (q : ℝ) < 2 ^ (Int.log 2 q + 1) := by
    have := Int.lt_zpow_succ_log_self (b := 2) one_lt_two q
    rw [← Rat.cast_lt (K := ℝ)] at this
    push_cast at this
    exact this
  have hs := Real.sqrt_pos.2 hq'
  generalize Int.log 2 q = j at *
  apply le_antisymm
  · rw [← Int.lt_add_one_iff, ← Int.lt_zpow_iff_log_lt one_lt_two hs, Real.sqrt_lt' (by push_cast; exact two_zpow_pos _)]
    refine h2.trans_le ?_
    push_cast
    rw [← zpow_natCast, ← zpow_mul]
    exact two_zpow_le (by push_cast; omega)
  · rw [← Int.zpow_le_iff_le_log one_lt_two hs]
    refine Real.le_sqrt_of_sq_le (le_trans ?_ h1)
    push_cast
    rw [← zpow_natCast, ← zpow_mul]
    exact two_zpow_le (by push_cast; omega)

/-- The model's square root is the correctly rounded one. -/
theorem rnd_sqrtApprox (r : RMode) (s : Bool) {q : ℚ} (hq : 0 < q) : rnd f r s (Fl.sqrtApprox f q) = rnd f r s (Real.sqrt q) := by
  rw [← rnd_cast]
  have hq' : (0 : ℝ) < q := by exact_mod_cast hq
  have hs := Real.sqrt_pos.2 hq'
  have hk : max f.emin (Int.log 2 q / 2 - f.p + 1) = ulpExp f (Real.sqrt q) := by
    unfold ulpExp; rw [abs_of_pos hs, log_sqrt hq]
  unfold Fl.sqrtApprox
  dsimp only
  rw [hk]
  have hu : ulpExp f (Real.sqrt q) - 1 < ulpExp f (Real.sqrt q) := by omega
  generalize ulpExp f (Real.sqrt q) - 1 = k at hu ⊢
  have hp := two_zpow_pos (K := ℝ) k
  have h4 : (4 : ℝ) ^ k = (2 ^ k) ^ 2 := by
    rw [show (4 : ℝ) = 2 * 2 by norm_num, mul_zpow, sq]
  have h4q : ((4 : ℚ) ^ k : ℚ) = (2 ^ k) ^ 2 := by
    rw [show (4 : ℚ) = 2 * 2 by norm_num, mul_zpow, sq]
  have h4p : (0 : ℚ) < 4 ^ k := zpow_pos (by norm_num) k
  have n1 : (⌊q / 4 ^ k⌋₊ : ℚ) ≤ q / 4 ^ k := Nat.floor_le (div_nonneg hq.le h4p.le)
  have n2 : q / 4 ^ k < (⌊q / 4 ^ k⌋₊ : ℚ) + 1 := Nat.lt_floor_add_one _
  have s1 := Nat.sqrt_le' ⌊q / 4 ^ k⌋₊
  have s2 := Nat.lt_succ_sqrt' ⌊q / 4 ^ k⌋₊
  generalize Nat.sqrt ⌊q / 4 ^ k⌋₊ = n at s1 s2 ⊢
  generalize ⌊q / 4 ^ k⌋₊ = N at *
  have l1 : (n : ℚ) ^ 2 * 4 ^ k ≤ q := by
    rw [← le_div_iff₀ h4p]
    exact le_trans (by exact_mod_cast s1) n1
  have l2 : q < ((n : ℚ) + 1) ^ 2 * 4 ^ k := by
    rw [← div_lt_iff₀ h4p]
    refine n2.trans_le ?_
    have : N + 1 ≤ (n + 1) ^ 2 := s2
    exact_mod_cast this
  have l2' : Real.sqrt q < (n + 1 : ℝ) * 2 ^ k := by
    rw [Real.sqrt_lt' (by positivity), mul_pow, ← h4]
    rw [← Rat.cast_lt (K := ℝ)] at l2
    push_cast at l2
    exact l2
  by_cases he : (n : ℚ) ^ 2 * 4 ^ k = q
  · rw [if_pos he]
    congr 1
    rw [← he, h4q]
    push_cast
    rw [← mul_pow, Real.sqrt_sq (by positivity)]
  · rw [if_neg he]
    have l1' : (n : ℝ) * 2 ^ k < Real.sqrt q := by
      apply Real.lt_sqrt_of_sq_lt
      rw [mul_pow, ← h4]
      have l3 := lt_of_le_of_ne l1 he
      rw [← Rat.cast_lt (K := ℝ)] at l3
      push_cast at l3
      exact l3
    have e : (((2 * n + 1 : ℚ) * 2 ^ (k - 1) : ℚ) : ℝ) = (n + 1 / 2 : ℝ) * 2 ^ k := by
      push_cast
      rw [show (2 : ℝ) ^ k = 2 ^ (k - 1) * 2 by rw [← zpow_add_one₀ two_ne_zero]; congr 1; omega]
      ring
    rw [e]
    refine (rnd_between r s l1' l2' ?_ ?_ hu).symm
    · exact mul_lt_mul_of_pos_right (by linarith) hp
    · exact mul_lt_mul_of_pos_right (by linarith) hp

theorem roundUnb_or (r : RMode) (x : ℝ) : roundUnb f r x = roundUnb f .down x ∨ roundUnb f r x = roundUnb f .up x := by
  unfold roundUnb
  rcases roundInt_or r (x / (2 : ℝ) ^ ulpExp f x) with h | h
  · left; rw [h]; rfl
  · right; rw [h]; rfl

theorem roundUnb_neg (x : ℝ) : roundUnb f .up (-x) = -roundUnb f .down x := by
  unfold roundUnb
  have : ulpExp f (-x) = ulpExp f x := by unfold ulpExp; rw [abs_neg]
  rw [this]
  unfold roundInt
  dsimp only
  rw [neg_div, Int.ceil_neg]
  push_cast; ring

theorem roundUnb_down_le (x : ℝ) : (roundUnb f .down x : ℝ) ≤ x := by
  unfold roundUnb roundInt
  push_cast
  rw [← le_div_iff₀ (two_zpow_pos _)]
  exact Int.floor_le _

theorem roundUnb_up_ge (x : ℝ) : x ≤ (roundUnb f .up x : ℝ) := by
  have h1 := roundUnb_neg (f := f) (-x)
  rw [neg_neg] at h1
  have h2 := roundUnb_down_le (f := f) (-x)
  rw [h1]; push_cast; linarith

theorem le_roundUnb_down {x : ℝ} {y : ℚ} (hx : x ≠ 0) (hy : Rep f y) (h : (y : ℝ) ≤ x) :
    y ≤ roundUnb f .down x := by
  obtain ⟨m, e, h1, h2, h3, rfl⟩ := hy
  have key : ∀ n : ℤ, (n : ℝ) ≤ x / 2 ^ ulpExp f x → (m : ℚ) * 2 ^ e ≤ n * 2 ^ ulpExp f x →
      (m : ℚ) * 2 ^ e ≤ roundUnb f .down x := by
    intro n hn hn'
    refine hn'.trans ?_
    unfold roundUnb
    apply mul_le_mul_of_nonneg_right _ (two_zpow_pos _).le
    exact_mod_cast roundInt_ge .down hn
  rcases le_or_gt (ulpExp f x) e with he | he
  · obtain ⟨k, hk⟩ := Int.le.dest he
    have h4 : (m : ℚ) * 2 ^ e = ((m * 2 ^ k : ℤ) : ℚ) * 2 ^ ulpExp f x := by
      push_cast
      rw [mul_assoc, ← zpow_natCast, ← zpow_add₀ two_ne_zero]; congr 2; omega
    refine key (m * 2 ^ k) ?_ h4.le
    rw [le_div_iff₀ (two_zpow_pos _)]
    refine le_trans (le_of_eq ?_) h
    rw [h4]; push_cast; rfl
  · have hlow := ulp_le_abs f hx (lt_of_le_of_lt h2 he)
    have h5 : |(m : ℚ) * 2 ^ e| < 2 ^ (f.p - 1) * 2 ^ ulpExp f x := by
      rw [abs_mul, abs_of_pos (two_zpow_pos (K := ℚ) e)]
      have h6 : |(m : ℚ)| < 2 ^ f.p := by exact_mod_cast h1
      calc |(m : ℚ)| * 2 ^ e < 2 ^ f.p * 2 ^ e := mul_lt_mul_of_pos_right h6 (two_zpow_pos _)
        _ = 2 ^ ((f.p : ℤ) + e) := by rw [zpow_add₀ two_ne_zero, zpow_natCast]
        _ ≤ 2 ^ (((f.p - 1 : ℕ) : ℤ) + ulpExp f x) := two_zpow_le (by have := f.hp; omega)
        _ = _ := by rw [zpow_add₀ two_ne_zero, zpow_natCast]
    rcases lt_or_gt_of_ne hx with h0 | h0
    · exfalso
      rw [abs_div, abs_of_pos (two_zpow_pos (K := ℝ) (ulpExp f x)), le_div_iff₀ (two_zpow_pos _), abs_of_neg h0] at hlow
      have h7 := (abs_lt.1 h5).1
      have h8 : -((2 : ℝ) ^ (f.p - 1) * 2 ^ ulpExp f x) < ((m * 2 ^ e : ℚ) : ℝ) := by
        have := (Rat.cast_lt (K := ℝ)).2 h7
        push_cast at this ⊢
        exact this
      push_cast at hlow h8 h
      linarith
    · rw [abs_of_pos (div_pos h0 (two_zpow_pos _))] at hlow
      refine key _ hlow ?_
      push_cast
      exact ((le_abs_self _).trans_lt h5).le

theorem roundUnb_up_le {x : ℝ} {y : ℚ} (hx : x ≠ 0) (hy : Rep f y) (h : x ≤ (y : ℝ)) :
    roundUnb f .up x ≤ y := by
  have h1 := roundUnb_neg (f := f) (-x)
  rw [neg_neg] at h1
  have h2 := le_roundUnb_down (f := f) (neg_ne_zero.2 hx) (rep_neg hy) (by push_cast; linarith)
  rw [h1]; linarith

theorem roundUnb_down_le_up (x : ℝ) : roundUnb f .down x ≤ roundUnb f .up x := by
  have := (roundUnb_down_le (f := f) x).trans (roundUnb_up_ge (f := f) x)
  exact_mod_cast this

theorem le_roundUnb (r : RMode) {x : ℝ} {y : ℚ} (hx : x ≠ 0) (hy : Rep f y) (h : (y : ℝ) ≤ x) :
    y ≤ roundUnb f r x := by
  have h1 := le_roundUnb_down hx hy h
  rcases roundUnb_or (f := f) r x with h' | h' <;> rw [h']
  · exact h1
  · exact h1.trans (roundUnb_down_le_up x)

theorem roundUnb_le (r : RMode) {x : ℝ} {y : ℚ} (hx : x ≠ 0) (hy : Rep f y) (h : x ≤ (y : ℝ)) :
    roundUnb f r x ≤ y := by
  have h1 := roundUnb_up_le hx hy h
  rcases roundUnb_or (f := f) r x with h' | h' <;> rw [h']
  · exact (roundUnb_down_le_up x).trans h1
  · exact h1

theorem rep_abs_le {y : ℚ} (hy : Rep f y) : |y| ≤ maxFin f := by
  obtain ⟨m, e, h1, h2, h3, rfl⟩ := hy
  rw [abs_mul, abs_of_pos (two_zpow_pos (K := ℚ) e)]
  unfold maxFin
  have h4 : |(m : ℚ)| ≤ ((2 ^ f.p - 1 : ℤ) : ℚ) := by
    have : |m| ≤ 2 ^ f.p - 1 := by omega
    exact_mod_cast this
  exact mul_le_mul h4 (two_zpow_le h3) (two_zpow_pos _).le ((abs_nonneg _).trans h4)

theorem rep_zero : Rep f 0 := ⟨0, 0, by positivity, f.hmin, f.hmax, by simp⟩

theorem val_max (s : Bool) : val (Fl.max f s) = some (((if s then -maxFin f else maxFin f : ℚ) : ℝ) : EReal) := by
  cases s <;> rfl

theorem coe_le {p : ℚ} {x : ℝ} : ((p : ℝ) : EReal) ≤ (x : EReal) ↔ (p : ℝ) ≤ x := EReal.coe_le_coe_iff

/-- What rounding delivers: never NaN; monotone with respect to the numbers of the format; on the right side of the
exact value in the directed modes. -/
structure RndSpec (f : Fmt) (r : RMode) (x : ℝ) (z : EReal) : Prop where
  lo : ∀ y : ℚ, Rep f y → (y : ℝ) ≤ x → ((y : ℝ) : EReal) ≤ z
  up : ∀ y : ℚ, Rep f y → x ≤ (y : ℝ) → z ≤ ((y : ℝ) : EReal)
  down : r = .down → z ≤ x
  upw : r = .up → x ≤ z

theorem rnd_spec (r : RMode) (s : Bool) (x : ℝ) : ∃ z, val (rnd f r s x) = some z ∧ RndSpec f r x z := by
  unfold rnd
  by_cases hx : x = 0
  · subst hx
    refine ⟨0, by simp [val], ⟨?_, ?_, fun _ => le_rfl, fun _ => le_rfl⟩⟩
    · intro y _ h; exact_mod_cast h
    · intro y _ h; exact_mod_cast h
  rw [if_neg hx]
  have hlo := fun y hy h => le_roundUnb (f := f) r (y := y) hx hy h
  have hup := fun y hy h => roundUnb_le (f := f) r (y := y) hx hy h
  have hd : r = .down → (roundUnb f r x : ℝ) ≤ x := by rintro rfl; exact roundUnb_down_le x
  have hu : r = .up → x ≤ (roundUnb f r x : ℝ) := by rintro rfl; exact roundUnb_up_ge x
  set q := roundUnb f r x with hq
  have fin : RndSpec f r x ((q : ℝ) : EReal) :=
    ⟨fun y hy h => by exact_mod_cast hlo y hy h, fun y hy h => by exact_mod_cast hup y hy h,
     fun h => by exact_mod_cast hd h, fun h => by exact_mod_cast hu h⟩
  by_cases h0 : q = 0
  · rw [dif_pos h0]
    rw [h0] at fin
    exact ⟨0, by simp [val], by simpa using fin⟩
  rw [dif_neg h0]
  by_cases h1 : q ≤ maxFin f
  · rw [dif_pos h1]
    by_cases h2 : -maxFin f ≤ q
    · rw [dif_pos h2]
      exact ⟨_, rfl, fin⟩
    · rw [dif_neg h2]
      push Not at h2
      have hc : ∀ y : ℚ, Rep f y → ¬ (y : ℝ) ≤ x := fun y hy h => by
        have := hlo y hy h
        have := (abs_le.1 (rep_abs_le hy)).1
        linarith
      have hbot : RndSpec f r x ⊥ ∨ r = .up ∨ r = .zero := by
        by_cases hr : r = .up ∨ r = .zero
        · exact .inr hr
        · exact .inl ⟨fun y hy h => absurd h (hc y hy), fun _ _ _ => bot_le, fun _ => bot_le,
            fun h => absurd (.inl h) hr⟩
      have hmx : r ≠ .down → RndSpec f r x (((-maxFin f : ℚ) : ℝ) : EReal) := fun hr =>
        ⟨fun y hy h => absurd h (hc y hy), fun y hy h => by
            exact_mod_cast (abs_le.1 (rep_abs_le hy)).1, fun h => absurd h hr, fun h => by
            have := hc _ (rep_neg (rep_maxFin f))
            push Not at this
            exact_mod_cast this.le⟩
      cases r
      · exact ⟨⊥, rfl, hbot.resolve_right (by simp)⟩
      · exact ⟨⊥, rfl, hbot.resolve_right (by simp)⟩
      · exact ⟨_, val_max true, hmx (by simp)⟩
      · exact ⟨_, val_max true, hmx (by simp)⟩
  · rw [dif_neg h1]
    push Not at h1
    have hc : ∀ y : ℚ, Rep f y → ¬ x ≤ (y : ℝ) := fun y hy h => by
      have := hup y hy h
      have := (abs_le.1 (rep_abs_le hy)).2
      linarith
    have htop : RndSpec f r x ⊤ ∨ r = .down ∨ r = .zero := by
      by_cases hr : r = .down ∨ r = .zero
      · exact .inr hr
      · exact .inl ⟨fun _ _ _ => le_top, fun y hy h => absurd h (hc y hy), fun h => absurd (.inl h) hr,
          fun _ => le_top⟩
    have hmx : r ≠ .up → RndSpec f r x (((maxFin f : ℚ) : ℝ) : EReal) := fun hr =>
      ⟨fun y hy h => by exact_mod_cast (abs_le.1 (rep_abs_le hy)).2, fun y hy h => absurd h (hc y hy), fun h => by
          have := hc _ (rep_maxFin f)
          push Not at this
          exact_mod_cast this.le, fun h => absurd h hr⟩
    cases r
    · exact ⟨⊤, rfl, htop.resolve_right (by simp)⟩
    · exact ⟨_, val_max false, hmx (by simp)⟩
    · exact ⟨⊤, rfl, htop.resolve_right (by simp)⟩
    · exact ⟨_, val_max false, hmx (by simp)⟩

theorem rnd_spec_rat (r : RMode) (s : Bool) (x : ℚ) :
    ∃ z, val (rnd f r s x) = some z ∧ RndSpec f r (x : ℝ) z := by
  rw [← rnd_cast]; exact rnd_spec r s _

/-- The values of the format. -/
theorem representable_iff (e : EReal) :
    Representable (Fl f) e ↔ e = ⊥ ∨ e = ⊤ ∨ ∃ q : ℚ, Rep f q ∧ e = ((q : ℝ) : EReal) := by
  constructor
  · rintro ⟨a, ha⟩
    cases a with
    | nan => cases ha
    | inf s => cases s <;> cases ha <;> simp
    | zero s => cases ha; exact .inr (.inr ⟨0, rep_zero, by simp⟩)
    | nz q h => cases ha; exact .inr (.inr ⟨q, h.2, rfl⟩)
  · rintro (rfl | rfl | ⟨q, hq, rfl⟩)
    · exact ⟨.inf true, rfl⟩
    · exact ⟨.inf false, rfl⟩
    · by_cases h0 : q = 0
      · subst h0; exact ⟨.zero false, by simp [val]⟩
      · exact ⟨.nz q ⟨h0, hq⟩, rfl⟩

theorem RndSpec.isDown {x : ℝ} {z : EReal} (h : RndSpec f .down x z) (hz : Representable (Fl f) z) :
    IsRoundDown (Fl f) z x := by
  refine ⟨hz, h.down rfl, fun w hw hwx => ?_⟩
  rcases (representable_iff w).1 hw with rfl | rfl | ⟨q, hq, rfl⟩
  · exact bot_le
  · exact absurd hwx (by simp)
  · exact h.lo q hq (by exact_mod_cast hwx)

theorem RndSpec.isUp {x : ℝ} {z : EReal} (h : RndSpec f .up x z) (hz : Representable (Fl f) z) :
    IsRoundUp (Fl f) z x := by
  refine ⟨hz, h.upw rfl, fun w hw hwx => ?_⟩
  rcases (representable_iff w).1 hw with rfl | rfl | ⟨q, hq, rfl⟩
  · exact absurd hwx (by simp)
  · exact le_top
  · exact h.up q hq (by exact_mod_cast hwx)

/-- Rounding a number of the format does nothing. -/
theorem RndSpec.exact {r : RMode} {q : ℚ} {z : EReal} (h : RndSpec f r (q : ℝ) z) (hq : Rep f q) :
    z = ((q : ℝ) : EReal) := le_antisymm (h.up q hq le_rfl) (h.lo q hq le_rfl)

theorem rnd_exact (r : RMode) (s : Bool) {q : ℚ} (hq : Rep f q) : val (rnd f r s q) = some ((q : ℝ) : EReal) := by
  obtain ⟨z, hz, h⟩ := rnd_spec_rat (f := f) r s q
  rw [hz, h.exact hq]

theorem rep_int {n : ℤ} (h : |n| < 2 ^ f.p) : Rep f n := ⟨n, 0, h, f.hmin, f.hmax, by simp⟩

theorem rep_small {n : ℤ} (h : |n| ≤ 7) : Rep f n := by
  apply rep_int
  have : (2 : ℤ) ^ 3 ≤ 2 ^ f.p := pow_le_pow_right₀ (by norm_num) f.hp
  omega

/-! ## Comparisons, negation -/

theorem key_val (a : Fl f) :
    (a.key = none ∧ val a = none) ∨
    (∃ i q, a.key = some (i, q) ∧ ((i = -1 ∧ q = 0 ∧ val a = some ⊥) ∨ (i = 1 ∧ q = 0 ∧ val a = some ⊤) ∨
      (i = 0 ∧ val a = some ((q : ℝ) : EReal)))) := by
  cases a with
  | nan => exact .inl ⟨rfl, rfl⟩
  | inf s =>
    cases s
    · exact .inr ⟨1, 0, rfl, .inr (.inl ⟨rfl, rfl, rfl⟩)⟩
    · exact .inr ⟨-1, 0, rfl, .inl ⟨rfl, rfl, rfl⟩⟩
  | zero s => exact .inr ⟨0, 0, rfl, .inr (.inr ⟨rfl, by simp [val]⟩)⟩
  | nz q h => exact .inr ⟨0, q, rfl, .inr (.inr ⟨rfl, rfl⟩)⟩

theorem fl_val_neg (a : Fl f) : val a.neg = (val a).map fun x => -x := by
  cases a with
  | nan => rfl
  | inf s => cases s <;> simp [val, Fl.neg]
  | zero s => simp [val, Fl.neg]
  | nz q h => simp [val, Fl.neg]

instance : NumLaws (Fl f) where
  lt_iff a b := by
    change Fl.lt a b = true ↔ _
    unfold Fl.lt
    rcases key_val a with ⟨h1, h2⟩ | ⟨i, p, h1, h2⟩
    · rw [h1, h2]; simp
    · rcases key_val b with ⟨k1, k2⟩ | ⟨j, q, k1, k2⟩
      · rw [h1, k1, k2]; simp
      · rw [h1, k1]
        rcases h2 with ⟨rfl, rfl, h2⟩ | ⟨rfl, rfl, h2⟩ | ⟨rfl, h2⟩ <;>
          rcases k2 with ⟨rfl, rfl, k2⟩ | ⟨rfl, rfl, k2⟩ | ⟨rfl, k2⟩ <;> rw [h2, k2] <;> simp
  le_iff a b := by
    change Fl.le a b = true ↔ _
    unfold Fl.le
    rcases key_val a with ⟨h1, h2⟩ | ⟨i, p, h1, h2⟩
    · rw [h1, h2]; simp
    · rcases key_val b with ⟨k1, k2⟩ | ⟨j, q, k1, k2⟩
      · rw [h1, k1, k2]; simp
      · rw [h1, k1]
        rcases h2 with ⟨rfl, rfl, h2⟩ | ⟨rfl, rfl, h2⟩ | ⟨rfl, h2⟩ <;>
          rcases k2 with ⟨rfl, rfl, k2⟩ | ⟨rfl, rfl, k2⟩ | ⟨rfl, k2⟩ <;> rw [h2, k2] <;> simp
  eq_iff a b := by
    change Fl.eq a b = true ↔ _
    unfold Fl.eq
    rcases key_val a with ⟨h1, h2⟩ | ⟨i, p, h1, h2⟩
    · rw [h1, h2]; simp
    · rcases key_val b with ⟨k1, k2⟩ | ⟨j, q, k1, k2⟩
      · rw [h1, k1, k2]; simp
      · rw [h1, k1]
        rcases h2 with ⟨rfl, rfl, h2⟩ | ⟨rfl, rfl, h2⟩ | ⟨rfl, h2⟩ <;>
          rcases k2 with ⟨rfl, rfl, k2⟩ | ⟨rfl, rfl, k2⟩ | ⟨rfl, k2⟩ <;> rw [h2, k2] <;> simp [eq_comm]
  lit n h := by
    change val (rnd f .near false (n : ℚ)) = _
    rw [rnd_exact _ _ (rep_small h)]; simp
  neg a b h := by
    cases h; exact fl_val_neg a
  nan _ := rfl
  noNan h := by cases h
  inf _ := rfl

/-! ## Operations -/

theorem roundInt_mono (r : RMode) {x y : ℝ} (h : x ≤ y) : roundInt r x ≤ roundInt r y := by
  have hf := Int.floor_mono h
  have hc := Int.ceil_mono h
  cases r with
  | down => exact hf
  | up => exact hc
  | zero =>
    unfold roundInt
    dsimp only
    split_ifs with h1 h2 h2
    · exact hf
    · exact absurd (h1.trans h) h2
    · exact (Int.ceil_le.2 (by push_cast; linarith)).trans (Int.floor_nonneg.2 h2)
    · exact hc
  | near =>
    rcases hf.lt_or_eq with hlt | he
    · have h1 : roundInt .near x ≤ ⌊x⌋ + 1 := roundInt_le .near (by push_cast; exact (Int.lt_floor_add_one x).le)
      exact h1.trans (le_trans hlt (roundInt_ge .near (Int.floor_le y)))
    · unfold roundInt
      dsimp only
      rw [he]
      split_ifs <;> first | omega | (exfalso; linarith)

theorem ulpExp_mono {x y : ℝ} (hx : x ≠ 0) (h : |x| ≤ |y|) : ulpExp f x ≤ ulpExp f y := by
  unfold ulpExp
  have := Int.log_mono_right (b := 2) (abs_pos.2 hx) h
  omega

/-- The power of two at the lower end of the binade of `y` separates `y` from the numbers with smaller units. -/
theorem ulp_sep {x y : ℝ} (hx : x ≠ 0) (hy : y ≠ 0) (h : ulpExp f x < ulpExp f y) :
    ∃ m n : ℤ, (m : ℚ) * 2 ^ ulpExp f x = n * 2 ^ ulpExp f y ∧ |x| / 2 ^ ulpExp f x ≤ m ∧ (n : ℝ) ≤ |y| / 2 ^ ulpExp f y := by
  have hu : ulpExp f y = Int.log 2 |y| - f.p + 1 := by
    have := le_max_left f.emin (Int.log 2 |x| - f.p + 1)
    unfold ulpExp at h ⊢; omega
  have hl : Int.log 2 |x| + 1 ≤ Int.log 2 |y| := by
    have := le_max_right f.emin (Int.log 2 |x| - f.p + 1)
    rw [hu] at h
    unfold ulpExp at h; omega
  have hp := f.hp
  obtain ⟨i, hi⟩ := Int.le.dest (show ulpExp f x ≤ Int.log 2 |y| by omega)
  refine ⟨2 ^ i, 2 ^ (f.p - 1), ?_, ?_, ?_⟩
  · push_cast
    rw [← zpow_natCast, ← zpow_natCast, ← zpow_add₀ two_ne_zero, ← zpow_add₀ two_ne_zero]
    congr 1; omega
  · rw [div_le_iff₀ (two_zpow_pos _)]
    push_cast
    rw [← zpow_natCast, ← zpow_add₀ two_ne_zero]
    have h1 : |x| < (2 : ℝ) ^ (Int.log 2 |x| + 1) := by
      exact_mod_cast Int.lt_zpow_succ_log_self (b := 2) one_lt_two |x|
    exact h1.le.trans (two_zpow_le (by omega))
  · rw [le_div_iff₀ (two_zpow_pos _)]
    push_cast
    rw [← zpow_natCast, ← zpow_add₀ two_ne_zero]
    have h1 : (2 : ℝ) ^ Int.log 2 |y| ≤ |y| := by
      exact_mod_cast Int.zpow_log_le_self (b := 2) one_lt_two (abs_pos.2 hy)
    exact (two_zpow_le (by omega)).trans h1

theorem roundUnb_nonneg (r : RMode) {x : ℝ} (h : 0 ≤ x) : 0 ≤ roundUnb f r x := by
  unfold roundUnb
  refine mul_nonneg ?_ (two_zpow_pos _).le
  exact_mod_cast roundInt_ge r (x := x / (2 : ℝ) ^ ulpExp f x) (n := 0) (by push_cast; exact div_nonneg h (two_zpow_pos _).le)

theorem roundUnb_nonpos (r : RMode) {x : ℝ} (h : x ≤ 0) : roundUnb f r x ≤ 0 := by
  unfold roundUnb
  refine mul_nonpos_of_nonpos_of_nonneg ?_ (two_zpow_pos _).le
  exact_mod_cast roundInt_le r (x := x / (2 : ℝ) ^ ulpExp f x) (n := 0) (by push_cast; exact div_nonpos_of_nonpos_of_nonneg h (two_zpow_pos _).le)

/-- Rounding to the precision of the format is monotone in every mode. -/
theorem roundUnb_mono (r : RMode) {x y : ℝ} (h : x ≤ y) : roundUnb f r x ≤ roundUnb f r y := by
  have same : ulpExp f x = ulpExp f y → roundUnb f r x ≤ roundUnb f r y := by
    intro e
    unfold roundUnb
    rw [e]
    refine mul_le_mul_of_nonneg_right ?_ (two_zpow_pos _).le
    exact_mod_cast roundInt_mono r (div_le_div_of_nonneg_right h (two_zpow_pos _).le)
  rcases le_or_gt x 0 with hx | hx
  · rcases le_or_gt 0 y with hy | hy
    · exact (roundUnb_nonpos r hx).trans (roundUnb_nonneg r hy)
    · have hx' : x < 0 := h.trans_lt hy
      rcases (ulpExp_mono (f := f) hy.ne (by rw [abs_of_neg hx', abs_of_neg hy]; linarith : |y| ≤ |x|)).lt_or_eq with hlt | he
      · obtain ⟨m, n, e, h1, h2⟩ := ulp_sep hy.ne hx'.ne hlt
        rw [abs_of_neg hy] at h1; rw [abs_of_neg hx'] at h2
        unfold roundUnb
        have k1 : (-m : ℤ) ≤ roundInt r (y / 2 ^ ulpExp f y) := roundInt_ge r (by push_cast; rw [neg_div] at h1; linarith)
        have k2 : roundInt r (x / 2 ^ ulpExp f x) ≤ (-n : ℤ) := roundInt_le r (by push_cast; rw [neg_div] at h2; linarith)
        calc _ ≤ ((-n : ℤ) : ℚ) * 2 ^ ulpExp f x := mul_le_mul_of_nonneg_right (by exact_mod_cast k2) (two_zpow_pos _).le
          _ = ((-m : ℤ) : ℚ) * 2 ^ ulpExp f y := by push_cast; rw [neg_mul, neg_mul, e]
          _ ≤ _ := mul_le_mul_of_nonneg_right (by exact_mod_cast k1) (two_zpow_pos _).le
      · exact same he.symm
  · have hy := hx.trans_le h
    rcases (ulpExp_mono (f := f) hx.ne' (by rw [abs_of_pos hx, abs_of_pos hy]; exact h : |x| ≤ |y|)).lt_or_eq with hlt | he
    · obtain ⟨m, n, e, h1, h2⟩ := ulp_sep hx.ne' hy.ne' hlt
      rw [abs_of_pos hx] at h1; rw [abs_of_pos hy] at h2
      unfold roundUnb
      calc _ ≤ (m : ℚ) * 2 ^ ulpExp f x := mul_le_mul_of_nonneg_right (by exact_mod_cast roundInt_le r h1) (two_zpow_pos _).le
        _ = (n : ℚ) * 2 ^ ulpExp f y := e
        _ ≤ _ := mul_le_mul_of_nonneg_right (by exact_mod_cast roundInt_ge r h2) (two_zpow_pos _).le
    · exact same he

/-- The value of a rounded number, by what rounding without limits on the exponent gives. -/
theorem val_rnd (r : RMode) (s : Bool) (x : ℝ) : val (rnd f r s x) =
    if roundUnb f r x ≤ maxFin f then if -maxFin f ≤ roundUnb f r x then some ((roundUnb f r x : ℝ) : EReal)
      else val (overflow f r true) else val (overflow f r false) := by
  have h0 : (0 : ℚ) ≤ maxFin f := by
    have := rep_abs_le (rep_zero (f := f)); simpa using this
  unfold rnd
  by_cases hx : x = 0
  · have : roundUnb f r x = 0 := le_antisymm (roundUnb_nonpos r hx.le) (roundUnb_nonneg r hx.ge)
    rw [if_pos hx, this, if_pos h0, if_pos (by linarith)]; simp [val]
  rw [if_neg hx]
  by_cases h : roundUnb f r x = 0
  · rw [dif_pos h, h, if_pos h0, if_pos (by linarith)]; simp [val]
  rw [dif_neg h]
  split_ifs <;> rfl

/-- Rounding is monotone in every mode. -/
theorem rnd_mono (r : RMode) {s t : Bool} {x y : ℝ} {a b : EReal} (ha : val (rnd f r s x) = some a)
    (hb : val (rnd f r t y) = some b) (h : x ≤ y) : a ≤ b := by
  have hm := roundUnb_mono (f := f) r h
  have h0 : (0 : ℚ) ≤ maxFin f := by
    have := rep_abs_le (rep_zero (f := f)); simpa using this
  rw [val_rnd] at ha hb
  have hlo : ∀ {c}, val (overflow f r true) = some c → c ≤ (((-maxFin f : ℚ) : ℝ) : EReal) := by
    intro c hc
    cases r <;> cases hc <;> first | exact bot_le | exact le_rfl
  have hhi : ∀ {c}, val (overflow f r false) = some c → (((maxFin f : ℚ) : ℝ) : EReal) ≤ c := by
    intro c hc
    cases r <;> cases hc <;> first | exact le_top | exact le_rfl
  have hmid : (((-maxFin f : ℚ) : ℝ) : EReal) ≤ (((maxFin f : ℚ) : ℝ) : EReal) := by
    exact_mod_cast (by linarith : -maxFin f ≤ maxFin f)
  split_ifs at ha hb with h1 h2 h3 h4 h5 h6
  all_goals first
    | (exfalso; linarith)
    | (cases ha; cases hb; exact_mod_cast hm)
    | (cases ha; exact le_trans (by exact_mod_cast h1) (hhi hb))
    | (cases hb; exact (hlo ha).trans (by exact_mod_cast (by assumption)))
    | exact ((hlo ha).trans hmid).trans (hhi hb)
    | exact (Option.some.inj (ha.symm.trans hb)).le

/-- The value of an extended real rounded to the format. -/
noncomputable def eround (f : Fmt) (r : RMode) : EReal → EReal
  | ⊤ => ⊤
  | ⊥ => ⊥
  | (x : ℝ) => (val (rnd f r false x)).getD 0

theorem eround_rnd (r : RMode) (s : Bool) (x : ℝ) : val (rnd f r s x) = some (eround f r (x : EReal)) := by
  obtain ⟨z, hz, -⟩ := rnd_spec (f := f) r false x
  have : eround f r (x : EReal) = z := by
    change (val (rnd f r false x)).getD 0 = z
    rw [hz]; rfl
  rw [this, ← hz, val_rnd, val_rnd]

theorem eround_mono (r : RMode) {d e : EReal} (h : d ≤ e) : eround f r d ≤ eround f r e := by
  induction d with
  | bot => exact bot_le
  | top => rw [top_le_iff.1 h]
  | coe x =>
    induction e with
    | bot => exact absurd h (by simp)
    | top => exact le_top
    | coe y => exact rnd_mono r (eround_rnd r false x) (eround_rnd r false y) (EReal.coe_le_coe_iff.1 h)

/-- Numbers of the format are not changed. -/
theorem eround_val (r : RMode) {a : Fl f} {e : EReal} (h : val a = some e) : eround f r e = e := by
  rcases (representable_iff e).1 ⟨a, h⟩ with rfl | rfl | ⟨q, hq, rfl⟩
  · rfl
  · rfl
  · have := eround_rnd (f := f) r false (q : ℝ)
    rw [rnd_cast, rnd_exact r false hq] at this
    exact (Option.some.inj this).symm

/-- Specification of the rounding `z` of an extended real `e`. -/
structure ESpec (f : Fmt) (r : RMode) (e z : EReal) : Prop where
  eq : z = eround f r e
  lo : ∀ w, Representable (Fl f) w → w ≤ e → w ≤ z
  up : ∀ w, Representable (Fl f) w → e ≤ w → z ≤ w
  down : r = .down → z ≤ e
  upw : r = .up → e ≤ z

theorem ESpec.refl (r : RMode) {a : Fl f} {e : EReal} (h : val a = some e) : ESpec f r e e :=
  ⟨(eround_val r h).symm, fun _ _ h => h, fun _ _ h => h, fun _ => le_rfl, fun _ => le_rfl⟩

theorem RndSpec.toE {r : RMode} {x : ℝ} {z : EReal} (h : RndSpec f r x z) (e : z = eround f r x) : ESpec f r (x : EReal) z := by
  refine ⟨e, fun w hw hwx => ?_, fun w hw hwx => ?_, h.down, h.upw⟩
  · rcases (representable_iff w).1 hw with rfl | rfl | ⟨q, hq, rfl⟩
    · exact bot_le
    · exact absurd hwx (by simp)
    · exact h.lo q hq (by exact_mod_cast hwx)
  · rcases (representable_iff w).1 hw with rfl | rfl | ⟨q, hq, rfl⟩
    · exact absurd hwx (by simp)
    · exact le_top
    · exact h.up q hq (by exact_mod_cast hwx)

/-- `a` is a number whose value is a rounding of `e`. -/
def Rounds (f : Fmt) (r : RMode) (e : EReal) (a : Fl f) : Prop := ∃ z, val a = some z ∧ ESpec f r e z

theorem Rounds.exact {r : RMode} {e : EReal} {a : Fl f} (h : val a = some e) : Rounds f r e a :=
  ⟨e, h, ESpec.refl r h⟩

theorem rnd_rounds (r : RMode) (s : Bool) (x : ℝ) : Rounds f r (x : EReal) (rnd f r s x) := by
  obtain ⟨z, hz, h⟩ := rnd_spec (f := f) r s x
  exact ⟨z, hz, h.toE (Option.some.inj (hz.symm.trans (eround_rnd r s x)))⟩

theorem rnd_rounds_rat (r : RMode) (s : Bool) (x : ℚ) : Rounds f r ((x : ℝ) : EReal) (rnd f r s x) := by
  rw [← rnd_cast]; exact rnd_rounds r s _

theorem Rounds.isDown {e : EReal} {a : Fl f} (h : Rounds f .down e a) : ∃ z, val a = some z ∧ IsRoundDown (Fl f) z e := by
  obtain ⟨z, hz, h⟩ := h
  exact ⟨z, hz, ⟨a, hz⟩, h.down rfl, h.lo⟩

theorem Rounds.isUp {e : EReal} {a : Fl f} (h : Rounds f .up e a) : ∃ z, val a = some z ∧ IsRoundUp (Fl f) z e := by
  obtain ⟨z, hz, h⟩ := h
  exact ⟨z, hz, ⟨a, hz⟩, h.upw rfl, h.up⟩

theorem val_inf (s : Bool) : val (Fl.inf s : Fl f) = some (if s then ⊥ else ⊤) := by cases s <;> rfl
theorem val_fzero (s : Bool) : val (Fl.zero s : Fl f) = some 0 := rfl
theorem val_nz (q : ℚ) (h) : val (Fl.nz q h : Fl f) = some ((q : ℝ) : EReal) := rfl

theorem add_rounds (r : RMode) {a b : Fl f} {x y : EReal} (ha : val a = some x) (hb : val b = some y)
    (ok : AddOk x y) : Rounds f r (x + y) (a.add r b) := by
  cases a with
  | nan => cases ha
  | inf s =>
    cases b with
    | nan => cases hb
    | inf t =>
      cases s <;> cases t <;> cases ha <;> cases hb
      · exact Rounds.exact rfl
      · exact absurd ok.1 (by simp)
      · exact absurd ok.2 (by simp)
      · exact Rounds.exact rfl
    | zero t =>
      cases s <;> cases ha <;> cases hb <;> exact Rounds.exact (by simp [Fl.add, val])
    | nz q h =>
      cases s <;> cases ha <;> cases hb <;> exact Rounds.exact (by simp [Fl.add, val])
  | zero s =>
    cases ha
    rw [zero_add]
    cases b with
    | nan => cases hb
    | inf t => cases t <;> cases hb <;> exact Rounds.exact (by simp [Fl.add, val])
    | zero t => cases hb; exact Rounds.exact (by unfold Fl.add; dsimp only; split <;> rfl)
    | nz q h => cases hb; exact Rounds.exact (by simp [Fl.add, val])
  | nz p hp =>
    cases ha
    cases b with
    | nan => cases hb
    | inf t => cases t <;> cases hb <;> exact Rounds.exact (by simp [Fl.add, val])
    | zero t => cases hb; rw [add_zero]; exact Rounds.exact (by simp [Fl.add, val])
    | nz q h =>
      cases hb
      have := rnd_rounds_rat (f := f) r (Fl.zeroSign r) (p + q)
      rw [Rat.cast_add, EReal.coe_add] at this
      exact this

theorem sub_rounds (r : RMode) {a b : Fl f} {x y : EReal} (ha : val a = some x) (hb : val b = some y)
    (ok : SubOk x y) : Rounds f r (x - y) (a.sub r b) := by
  rw [sub_eq_add_neg]
  refine add_rounds r ha (y := -y) ?_ ?_
  · rw [fl_val_neg, hb]; rfl
  · obtain ⟨h1, h2⟩ := ok
    constructor
    · rcases h1 with h | h
      · exact .inl h
      · exact .inr (by simpa using h)
    · rcases h2 with h | h
      · exact .inl h
      · exact .inr (by simpa using h)

theorem coe_neg_iff {q : ℚ} : ((q : ℝ) : EReal) < 0 ↔ q < 0 := by exact_mod_cast Iff.rfl
theorem coe_pos_iff {q : ℚ} : 0 < ((q : ℝ) : EReal) ↔ 0 < q := by exact_mod_cast Iff.rfl

theorem mul_rounds (r : RMode) {a b : Fl f} {x y : EReal} (ha : val a = some x) (hb : val b = some y)
    (ok : MulOk x y) : Rounds f r (x * y) (a.mul r b) := by
  cases a with
  | nan => cases ha
  | inf s =>
    cases b with
    | nan => cases hb
    | inf t => cases s <;> cases t <;> cases ha <;> cases hb <;> exact Rounds.exact (by simp [Fl.mul, Fl.isNeg, val])
    | zero t => cases s <;> cases ha <;> cases hb <;> exact absurd ok.2 (by simp)
    | nz q h =>
      cases hb
      rcases lt_or_gt_of_ne h.1 with hq | hq
      · have hq' := coe_neg_iff.2 hq
        cases s <;> cases ha <;> refine Rounds.exact ?_
        · rw [EReal.top_mul_of_neg hq']; simp [Fl.mul, Fl.isNeg, hq, val]
        · rw [EReal.bot_mul_of_neg hq']; simp [Fl.mul, Fl.isNeg, hq, val]
      · have hq' := coe_pos_iff.2 hq
        cases s <;> cases ha <;> refine Rounds.exact ?_
        · rw [EReal.top_mul_of_pos hq']; simp [Fl.mul, Fl.isNeg, not_lt.2 hq.le, val]
        · rw [EReal.bot_mul_of_pos hq']; simp [Fl.mul, Fl.isNeg, not_lt.2 hq.le, val]
  | zero s =>
    cases ha
    rw [zero_mul]
    cases b with
    | nan => cases hb
    | inf t => cases t <;> cases hb <;> exact absurd ok.1 (by simp)
    | zero t => exact Rounds.exact rfl
    | nz q h => exact Rounds.exact rfl
  | nz p hp =>
    cases ha
    cases b with
    | nan => cases hb
    | inf t =>
      rcases lt_or_gt_of_ne hp.1 with hq | hq
      · have hq' := coe_neg_iff.2 hq
        cases t <;> cases hb <;> refine Rounds.exact ?_
        · rw [EReal.mul_top_of_neg hq']; simp [Fl.mul, Fl.isNeg, hq, val]
        · rw [EReal.mul_bot_of_neg hq']; simp [Fl.mul, Fl.isNeg, hq, val]
      · have hq' := coe_pos_iff.2 hq
        cases t <;> cases hb <;> refine Rounds.exact ?_
        · rw [EReal.mul_top_of_pos hq']; simp [Fl.mul, Fl.isNeg, not_lt.2 hq.le, val]
        · rw [EReal.mul_bot_of_pos hq']; simp [Fl.mul, Fl.isNeg, not_lt.2 hq.le, val]
    | zero t => cases hb; rw [mul_zero]; exact Rounds.exact rfl
    | nz q h =>
      cases hb
      have := rnd_rounds_rat (f := f) r false (p * q)
      rw [Rat.cast_mul, EReal.coe_mul] at this
      exact this

theorem div_rounds (r : RMode) {a b : Fl f} {x y : EReal} (ha : val a = some x) (hb : val b = some y)
    (ok : DivOk x y) : Rounds f r (x / y) (a.div r b) := by
  cases b with
  | nan => cases hb
  | zero t => cases hb; exact absurd rfl ok.1
  | inf t =>
    cases a with
    | nan => cases ha
    | inf s => cases s <;> cases t <;> cases ha <;> cases hb <;> exact absurd ok.2 (by simp)
    | zero s => cases t <;> cases ha <;> cases hb <;> exact Rounds.exact (by simp [Fl.div, val])
    | nz q h => cases t <;> cases ha <;> cases hb <;> exact Rounds.exact (by simp [Fl.div, val])
  | nz q h =>
    cases hb
    cases a with
    | nan => cases ha
    | inf s =>
      rcases lt_or_gt_of_ne h.1 with hq | hq
      · have hq' := coe_neg_iff.2 hq
        cases s <;> cases ha <;> refine Rounds.exact ?_
        · rw [EReal.top_div_of_neg_ne_bot hq' (EReal.coe_ne_bot _)]; simp [Fl.div, Fl.isNeg, hq, val]
        · rw [EReal.bot_div_of_neg_ne_bot hq' (EReal.coe_ne_bot _)]; simp [Fl.div, Fl.isNeg, hq, val]
      · have hq' := coe_pos_iff.2 hq
        cases s <;> cases ha <;> refine Rounds.exact ?_
        · rw [EReal.top_div_of_pos_ne_top hq' (EReal.coe_ne_top _)]; simp [Fl.div, Fl.isNeg, not_lt.2 hq.le, val]
        · rw [EReal.bot_div_of_pos_ne_top hq' (EReal.coe_ne_top _)]; simp [Fl.div, Fl.isNeg, not_lt.2 hq.le, val]
    | zero s => cases ha; exact Rounds.exact (by simp [Fl.div, val])
    | nz p hp =>
      cases ha
      have := rnd_rounds_rat (f := f) r false (p / q)
      rw [Rat.cast_div, EReal.coe_div] at this
      exact this

theorem sqrt_rounds (r : RMode) {a : Fl f} {x : EReal} (ha : val a = some x) (h0 : 0 ≤ x) :
    Rounds f r (esqrt x) (a.sqrt r) := by
  cases a with
  | nan => cases ha
  | inf s => cases s <;> cases ha; exacts [Rounds.exact rfl, absurd h0 (by simp)]
  | zero s =>
    cases ha
    have : esqrt 0 = 0 := by
      change esqrt ((0 : ℝ) : EReal) = 0
      change ((Real.sqrt 0 : ℝ) : EReal) = 0
      simp
    rw [this]
    exact Rounds.exact rfl
  | nz q h =>
    cases ha
    have hq : ¬ q < 0 := fun hq => absurd h0 (not_le.2 (coe_neg_iff.2 hq))
    have : Fl.sqrt r (Fl.nz q h) = rnd f r false (Real.sqrt q) := by
      rw [← rnd_sqrtApprox r false (lt_of_le_of_ne (not_lt.1 hq) h.1.symm)]; simp [Fl.sqrt, hq]
    rw [this]
    exact rnd_rounds r false _

/-! ## The opposite trick -/

theorem neg_neg' (a : Fl f) : a.neg.neg = a := by
  cases a <;> simp [Fl.neg]

theorem rnd_neg (s : Bool) (x : ℝ) : (rnd f .up s (-x)).neg = rnd f .down (!s) x := by
  unfold rnd
  by_cases hx : x = 0
  · simp [hx, Fl.neg]
  rw [if_neg hx, if_neg (neg_ne_zero.2 hx)]
  have e := roundUnb_neg (f := f) x
  by_cases h0 : roundUnb f .down x = 0
  · rw [dif_pos h0, dif_pos (by rw [e, h0]; simp)]
    rcases lt_or_gt_of_ne hx with h | h
    · simp [Fl.neg, h, h.le]
    · simp [Fl.neg, h, h.le]
  rw [dif_neg h0, dif_neg (by rw [e]; simpa using h0)]
  by_cases h1 : roundUnb f .down x ≤ maxFin f
  · rw [dif_pos h1]
    by_cases h2 : -maxFin f ≤ roundUnb f .down x
    · rw [dif_pos h2, dif_pos (by rw [e]; linarith), dif_pos (by rw [e]; linarith)]
      simp only [e, Fl.neg, _root_.neg_neg]
    · rw [dif_neg h2, dif_neg (by rw [e]; intro h; exact h2 (by linarith))]
      rfl
  · rw [dif_neg h1]
    have := maxFin_pos f
    rw [dif_pos (by rw [e]; linarith [not_le.1 h1]), dif_neg (by rw [e]; intro h; exact h1 (by linarith))]
    simp [overflow, Fl.max, Fl.neg]

theorem rnd_neg_rat (s : Bool) (x : ℚ) : (rnd f .up s (-x)).neg = rnd f .down (!s) x := by
  have := rnd_neg (f := f) s (x : ℝ)
  rw [rnd_cast, ← Rat.cast_neg, rnd_cast] at this
  exact this

/-- `-((-x) - y)` computed upward is `x + y` computed downward, to the bit. -/
theorem add_opp (a b : Fl f) : (a.neg.sub .up b).neg = a.add .down b := by
  cases a with
  | nan => cases b <;> rfl
  | inf s =>
    cases b with
    | nan => rfl
    | inf t => cases s <;> cases t <;> rfl
    | zero t => cases s <;> cases t <;> rfl
    | nz q h => cases s <;> rfl
  | zero s =>
    cases b with
    | nan => rfl
    | inf t => cases s <;> cases t <;> rfl
    | zero t => cases s <;> cases t <;> rfl
    | nz q h => cases s <;> simp [Fl.neg, Fl.sub, Fl.add]
  | nz p hp =>
    cases b with
    | nan => rfl
    | inf t => cases t <;> rfl
    | zero t => cases t <;> simp [Fl.neg, Fl.sub, Fl.add]
    | nz q h =>
      change (rnd f .up false (-p + -q)).neg = rnd f .down true (p + q)
      rw [← neg_add, rnd_neg_rat]; rfl

/-- `-(y - x)` computed upward is `x - y` computed downward. -/
theorem sub_opp (a b : Fl f) : (b.sub .up a).neg = a.sub .down b := by
  have := add_opp a b.neg
  unfold Fl.sub at this ⊢
  rw [neg_neg'] at this
  rw [← this]
  congr 1
  cases a with
  | nan => cases b <;> rfl
  | inf s =>
    cases b with
    | nan => rfl
    | inf t => cases s <;> cases t <;> rfl
    | zero t => cases s <;> cases t <;> rfl
    | nz q h => cases s <;> rfl
  | zero s =>
    cases b with
    | nan => rfl
    | inf t => cases s <;> cases t <;> rfl
    | zero t => cases s <;> cases t <;> rfl
    | nz q h => cases s <;> simp [Fl.neg, Fl.add]
  | nz p hp =>
    cases b with
    | nan => rfl
    | inf t => cases t <;> rfl
    | zero t => cases t <;> simp [Fl.neg, Fl.add]
    | nz q h =>
      change rnd f .up false (q + -p) = rnd f .up false (-p + q)
      rw [add_comm]

theorem dec_pos {q : ℚ} (h : q ≠ 0) : decide (0 < q) = !decide (q < 0) := by
  rcases lt_or_gt_of_ne h with h' | h'
  · simp [h', h'.le]
  · simp [h', h'.le]

theorem mul_opp (a b : Fl f) : (a.mul .up b.neg).neg = a.mul .down b := by
  cases a with
  | nan => cases b <;> rfl
  | inf s =>
    cases b with
    | nan => rfl
    | inf t => cases s <;> cases t <;> rfl
    | zero t => cases s <;> cases t <;> rfl
    | nz q h =>
      simp only [Fl.neg, Fl.mul, Fl.isNeg]
      cases s <;> simp [dec_pos h.1]
  | zero s =>
    cases b with
    | nan => rfl
    | inf t => cases s <;> cases t <;> rfl
    | zero t => cases s <;> cases t <;> rfl
    | nz q h =>
      simp only [Fl.neg, Fl.mul, Fl.isNeg]
      cases s <;> simp [dec_pos h.1]
  | nz p hp =>
    cases b with
    | nan => rfl
    | inf t => simp only [Fl.neg, Fl.mul]; cases t <;> simp
    | zero t => simp only [Fl.neg, Fl.mul]; cases t <;> simp
    | nz q h =>
      change (rnd f .up false (p * -q)).neg = rnd f .down false (p * q)
      rw [mul_neg, rnd_neg_rat]
      have : p * q ≠ 0 := mul_ne_zero hp.1 h.1
      unfold rnd; rw [if_neg this, if_neg this]

theorem div_opp (a b : Fl f) : (a.div .up b.neg).neg = a.div .down b := by
  cases a with
  | nan => cases b <;> rfl
  | inf s =>
    cases b with
    | nan => rfl
    | inf t => cases s <;> cases t <;> rfl
    | zero t => cases s <;> cases t <;> rfl
    | nz q h =>
      simp only [Fl.neg, Fl.div, Fl.isNeg]
      cases s <;> simp [dec_pos h.1]
  | zero s =>
    cases b with
    | nan => rfl
    | inf t => cases s <;> cases t <;> rfl
    | zero t => cases s <;> cases t <;> rfl
    | nz q h =>
      simp only [Fl.neg, Fl.div, Fl.isNeg]
      cases s <;> simp [dec_pos h.1]
  | nz p hp =>
    cases b with
    | nan => rfl
    | inf t => simp only [Fl.neg, Fl.div]; cases t <;> simp
    | zero t => simp only [Fl.neg, Fl.div]; cases t <;> simp
    | nz q h =>
      change (rnd f .up false (p / -q)).neg = rnd f .down false (p / q)
      rw [div_neg, rnd_neg_rat]
      have : p / q ≠ 0 := div_ne_zero hp.1 h.1
      unfold rnd; rw [if_neg this, if_neg this]

theorem roundInt_neg (x : ℚ) : roundInt .up (-x) = -roundInt .down x := by
  unfold roundInt; exact Int.ceil_neg

theorem rint_opp (a : Fl f) : (a.neg.rint .up).neg = a.rint .down := by
  cases a with
  | nan => rfl
  | inf s => cases s <;> rfl
  | zero s => cases s <;> rfl
  | nz q h =>
    change (rnd f .up (decide (-q < 0)) (roundInt .up (-q) : ℚ)).neg = rnd f .down (decide (q < 0)) (roundInt .down q : ℚ)
    rw [roundInt_neg, Int.cast_neg, rnd_neg_rat]
    congr 1
    rcases lt_or_gt_of_ne h.1 with h' | h'
    · simp [h', h'.le]
    · simp [h', h'.le]

/-! ## Laws -/

theorem Rounds.approx {op : RMode → Option (Fl f)} {g : RMode → Fl f} {e : EReal} (hg : ∀ r, op r = some (g r))
    (h : ∀ r, Rounds f r e (g r)) : Approx (Fl f) (IsRoundDown (Fl f)) (IsRoundUp (Fl f)) op e := by
  intro r
  obtain ⟨z, hz, h'⟩ := h r
  exact ⟨g r, z, hg r, hz, fun hr => ⟨⟨_, hz⟩, h'.down hr, h'.lo⟩, fun hr => ⟨⟨_, hz⟩, h'.upw hr, h'.up⟩⟩

/-- Floating-point arithmetic is correctly rounded. -/
theorem fl_tight : TightBase (Fl f) where
  neg a := by intro h; cases h
  add _ _ _ _ ha hb ok := Rounds.approx (fun _ => rfl) fun r => add_rounds r ha hb ok
  sub _ _ _ _ ha hb ok := Rounds.approx (fun _ => rfl) fun r => sub_rounds r ha hb ok
  mul _ _ _ _ ha hb ok := Rounds.approx (fun _ => rfl) fun r => mul_rounds r ha hb ok
  div _ _ _ _ ha hb ok := Rounds.approx (fun _ => rfl) fun r => div_rounds r ha hb ok

theorem fl_inf : InfBase (Fl f) := ⟨rfl, rfl⟩

/-- On floating-point numbers the two kinds of rounding policies deliver the same arithmetic (conversions and
transcendental functions aside). -/
theorem opp_eq_std (lib : Lib (Fl f)) :
    pureArith .opp lib =
      { pureArith .std lib with
        convDown := (pureArith .opp lib).convDown
        fnDown := (pureArith .opp lib).fnDown } := by
  unfold pureArith
  simp only [Arith.mk.injEq, true_and]
  refine ⟨?_, ?_, ?_, ?_, ?_, ?_⟩
  · funext x y; change Except.ok (x.neg.sub .up y).neg = Except.ok (x.add .down y); rw [add_opp]
  · funext x y; change Except.ok (y.sub .up x).neg = Except.ok (x.sub .down y); rw [sub_opp]
  · funext x y; change Except.ok (x.mul .up y.neg).neg = Except.ok (x.mul .down y); rw [mul_opp]
  · funext x y; change Except.ok (x.div .up y.neg).neg = Except.ok (x.div .down y); rw [div_opp]
  · funext x; change Except.ok (x.neg.rint .up).neg = Except.ok (x.rint .down); rw [rint_opp]
  · rfl

end BI
